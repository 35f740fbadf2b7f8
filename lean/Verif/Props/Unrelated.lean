import Verif.Proofs.Unrelated
import Verif.Props.SqlRun

/-
C95: tables that are neither selected nor needed do not matter.
-/
namespace Subsetter.Props
open Spec

/-- C95 for planning: tables of the source that match no pattern of the selection do not change the plan, unless a
selected table needs them. -/
theorem c95_plan {f : Str → Str → Bool} {db db' : Dict Str TableMeta} {cfg : PlannerConfig} (hdb : DbOK db) (hdb' : DbOK db')
    (hc : DbClosed db) (hsub : db.Sublist db')
    (hun : ∀ e ∈ db', e ∉ db → ∀ pat ∈ cfg.select ++ cfg.passthrough, f e.1 pat = false) : plan f db' cfg = plan f db cfg :=
  plan_beside hdb hdb' ⟨hsub, hun, fun h => (nomatch h), fun _ h => relevant_closed hc h⟩

variable {σ : Type} {C : RunConfig} {D : Setting σ} {p : Plan} {S : DbState} {s : σ}

/-- C95 for the source of a run: the outcome is the same in every respect. -/
theorem c95_source (hok : RunOK C D p) {db' : Dict Str TableMeta} (hb : BesideSource D p db') {src' : Key → List Row}
    (hrows : ∀ k, InDb D.srcDb k → src' k = D.src k) :
    sample C { D with srcDb := db', src := src' } p S s = sample C D p S s :=
  sample_besideSource hok.src hok.plan hb hrows S s

/-- C95 for the destination of a run: the same states are committed, the same rows are written and the same tables
are created, or the same error is raised. -/
theorem c95_destination (hok : RunOK C D p) {db' : Dict Str TableMeta} (hb : BesideDest C D p db') :
    ∃ created, (sample C D p S s).schema = D.dstDb ++ created ∧
      sample C { D with dstDb := db' } p S s = { sample C D p S s with schema := db' ++ created } :=
  sample_besideDest hok.dst hb S s

/-- C95. At any time of a run, unrelated tables of the destination have the rows they had before. -/
theorem c95_kept (hok : RunOK C D p) {db' : Dict Str TableMeta} (hb : BesideDest C D p db') {e : Str × TableMeta}
    (he : e ∈ db') (hne : e ∉ D.dstDb) :
    ∀ X ∈ (sample C { D with dstDb := db' } p S s).hist, X (e.2.schema, e.2.name) = S (e.2.schema, e.2.name) := by
  obtain ⟨created, -, h1⟩ := c95_destination (S := S) (s := s) hok hb
  rw [h1]
  have hname := hb.ok.name_eq e.1 e.2 he
  have hin : ¬ InDb D.dstDb (e.2.schema, e.2.name) := by
    rintro ⟨n, t, g1, g2⟩
    obtain ⟨g3, g4⟩ := Prod.mk.inj g2
    have g5 : n = e.1 := by rw [hname, hok.dst.name_eq n t g1, g3, g4]
    subst g5
    have g6 := dget_of_mem hb.ok.names_nodup (hb.sub.subset g1)
    rw [dget_of_mem hb.ok.names_nodup (show (e.1, e.2) ∈ db' from he)] at g6
    rw [← Option.some.inj g6] at g1
    exact hne g1
  have hreach : ¬ Reached C D p (e.2.schema, e.2.name) := by
    rintro ⟨n, hn, d, hd, ⟨-, rfl⟩ | ⟨t, ⟨n', t', g1, g2, -⟩, g3⟩⟩
    · exact (hb.unmatched e he hne n hn _ hd).1 hname
    · rcases Relation.ReflTransGen.cases_tail g3 with rfl | ⟨c, -, n, t, fk, g4, g5, -⟩
      · exact hin ⟨n', t', g1, g2⟩
      · exact hin ⟨n, t, g4, g5⟩
  have hno : ∀ {X : DbState} {k : Key}, ¬ Reached C D p k → X k = S k ∨ (C.truncate = true ∧ Reached C D p k ∧ X k = []) → X k = S k :=
    fun h1 h2 => h2.elim id fun h3 => absurd h3.2.1 h1
  intro X hX
  rcases c62_any_time (S := S) (s := s) hok with g | ⟨order, B, Smp, ids, T, mult, compact, offs, g1, g2⟩
  · exact hno hreach (g X hX _)
  · rcases g2 X hX with g3 | ⟨done, todo, g3⟩
    · exact hno hreach (g3 _)
    · rw [g3.others _ fun n k t td hc => hreach hc.reached]
      exact g1.begins.kept _ fun _ => hreach

/-- C95 for planning and sampling: with further tables on both sides the plan is the same, and so is what the run
does. -/
theorem c95_command (hok : RunOK C D p) {cfg : PlannerConfig} (hplan : plan D.fnmatch D.srcDb cfg = .ok p)
    (hc : DbClosed D.srcDb) {db' : Dict Str TableMeta} (hb : BesideSource D p db')
    (hun : ∀ e ∈ db', e ∉ D.srcDb → ∀ pat ∈ cfg.select ++ cfg.passthrough, D.fnmatch e.1 pat = false)
    {src' : Key → List Row} (hrows : ∀ k, InDb D.srcDb k → src' k = D.src k) {dst' : Dict Str TableMeta}
    (hd : BesideDest C D p dst') :
    plan D.fnmatch db' cfg = .ok p ∧ ∃ created, (sample C D p S s).schema = D.dstDb ++ created ∧
      sample C { D with srcDb := db', src := src', dstDb := dst' } p S s = { sample C D p S s with schema := dst' ++ created } := by
  refine ⟨by rw [c95_plan hok.src hb.ok hc hb.sub hun, hplan], ?_⟩
  obtain ⟨created, h1, h2⟩ := c95_destination (S := S) (s := s) hok hd
  refine ⟨created, h1, ?_⟩
  rw [← h2]
  exact sample_besideSource (D := { D with dstDb := dst' }) hok.src hok.plan ⟨hb.sub, hb.ok, hb.unmatched⟩ hrows S s

/-! ### Examples -/

/-- Further tables: one of the source refers to users, those of the destination to each other. -/
def urZ (s : Str) (fks : List ForeignKey) : TableMeta := { schema := s, name := str! "z", columns := [str! "id", str! "uid"], primaryKey := [str! "id"], foreignKeys := fks }
def urSrcDb : Dict Str TableMeta := [(str! "s.o", rxO (str! "s")), (str! "s.z", urZ (str! "s") [⟨[str! "uid"], str! "s", str! "u", [str! "id"]⟩]), (str! "s.u", rxU (str! "s"))]
def urSrc : Key → List Row := fun k => if k = (str! "s", str! "z") then [[(str! "id", .int 1), (str! "uid", .int 2)]] else exSrc k
def urY : TableMeta := { schema := str! "m", name := str! "y", columns := [str! "id"], primaryKey := [str! "id"], foreignKeys := [⟨[str! "id"], str! "m", str! "z", [str! "id"]⟩] }
def urDst : Dict Str TableMeta := (str! "m.y", urY) :: rxDst ++ [(str! "m.z", urZ (str! "m") [])]
def urC : RunConfig := { remap := dxRemap, truncate := true, compact := { primaryKeys := true, startKey := 100 } }
def urBefore : DbState := fun k => if k = (str! "m", str! "z") then [[(str! "id", .int 3), (str! "uid", .null)]] else rxBefore k

theorem ur_source {p : Plan} (hn : dkeys p.queries = [str! "s.o", str! "s.u"]) : BesideSource (rxSetting rxDst) p urSrcDb := by
  refine ⟨?_, rxDb_ok (by decide) (by decide), ?_⟩
  · have : (rxSetting rxDst).srcDb.isSublist urSrcDb = true := by decide +kernel
    exact List.isSublist_iff_sublist.1 this
  · rw [hn]
    have : ∀ e ∈ urSrcDb, e ∉ (rxSetting rxDst).srcDb → ∀ n ∈ [str! "s.o", str! "s.u"], dxEq e.1 n = false := by decide +kernel
    exact this

theorem ur_dest {p : Plan} (hn : dkeys p.queries = [str! "s.o", str! "s.u"]) : BesideDest urC (rxSetting rxDst) p urDst := by
  have hd : ∀ n ∈ dkeys p.queries, ∀ d, DestOf urC.remap n d → d = (str! "m", str! "o") ∨ d = (str! "m", str! "u") := by
    rw [hn]
    rintro n hn d ⟨a, b, h1, h2⟩
    simp only [List.mem_cons, List.not_mem_nil, or_false] at hn
    rcases hn with rfl | rfl <;> cases h1
    · exact .inl (Option.some.inj (h2.symm.trans (by decide)))
    · exact .inr (Option.some.inj (h2.symm.trans (by decide)))
  refine ⟨?_, rxDb_ok (by decide) (by decide), fun e he hne n hn d hd' => ?_, fun e he hne fk hfk hr => ?_⟩
  · have : (rxSetting rxDst).dstDb.isSublist urDst = true := by decide +kernel
    exact List.isSublist_iff_sublist.1 this
  · have : ∀ e ∈ urDst, e ∉ rxDst → ∀ d ∈ [(str! "m", str! "o"), (str! "m", str! "u")],
        e.1 ≠ d.1 ++ '.' :: d.2 ∧ dxEq e.1 (d.1 ++ '.' :: d.2) = false := by decide +kernel
    exact this e he hne d (by rcases hd n hn d hd' with rfl | rfl <;> simp)
  · have h1 : ∀ e ∈ urDst, e ∉ rxDst → ∀ fk ∈ e.2.foreignKeys, ∀ x ∈ rxDst, (x.2.schema, x.2.name) ≠ (fk.dstSchema, fk.dstTable) := by decide +kernel
    obtain ⟨n, -, d, -, ⟨h2, -⟩ | ⟨t, ⟨n', t', g1, g2, -⟩, g3⟩⟩ := hr
    · cases h2
    · rcases Relation.ReflTransGen.cases_tail g3 with rfl | ⟨c, -, n, t, fk', g4, g5, -⟩
      · exact h1 e he hne fk hfk (n', t') g1 g2
      · exact h1 e he hne fk hfk (n, t) g4 g5

/-- The example meets the premises of `c95_command`. -/
theorem c95_example_applies : ∃ p, plan dxEq (rxSetting rxDst).srcDb txCfg = .ok p ∧ plan dxEq urSrcDb txCfg = .ok p ∧
    sample urC { rxSetting urDst with srcDb := urSrcDb, src := urSrc } p urBefore 0 =
      { sample urC (rxSetting rxDst) p urBefore 0 with schema := urDst } := by
  have hn := txNames
  cases h : plan dxEq (rxSetting rxDst).srcDb txCfg with
  | error e => rw [h] at hn; cases hn
  | ok p =>
    rw [h] at hn
    have hok : RunOK urC (rxSetting rxDst) p := by
      have := rx_ok (C := urC) rfl
      exact ⟨this.src, this.dst, this.closed, this.srcColumns, this.self, by rw [show dkeys p.queries = _ from hn]; decide, this.compactNames⟩
    have hclosed : DbClosed (rxSetting rxDst).srcDb := by
      rintro a b ⟨n, t, fk, h1, -, h2, rfl⟩
      have : ∀ e ∈ (rxSetting rxDst).srcDb, ∀ fk ∈ e.2.foreignKeys, ∃ x ∈ (rxSetting rxDst).srcDb, (x.2.schema, x.2.name) = (fk.dstSchema, fk.dstTable) := by decide
      obtain ⟨x, h3, h4⟩ := this (n, t) h1 fk h2
      exact ⟨x.1, x.2, h3, h4⟩
    have hun : ∀ e ∈ urSrcDb, e ∉ (rxSetting rxDst).srcDb → ∀ pat ∈ txCfg.select ++ txCfg.passthrough, (rxSetting rxDst).fnmatch e.1 pat = false := by decide +kernel
    have hrows : ∀ k, InDb (rxSetting rxDst).srcDb k → urSrc k = (rxSetting rxDst).src k := by
      rintro k ⟨n, t, h1, rfl⟩
      have : ∀ e ∈ (rxSetting rxDst).srcDb, (e.2.schema, e.2.name) ≠ (str! "s", str! "z") := by decide
      exact if_neg (this (n, t) h1)
    obtain ⟨h1, created, h2, h3⟩ := c95_command (S := urBefore) (s := 0) hok h hclosed (ur_source hn) hun hrows (ur_dest hn)
    refine ⟨p, rfl, h1, ?_⟩
    have h4 : (sample urC (rxSetting rxDst) p urBefore 0).schema = rxDst := schema_kept rfl
    rw [h4] at h2
    have h5 : created = [] := List.append_right_eq_self.1 h2.symm
    rw [h5, List.append_nil] at h3
    exact h3

/-- The run of the example and what becomes of the tables `m.u`, `m.o`, `m.x` and `m.z`. -/
def urRun (D : Setting Int) : Option (Option RunErr × List (List Row)) :=
  match plan dxEq D.srcDb txCfg with
  | .ok p =>
    let R := sample urC D p urBefore 0
    some (R.err, [R.final (str! "m", str! "u"), R.final (str! "m", str! "o"), R.final (str! "m", str! "x"), R.final (str! "m", str! "z")])
  | .error _ => none

theorem c95_example : urRun { rxSetting urDst with srcDb := urSrcDb, src := urSrc } = urRun (rxSetting rxDst) ∧
    urRun (rxSetting rxDst) = some (none, [[[(str! "id", .int 100)]], [[(str! "id", .int 100), (str! "uid", .int 100)]], [], [[(str! "id", .int 3), (str! "uid", .null)]]]) :=
  ⟨by decide +kernel, by decide +kernel⟩

/-- A table of the destination that refers to one that is filled does matter: here it is emptied. -/
theorem c95_referring_matters :
    urRun (rxSetting [(str! "m.o", rxO (str! "m")), (str! "m.u", rxU (str! "m"))]) =
      some (none, [[[(str! "id", .int 100)]], [[(str! "id", .int 100), (str! "uid", .int 100)]], [[(str! "oid", .int 9)]], [[(str! "id", .int 3), (str! "uid", .null)]]]) := by
  decide +kernel

end Subsetter.Props
