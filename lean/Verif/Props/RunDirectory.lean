import Verif.Proofs.RunDirectory
import Verif.Props.RunSucceeds

/-
Property C66: a run that writes files.
-/
namespace Subsetter.Props
open Subsetter Spec

variable {σ : Type} {C : RunConfig} {D : Setting σ} {p : Plan} {F F' : Files} {s : σ}

/-- The files after a run, whether it failed or not. -/
theorem directory_run (hok : ReadOK C D p) {err : Option RunErr} (h : sampleDirectory C D p F s = (F', err)) :
    (F' = F ∧ err ≠ none) ∨ ∃ T mult compact Smp ids done todo, Reading C D p T mult compact Smp ids ∧
      Written C D p T mult compact Smp ids F F' done todo ∧ (err = none → todo = []) := by
  rcases sampleDirectory_cases (C := C) (D := D) (p := p) (F := F) (s := s) with
    ⟨e, he⟩ | ⟨l, T, mult, compact, mat, temps, hst, he⟩
  · rw [he] at h
    cases h
    exact .inl ⟨rfl, by simp⟩
  · rw [he] at h
    obtain ⟨Smp, h1, h2, h3⟩ := hst.sample hok
    obtain ⟨done, todo, g1, g2, g3, g4, g5⟩ := copyFiles_spec hok.plan (fun n hn => ⟨readRows_ne hn, fun k ch rows hr => by
      obtain ⟨_, _, _, hk, -⟩ := readRows_some hr
      exact fileName_eq hk⟩) h
    refine .inr ⟨T, mult, compact, Smp, _, done, todo, hst.reading hok h1, ⟨g1, fun n hn k t hk ht => ?_, fun n hn => ?_, g5⟩, g2⟩
    · obtain ⟨k', ch, rows, lines, s1, s2, e1, e2, e3⟩ := g3 n hn
      exact ⟨lines, e2, hst.lines hok h2 h3 hk ht e1 e3⟩
    · rcases g4 n hn with e | ⟨k', ch, rows, lines, s1, s2, e0, e1, e2, e3⟩
      · exact .inl e
      · exact .inr fun k t hk ht => ⟨lines, e2, hst.lines hok h2 h3 hk ht e1 e3⟩

/-- C66. After a run without an error every planned table has its file, with all lines of its sampled, compacted,
filtered and multiplied rows, and no other file of the directory has changed: files of tables no longer planned stay. -/
theorem c66_files (hok : ReadOK C D p) (h : sampleDirectory C D p F s = (F', none)) :
    ∃ T mult compact Smp ids, Reading C D p T mult compact Smp ids ∧
      (∀ n ∈ dkeys p.queries, ∃ k t lines, parseTableName n = some k ∧ (n, t) ∈ D.srcDb ∧ F' (fileOf n) = some lines ∧
        Lines C D p T mult compact Smp ids n k t true lines) ∧
      ∀ f, (∀ n ∈ dkeys p.queries, f ≠ fileOf n) → F' f = F f := by
  rcases directory_run hok h with ⟨-, h⟩ | ⟨T, mult, compact, Smp, ids, done, todo, h1, h2, h3⟩
  · exact absurd rfl h
  · have h4 := h3 rfl
    subst h4
    have hn := h2.names
    rw [List.append_nil] at hn
    refine ⟨T, mult, compact, Smp, ids, h1, fun n hn' => ?_, fun f hf => h2.others f (hn ▸ hf) (by simp)⟩
    obtain ⟨k, hk, hks⟩ := h1.known n hn'
    obtain ⟨t', ht'⟩ := Option.isSome_iff_exists.1 hks
    obtain ⟨t0, f1, -⟩ := h1.source k t' ht'
    have f2 : (n, t0) ∈ D.srcDb := by rw [← parse_str hk]; exact f1
    obtain ⟨lines, g1, g2⟩ := h2.full n (hn ▸ hn') k t0 hk f2
    exact ⟨k, t0, lines, hk, f2, g1, g2⟩

/-- C66. After a run with an error either no file has changed, or the planned tables up to some point have complete files,
the next one has an unchanged file or one with its first lines, and no other file has changed. -/
theorem c66_failed (hok : ReadOK C D p) {e : RunErr} (h : sampleDirectory C D p F s = (F', some e)) :
    F' = F ∨ ∃ T mult compact Smp ids done todo, Reading C D p T mult compact Smp ids ∧
      Written C D p T mult compact Smp ids F F' done todo := by
  rcases directory_run hok h with ⟨h, -⟩ | ⟨T, mult, compact, Smp, ids, done, todo, h1, h2, -⟩
  · exact .inl h
  · exact .inr ⟨T, mult, compact, Smp, ids, done, todo, h1, h2⟩

/-- C66. Without transformations a run of a plan whose tables exist succeeds and the files hold exactly the sample. -/
theorem c66_plain (hok : ReadOK C D p) (hpl : Plain C)
    (hs : ∀ n ∈ dkeys p.queries, n ∈ dkeys D.srcDb ∧ D.fnmatch n n = true)
    (hrefs : ∀ k q, Planned p k q → ∀ x ∈ q.refs, ∃ q', Planned p (x.schema, x.name) q') (hac : Acyclic p) :
    ∃ F' Smp, sampleDirectory C D p F s = (F', none) ∧ IsSample D.engine (dbTables D.srcDb) D.src p Smp ∧
      (∀ n ∈ dkeys p.queries, ∃ k t, parseTableName n = some k ∧ (n, t) ∈ D.srcDb ∧
        F' (fileOf n) = some ((Smp k).map fun r => t.columns.map fun c => (c, r.get c))) ∧
      ∀ f, (∀ n ∈ dkeys p.queries, f ≠ fileOf n) → F' f = F f := by
  obtain ⟨l, T, mat, temps, hst⟩ := dirSteps_exist hok hpl hs hrefs hac
  obtain ⟨Smp, h1, h2, h3⟩ := hst.sample hok
  have hout : ∀ (k : Key) (t : TableMeta) (s : σ), directoryOutput D.world ⟨t.columns, t.columns, []⟩ 1 []
      ((Smp k).map fun r => t.columns.map r.get) s = ((Smp k).map fun r => t.columns.map fun c => (c, r.get c), s, none) := by
    intro k t s
    rw [directory_plain, List.map_map]
    refine Prod.ext (List.map_congr_left fun r _ => ?_) rfl
    show t.columns.zip (t.columns.map r.get) = t.columns.map fun c => (c, r.get c)
    generalize t.columns = cols
    induction cols with
    | nil => rfl
    | cons c cs ih => simp [ih]
  have hnone : (copyFiles C D [] (readRows C D T [] p temps) (dkeys p.queries) F s).2 = none := by
    refine copyFiles_succeeds fun n hn => ?_
    obtain ⟨k, t, -, -, g3⟩ := hst.reads hok hpl h2 hn
    exact ⟨k, _, _, g3, fun s => ⟨_, _, hout k t s⟩⟩
  generalize hF : copyFiles C D [] (readRows C D T [] p temps) (dkeys p.queries) F s = R at hnone
  obtain ⟨F', err⟩ := R
  dsimp only at hnone
  subst hnone
  refine ⟨F', Smp, by rw [hst.run, hF], h1, ?_⟩
  obtain ⟨done, todo, g1, g2, g3, -, g5⟩ := copyFiles_spec hok.plan (fun n hn => ⟨readRows_ne hn, fun k ch rows hr => by
    obtain ⟨_, _, _, hk, -⟩ := readRows_some hr
    exact fileName_eq hk⟩) hF
  rw [g2 rfl, List.append_nil] at g1
  refine ⟨fun n hn => ?_, fun f hf => g5 f (g1 ▸ hf) (by rw [g2 rfl]; simp)⟩
  obtain ⟨k, t, e1, e2, e3⟩ := hst.reads hok hpl h2 hn
  obtain ⟨k', ch, rows, lines, s1, s2, f1, f2, f3⟩ := g3 n (g1 ▸ hn)
  rw [e3] at f1
  obtain ⟨rfl, rfl, rfl⟩ : k = k' ∧ ⟨t.columns, t.columns, []⟩ = ch ∧ ((Smp k).map fun r => t.columns.map r.get) = rows := by
    have := Option.some.inj (Except.ok.inj f1)
    exact ⟨congrArg (·.1) this, congrArg (·.2.1) this, congrArg (·.2.2) this⟩
  refine ⟨k, t, e1, e2, ?_⟩
  rw [show (if (dget ([] : Dict Str (List Str)) n).isNone then 1 else C.mult.multiplier.toNat) = 1 from rfl,
    show ((dget ([] : Dict Str (List Str)) n).getD []) = [] from rfl, hout k t s1] at f3
  rw [f2]
  exact congrArg some (congrArg (·.1) f3).symm

/-- C66. Every plan of the planner can be sampled to a directory. -/
theorem c66_planned (hok : ReadOK C D p) (hpl : Plain C) {cfg : PlannerConfig} (hex : ∀ x ∈ cfg.extraFks, x.Valid)
    (htg : [] ∉ dkeys cfg.targets) (hplan : plan D.fnmatch D.srcDb cfg = .ok p)
    (hself : ∀ n ∈ dkeys p.queries, D.fnmatch n n = true) :
    ∃ F' Smp, sampleDirectory C D p F s = (F', none) ∧ IsSample D.engine (dbTables D.srcDb) D.src p Smp ∧
      (∀ n ∈ dkeys p.queries, ∃ k t, parseTableName n = some k ∧ (n, t) ∈ D.srcDb ∧
        F' (fileOf n) = some ((Smp k).map fun r => t.columns.map fun c => (c, r.get c))) ∧
      ∀ f, (∀ n ∈ dkeys p.queries, f ≠ fileOf n) → F' f = F f := by
  obtain ⟨T, hI, hpi, hT⟩ := planned_from hok.src hex htg hplan
  obtain ⟨ign, pass, T₁, T₂, found, ord, hp⟩ := planning hI hpi
  refine c66_plain hok hpl (fun n hn => ⟨?_, hself n hn⟩) (fun k q hq y hy => ?_) (hp.shape.acyclic hp.ok)
  · rw [show dkeys p.queries = _ from hp.shape.keys, List.mem_map] at hn
    obtain ⟨k, h1, rfl⟩ := hn
    obtain ⟨t, ht⟩ := Option.isSome_iff_exists.1 (hp.isSome_iff.1 (hp.shape.inT hp.ok h1))
    exact List.mem_map_of_mem (f := Prod.fst) (hT k t (dget_some_mem ht))
  · rcases hp.shape.refs_cases hp.ok hq hy with rfl | ⟨pre, post, d, he, hd, rfl⟩
    · exact ⟨q, hq⟩
    · exact (hp.planned_iff (k := d)).2 (by rw [he]; simp [hd])

/-! ### An example -/

/-- Files of an earlier run: of a planned table and of one that is not planned any more. -/
def lxFiles : Files := fun f =>
  if f = str! "s.u.json" ∨ f = str! "s.old.json" then some [[(str! "id", .int 99)]] else none

def lxShow (x : Files × Option RunErr) : List (Option (List Row)) × Option RunErr :=
  ([str! "s.u.json", str! "s.o.json", str! "s.old.json"].map x.1, x.2)

theorem lx_ok {C : RunConfig} (hC : C.compact.columns = []) : ReadOK C (rxSetting []) exPlan :=
  ⟨(rx_ok hC).src, (rx_ok hC).srcColumns, (rx_ok hC).plan, (rx_ok hC).compactNames⟩

/-- C66 on an example: the file of an old table stays even with `truncate`. -/
theorem lx_plain : lxShow (sampleDirectory { remap := dxRemap, truncate := true } (rxSetting []) exPlan lxFiles 7) =
    ([some [[(str! "id", .int 1)]], some [[(str! "id", .int 7), (str! "uid", .int 1)]],
      some [[(str! "id", .int 99)]]], none) := by decide +kernel

/-- C66 on an example: keys are compacted, then multiplied. -/
theorem lx_transformed : lxShow (sampleDirectory
      { remap := dxRemap, mult := { multiplier := 2, extraColumns := [(str! "s.o", [str! "uid"])] }, compact := { primaryKeys := true, startKey := 5 } }
      (rxSetting []) exPlan lxFiles 7) =
    ([some [[(str! "id", .int 10)], [(str! "id", .int 11)]],
      some [[(str! "id", .int 10), (str! "uid", .int 10)], [(str! "id", .int 11), (str! "uid", .int 11)]],
      some [[(str! "id", .int 99)]]], none) := by decide +kernel

/-- C66 on an example: a string cannot be multiplied; the first file is complete, the second one empty. -/
theorem lx_failed : lxShow (sampleDirectory
      { remap := dxRemap, mult := { multiplier := 2, extraColumns := [(str! "s.o", [str! "uid"])] }, filters := [(str! "s.o", [.simple (.constant [str! "uid"] [.str (str! "x")])])] }
      (rxSetting []) exPlan lxFiles 7) =
    ([some [[(str! "id", .int 2)], [(str! "id", .int 3)]], some [], some [[(str! "id", .int 99)]]],
      some (.dest (.output .typeError))) := by decide +kernel

end Subsetter.Props
