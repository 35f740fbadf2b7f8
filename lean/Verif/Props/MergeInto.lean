import Verif.Proofs.MergeRows

/-
Property C91: merging samples into a database with the same tables.
-/
namespace Subsetter.Props
open Subsetter Spec

variable {σ : Type} {C : RunConfig} {D : Setting σ} {p : Plan} {S : DbState} {s : σ}

/-- What a run needs for merging rows: conditions on the source, on the tables of the destination and on the
configuration, but none on the rows of the destination. -/
structure MergeRun (C : RunConfig) (D : Setting σ) (p : Plan) (cfg : PlannerConfig) : Prop where
  ok : RunOK C D p
  only : MergeOnly C
  extra : ∀ x ∈ cfg.extraFks, x.Valid
  targets : [] ∉ dkeys cfg.targets
  plan : plan D.fnmatch D.srcDb cfg = .ok p
  ignored : cfg.ignoreFks = []
  /-- ignored tables must not be referred to by others, which is checked unless dependencies are left out -/
  dependencies : cfg.includeDependencies = true ∨ cfg.ignore = []
  all : ∀ n y, dget cfg.targets n = some y → y.all = true → y.amount = none
  keys : PkOK (dbTables D.srcDb) D.src
  source : Intact D.srcDb D.src
  columns : FkColumnsOK D
  twins : Twins C D p
  mergeKeys : MergeKeys D p

theorem MergeRun.merges {cfg : PlannerConfig} (h : MergeRun C D p cfg) : MergesRun C D p cfg D.dstDb :=
  ⟨h.ok, h.only.merges, fun g => absurd g h.only.not_compacts, h.extra, h.targets, h.plan, h.ignored, h.dependencies, h.all, h.keys,
    h.source, h.columns, h.twins.tables_in h.ok h.only.create fun g => absurd g h.only.not_compacts, h.mergeKeys⟩

/-- C91. Rows sampled from the source can be added to a database that has the same tables and already holds rows, for
example an earlier sample, with conditions on the two databases and the configuration only: the run succeeds, foreign
keys hold after every commit, no row that was there is changed or removed, and every sampled row is appended with its
key moved by one more than the largest key of its table and its references moved as the keys they refer to.  Tables
passed through keep their rows and get those with keys they did not have. -/
theorem c91_merge {cfg : PlannerConfig} (hR : MergeRun C D p cfg) (hS : Sound D.dstDb D.computed S) :
    (sample C D p S s).err = none ∧ (∀ X ∈ (sample C D p S s).hist, Intact D.dstDb X) ∧
    (∀ k, (∀ n ∈ dkeys p.queries, ¬ DestOf C.remap n k) → (sample C D p S s).final k = S k) ∧
    ∃ Smp off, IsSample D.engine (dbTables D.srcDb) D.src p Smp ∧
      ∀ n ∈ dkeys p.queries, ∀ k t kd, parseTableName n = some k → (n, t) ∈ D.srcDb → DestOf C.remap n kd →
        ∃ new, (sample C D p S s).final kd = S kd ++ new ∧
          (n ∉ p.passthrough → (∀ c ∈ t.primaryKey, IsOffset (S kd) c (off n)) ∧
            List.Forall₂ (MovedRow p off n t) (Smp k) new) ∧
          (n ∈ p.passthrough → t.primaryKey ≠ [] → ∀ r ∈ Smp k, ∃ r' ∈ S kd ++ new, ∀ c ∈ t.primaryKey, r'.get c = r.get c) :=
  merge_moved hR.merges (schema_kept hR.only.create) hR.only.not_compacts hS

/-- C91. Afterwards the destination is as sound as before, so that further rows can be merged. -/
theorem c91_sound {cfg : PlannerConfig} (hR : MergeRun C D p cfg) (hS : Sound D.dstDb D.computed S) :
    Sound D.dstDb D.computed (sample C D p S s).final ∧ ∀ k, ∃ new, (sample C D p S s).final k = S k ++ new :=
  merge_sound hR.merges (schema_kept hR.only.create) hS

/-- C91. Merging can go on: however many samples, from whatever sources and with whatever plans, are merged one after the
other into a sound database, every run succeeds, foreign keys hold after every commit, the database stays sound, and
every row remains where it was. -/
theorem c91_repeated {db : Dict Str TableMeta} {computed : Key → List Str} : ∀ {js : List (Job σ)} {S : DbState},
    Sound db computed S →
    (∀ j ∈ js, MergeRun j.config j.setting j.plan j.planned ∧ j.setting.dstDb = db ∧ j.setting.computed = computed) →
    (∀ pre j post, js = pre ++ j :: post → (sample j.config j.setting j.plan (afterRuns pre S) j.start).err = none ∧
      ∀ X ∈ (sample j.config j.setting j.plan (afterRuns pre S) j.start).hist, Intact db X) ∧
    Sound db computed (afterRuns js S) ∧ ∀ k, ∃ new, afterRuns js S k = S k ++ new :=
  fun hS hj => merges_repeated hS fun j h => ⟨(hj j h).2.1 ▸ (hj j h).1.merges, (hj j h).1.only.create, (hj j h).2⟩

/-! ### Example: orders of users of groups; groups are passed through -/

def miO (s : Str) : TableMeta := { schema := s, name := str! "o", columns := [str! "id", str! "uid"], primaryKey := [str! "id"], intColumns := [str! "id", str! "uid"], foreignKeys := [⟨[str! "uid"], s, str! "u", [str! "id"]⟩] }
def miU (s : Str) : TableMeta := { schema := s, name := str! "u", columns := [str! "id", str! "gid"], primaryKey := [str! "id"], intColumns := [str! "id", str! "gid"], foreignKeys := [⟨[str! "gid"], s, str! "g", [str! "id"]⟩] }
def miG (s : Str) : TableMeta := { schema := s, name := str! "g", columns := [str! "id", str! "t"], primaryKey := [str! "id"], intColumns := [str! "id"] }

def miSrcDb : Dict Str TableMeta := [(str! "s.o", miO (str! "s")), (str! "s.u", miU (str! "s")), (str! "s.g", miG (str! "s"))]
/-- The destination has one more table, which refers to orders. -/
def miDst : Dict Str TableMeta := [(str! "m.o", miO (str! "m")), (str! "m.u", miU (str! "m")), (str! "m.g", miG (str! "m")), (str! "m.x", rxX)]

def miRow (a : Str) (x : Int) (b : Str) (y : Int) : Row := [(a, .int x), (b, .int y)]

def miSrc : Key → List Row := fun k =>
  if k = (str! "s", str! "o") then [miRow (str! "id") 7 (str! "uid") 1, miRow (str! "id") 8 (str! "uid") 2]
  else if k = (str! "s", str! "u") then [miRow (str! "id") 1 (str! "gid") 2, miRow (str! "id") 2 (str! "gid") 1]
  else if k = (str! "s", str! "g") then [miRow (str! "id") 1 (str! "t") 10, miRow (str! "id") 2 (str! "t") 20]
  else []

def miBefore : DbState := fun k =>
  if k = (str! "m", str! "o") then [miRow (str! "id") 9 (str! "uid") 5]
  else if k = (str! "m", str! "u") then [miRow (str! "id") 5 (str! "gid") 1]
  else if k = (str! "m", str! "g") then [miRow (str! "id") 1 (str! "t") 11]
  else if k = (str! "m", str! "x") then [[(str! "oid", .int 9)]]
  else []

def miSetting : Setting Int := { rxSetting miDst with srcDb := miSrcDb, src := miSrc }
def miCfg : PlannerConfig := { exCfg with select := [str! "s.o", str! "s.u"], passthrough := [str! "s.g"] }
def miC : RunConfig := { remap := dxRemap, merge := true }

theorem miNames : planNames (plan dxEq miSetting.srcDb miCfg) = [str! "s.g", str! "s.o", str! "s.u"] := by decide +kernel
theorem miPass : wxPass (plan dxEq miSetting.srcDb miCfg) = [str! "s.g"] := by decide +kernel

/-- The conditions hold of the example, however names are matched. -/
theorem mi_run_of {f : Str → Str → Bool} (hf : ∀ n ∈ dkeys miSrcDb ++ dkeys miDst, f n n = true)
    (hn : planNames (plan f miSrcDb miCfg) = [str! "s.g", str! "s.o", str! "s.u"]) (hp : wxPass (plan f miSrcDb miCfg) = [str! "s.g"]) :
    ∃ p, plan f miSrcDb miCfg = .ok p ∧ MergeRun miC { miSetting with fnmatch := f } p miCfg := by
  cases h : plan f miSrcDb miCfg with
  | error e => rw [h] at hn; cases hn
  | ok p =>
    rw [h] at hn hp
    replace hn : dkeys p.queries = [str! "s.g", str! "s.o", str! "s.u"] := hn
    replace hp : p.passthrough = [str! "s.g"] := hp
    have hdest : ∀ {n}, n ∈ dkeys p.queries → DestOf miC.remap n (str! "m", n.drop 2) := by
      intro n hm
      rw [hn] at hm
      simp only [List.mem_cons, List.not_mem_nil, or_false] at hm
      rcases hm with rfl | rfl | rfl
      · exact ⟨str! "s", str! "g", by decide, by decide⟩
      · exact ⟨str! "s", str! "o", by decide, by decide⟩
      · exact ⟨str! "s", str! "u", by decide, by decide⟩
    have hfk : ∀ e ∈ miSrcDb, ∀ fk ∈ e.2.foreignKeys, (∀ c ∈ fk.columns, c ∈ e.2.columns) ∧
        ∀ e' ∈ miSrcDb, e'.1 = fk.dstSchema ++ '.' :: fk.dstTable → ∀ c ∈ fk.dstColumns, c ∈ e'.2.columns := by decide
    have hone : ∀ e ∈ miSrcDb, ∀ fk ∈ e.2.foreignKeys, ∀ fk' ∈ e.2.foreignKeys, fk = fk' ∧ fk.dstColumns = [str! "id"] := by decide
    have hdb1 : DbOK miSrcDb := rxDb_ok (by decide) (by decide)
    have hdb2 : DbOK miDst := rxDb_ok (by decide) (by decide)
    have hpk : PkOK (dbTables miSrcDb) miSrc := by
      intro k t hk _
      have hm := dget_some_mem hk
      simp only [dbTables, miSrcDb, List.map_cons, List.map_nil, List.mem_cons, List.not_mem_nil, or_false] at hm
      rcases hm with hm | hm | hm <;> cases hm <;> decide +kernel
    have hroot : ∀ e ∈ miSrcDb, ∀ fk ∈ e.2.foreignKeys, str! "id" ∉ fk.columns := by decide
    refine ⟨p, rfl, ⟨hdb1, hdb2, ?_, ?_, fun h => (nomatch h), by rw [hn]; decide, .nil⟩,
      ⟨fun _ _ h => (nomatch h), ⟨rfl, rfl⟩, fun _ _ h => (nomatch h), by decide, by decide, rfl, rfl, rfl, rfl, rfl⟩,
      fun _ h => (nomatch h), by decide, h, rfl, .inl rfl, ?_, hpk, ?_, ?_, ⟨?_, ?_, ?_, ?_, ?_, .inl (show Dialect.sqlite ≠ .generic by decide), fun h => (nomatch h)⟩,
      ⟨⟨?_, ?_⟩, ?_, ?_, ?_⟩⟩
    · rintro a b ⟨n, t, fk, h1, -, h2, rfl⟩
      have : ∀ e ∈ miDst, ∀ fk ∈ e.2.foreignKeys, ∃ x ∈ miDst, (x.2.schema, x.2.name) = (fk.dstSchema, fk.dstTable) := by decide
      obtain ⟨x, h3, h4⟩ := this (n, t) h1 fk h2
      exact ⟨x.1, x.2, h3, h4⟩
    · have : ∀ e ∈ miSrcDb, e.2.columns.Nodup := by decide
      exact fun n t h => this (n, t) h
    · have : ∀ e ∈ miCfg.targets, e.2.all = true → e.2.amount = none := by decide
      exact fun n y h => this (n, y) (dget_some_mem h)
    · rintro a fk b ⟨n, t, h1, rfl, h2, rfl⟩ r hr _
      have : ∀ e ∈ miSrcDb, ∀ fk ∈ e.2.foreignKeys, ∀ r ∈ miSrc (e.2.schema, e.2.name), ∃ m ∈ miSrc (fk.dstSchema, fk.dstTable),
          ∀ x ∈ fk.columns.zip fk.dstColumns, r.get x.1 ≠ .null ∧ r.get x.1 = m.get x.2 := by decide
      exact this (n, t) h1 fk h2 r hr
    · exact fun n t h fk hf => ⟨(hfk (n, t) h fk hf).1, fun tb htb => (hfk (n, t) h fk hf).2 (_, tb) htb rfl⟩
    · intro n hm t ht
      refine ⟨_, if n = str! "s.o" then miO (str! "m") else if n = str! "s.u" then miU (str! "m") else miG (str! "m"), hdest hm, ?_, ?_, rfl⟩
      · have hmem : ∀ n ∈ [str! "s.g", str! "s.o", str! "s.u"], (str! "m" ++ '.' :: n.drop 2,
            if n = str! "s.o" then miO (str! "m") else if n = str! "s.u" then miU (str! "m") else miG (str! "m")) ∈ miDst := by decide
        exact hmem n (hn ▸ hm)
      · simp only [miSetting, miSrcDb, List.mem_cons, Prod.mk.injEq, List.not_mem_nil, or_false] at ht
        rcases ht with ⟨rfl, rfl⟩ | ⟨rfl, rfl⟩ | ⟨rfl, rfl⟩
        · refine ⟨by decide, fun _ => .rfl, fun _ h => h, by decide, fun fk hf => ⟨⟨[str! "uid"], str! "s", str! "u", [str! "id"]⟩, by decide, ?_⟩⟩
          rw [if_pos rfl] at hf
          simp only [miO, List.mem_cons, List.not_mem_nil, or_false] at hf
          subst hf
          exact ⟨rfl, rfl, str! "s", str! "u", by decide, by decide⟩
        · refine ⟨by decide, fun _ => .rfl, fun _ h => h, by decide, fun fk hf => ⟨⟨[str! "gid"], str! "s", str! "g", [str! "id"]⟩, by decide, ?_⟩⟩
          rw [if_neg (by decide), if_pos rfl] at hf
          simp only [miU, List.mem_cons, List.not_mem_nil, or_false] at hf
          subst hf
          exact ⟨rfl, rfl, str! "s", str! "g", by decide, by decide⟩
        · refine ⟨by decide, fun _ => .rfl, fun _ h => h, by decide, fun fk hf => ?_⟩
          rw [if_neg (by decide), if_neg (by decide)] at hf
          cases hf
    · intro n h1 n' h2 k h3 h4
      have e := (destOf_unique h3 (hdest h1)).symm.trans (destOf_unique h4 (hdest h2))
      rw [hn] at h1 h2
      simp only [List.mem_cons, List.not_mem_nil, or_false] at h1 h2
      rcases h1 with rfl | rfl | rfl <;> rcases h2 with rfl | rfl | rfl <;> first | rfl | exact absurd e (by decide)
    · intro k hk
      let rank : Key → Nat := fun k => if k.2 = str! "x" then 3 else if k.2 = str! "o" then 2 else if k.2 = str! "u" then 1 else 0
      have hstep : ∀ {a b}, DbRef miDst a b → rank b < rank a := by
        rintro a b ⟨n, t, fk, h1, rfl, h2, rfl⟩
        have : ∀ e ∈ miDst, ∀ fk ∈ e.2.foreignKeys, rank (fk.dstSchema, fk.dstTable) < rank (e.2.schema, e.2.name) := by decide
        exact this (n, t) h1 fk h2
      have hlow : ∀ {a b}, Relation.TransGen (DbRef miDst) a b → rank b < rank a := by
        intro a b hab
        induction hab with
        | single h => exact hstep h
        | tail _ h ih => exact lt_trans (hstep h) ih
      exact absurd (hlow hk) (lt_irrefl _)
    · rintro n (h' | h')
      · exact hf n (List.mem_append_right _ h')
      · rw [hn] at h'
        have : ∀ n ∈ [str! "s.g", str! "s.o", str! "s.u"], n ∈ dkeys miSrcDb ++ dkeys miDst := by decide
        exact hf n (this n h')
    · rintro a fk b ⟨n, t, h1, rfl, h2, rfl⟩ m hm hpass hd td htd
      rw [hp, List.mem_singleton] at hpass
      subst hpass
      have e := destOf_unique hd (hdest hm)
      right
      have : ∀ e ∈ miDst, ∀ fk ∈ e.2.foreignKeys, (fk.dstSchema, fk.dstTable) = (str! "m", str! "g") → fk.dstColumns = [str! "id"] := by decide
      rw [this (n, t) h1 fk h2 e]
      have : ∀ e ∈ miDst, e.2.primaryKey = [] ∨ e.2.primaryKey = [str! "id"] := by decide
      rcases this _ htd with h | h
      · exfalso
        rw [e] at htd
        have : ∀ e ∈ miDst, e.1 = str! "m.g" → e.2.primaryKey ≠ [] := by decide
        exact this _ htd rfl h
      · rw [h]; exact fun _ h => h
    · intro n _ t ht fk hf fk' hf' c d d' h1 h2
      obtain ⟨rfl, e⟩ := hone (n, t) ht fk hf fk' hf'
      rw [e] at h1 h2
      have h1 := (List.of_mem_zip h1).2
      have h2 := (List.of_mem_zip h2).2
      rw [List.mem_singleton] at h1 h2
      exact ⟨rfl, h1.trans h2.symm⟩
    · intro n _ t ht fk hf tb htb d hd fk' hf'
      rw [(hone (n, t) ht fk hf fk hf).2, List.mem_singleton] at hd
      rw [hd]
      exact hroot _ htb fk' hf'
    · have : ∀ e ∈ miSrcDb, ∀ c ∈ e.2.primaryKey, c ∈ e.2.columns := by decide
      exact fun n _ t ht => this (n, t) ht
    · intro n hm hpass k t hk ht
      refine ⟨str! "id", ?_, ?_, ?_, fun fk hf => hroot (n, t) ht fk hf⟩
      · have : ∀ e ∈ miSrcDb, e.2.primaryKey = [str! "id"] := by decide
        exact this (n, t) ht
      · have : ∀ e ∈ miSrcDb, str! "id" ∈ e.2.intColumns := by decide
        exact this (n, t) ht
      · have hnat : ∀ e ∈ miSrcDb, ∀ r ∈ miSrc (e.2.schema, e.2.name), ∃ v ∈ ([1, 2, 7, 8] : List Int), r.get (str! "id") = .int v := by decide
        have e : (t.schema, t.name) = k := by
          have : ∀ e ∈ miSrcDb, parseTableName e.1 = some (e.2.schema, e.2.name) := by decide
          have := this (n, t) ht
          rw [hk] at this
          exact (Option.some.inj this).symm
        subst e
        intro r hr
        obtain ⟨v, h1, h2⟩ := hnat (n, t) ht r hr
        have hpos : ∀ v ∈ ([1, 2, 7, 8] : List Int), 0 ≤ v := by decide
        exact ⟨v, hpos v h1, h2⟩
    · intro n hm t ht fk hf _
      have h1 : ∀ e ∈ miSrcDb, ∀ fk ∈ e.2.foreignKeys, fk.columns = [str! "uid"] ∨ fk.columns = [str! "gid"] := by decide
      refine ⟨(h1 (n, t) ht fk hf).elim (fun h => ⟨_, h⟩) fun h => ⟨_, h⟩, fun tb htb => ?_⟩
      have : ∀ e ∈ miSrcDb, e.2.primaryKey = [str! "id"] := by decide
      rw [this _ htb, (hone (n, t) ht fk hf fk hf).2]

theorem mi_run : ∃ p, plan dxEq miSetting.srcDb miCfg = .ok p ∧ MergeRun miC miSetting p miCfg :=
  mi_run_of (by decide) miNames miPass

theorem mi_sound : Sound miSetting.dstDb miSetting.computed miBefore := by
  refine ⟨?_, fun k hk => ?_, ?_⟩
  · rintro a fk b ⟨n, t, h1, rfl, h2, rfl⟩ r hr _
    have : ∀ e ∈ miDst, ∀ fk ∈ e.2.foreignKeys, ∀ r ∈ miBefore (e.2.schema, e.2.name), ∃ m ∈ miBefore (fk.dstSchema, fk.dstTable),
        ∀ x ∈ fk.columns.zip fk.dstColumns, r.get x.1 ≠ .null ∧ r.get x.1 = m.get x.2 := by decide
    exact this (n, t) h1 fk h2 r hr
  · have hm : ∀ e ∈ miDst, (e.2.schema, e.2.name) ≠ k := fun e he h => hk ⟨e.1, e.2, he, h⟩
    unfold miBefore
    rw [if_neg fun h => hm (str! "m.o", miO (str! "m")) (by decide) h.symm,
      if_neg fun h => hm (str! "m.u", miU (str! "m")) (by decide) h.symm,
      if_neg fun h => hm (str! "m.g", miG (str! "m")) (by decide) h.symm,
      if_neg fun h => hm (str! "m.x", rxX) (by decide) h.symm]
  · intro n t ht
    simp only [miSetting, rxSetting, miDst, List.mem_cons, Prod.mk.injEq, List.not_mem_nil, or_false] at ht
    rcases ht with ⟨rfl, rfl⟩ | ⟨rfl, rfl⟩ | ⟨rfl, rfl⟩ | ⟨rfl, rfl⟩ <;> exact ⟨by unfold KeysUnique; decide, by decide⟩

/-- C91 on the example, for any number of runs. -/
theorem mi_repeated (i : Nat) : ∃ p, plan dxEq miSetting.srcDb miCfg = .ok p ∧
    Sound miDst (fun _ => []) (afterRuns (List.replicate i ⟨miC, miSetting, p, miCfg, 0⟩) miBefore) := by
  obtain ⟨p, h1, h2⟩ := mi_run
  refine ⟨p, h1, (c91_repeated (db := miDst) (computed := fun _ => []) mi_sound fun j hj => ?_).2.1⟩
  rw [List.eq_of_mem_replicate hj]
  exact ⟨h2, rfl, rfl⟩

/-- The tables of the example after `i` runs. -/
def miShow (i : Nat) : List (List Row) :=
  match plan dxEq miSetting.srcDb miCfg with
  | .error _ => []
  | .ok p => [str! "o", str! "u", str! "g", str! "x"].map fun n =>
      afterRuns (List.replicate i ⟨miC, miSetting, p, miCfg, 0⟩) miBefore (str! "m", n)

/-- Order 7 of user 1 becomes order 17 of user 7 and then, sampled again, order 25 of user 9; group 1 is not changed. -/
theorem c91_example : miShow 1 = [[miRow (str! "id") 9 (str! "uid") 5, miRow (str! "id") 17 (str! "uid") 7],
      [miRow (str! "id") 5 (str! "gid") 1, miRow (str! "id") 7 (str! "gid") 2],
      [miRow (str! "id") 1 (str! "t") 11, miRow (str! "id") 2 (str! "t") 20], [[(str! "oid", .int 9)]]] ∧
    miShow 2 = [[miRow (str! "id") 9 (str! "uid") 5, miRow (str! "id") 17 (str! "uid") 7, miRow (str! "id") 25 (str! "uid") 9],
      [miRow (str! "id") 5 (str! "gid") 1, miRow (str! "id") 7 (str! "gid") 2, miRow (str! "id") 9 (str! "gid") 2],
      [miRow (str! "id") 1 (str! "t") 11, miRow (str! "id") 2 (str! "t") 20], [[(str! "oid", .int 9)]]] := by
  constructor <;> decide +kernel

end Subsetter.Props
