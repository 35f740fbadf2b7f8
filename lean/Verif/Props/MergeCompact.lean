import Verif.Proofs.MergeRows
import Verif.Props.MergeInto
import Verif.Spec.MergeCompact

/-
Property C92: merging samples with new, consecutive identifiers.
-/
namespace Subsetter.Props
open Subsetter Spec

variable {σ : Type} {C : RunConfig} {D : Setting σ} {p : Plan} {S : DbState} {s : σ}

/-- What a run needs for merging rows with compacted keys: as for merging, and what compaction needs. -/
structure CompactMergeRun (C : RunConfig) (D : Setting σ) (p : Plan) (cfg : PlannerConfig) : Prop where
  ok : RunOK C D p
  merges : Merges C
  create : C.create = false
  primaryKeys : C.compact.primaryKeys = true
  compact : CompactSound C D p
  extra : ∀ x ∈ cfg.extraFks, x.Valid
  targets : [] ∉ dkeys cfg.targets
  plan : plan D.fnmatch D.srcDb cfg = .ok p
  ignored : cfg.ignoreFks = []
  dependencies : cfg.includeDependencies = true ∨ cfg.ignore = []
  all : ∀ n y, dget cfg.targets n = some y → y.all = true → y.amount = none
  keys : PkOK (dbTables D.srcDb) D.src
  source : Intact D.srcDb D.src
  columns : FkColumnsOK D
  twins : Twins C D p
  mergeKeys : MergeKeys D p

theorem CompactMergeRun.run {cfg : PlannerConfig} (h : CompactMergeRun C D p cfg) : MergesRun C D p cfg D.dstDb :=
  ⟨h.ok, h.merges, fun _ => h.compact, h.extra, h.targets, h.plan, h.ignored, h.dependencies, h.all, h.keys,
    h.source, h.columns, h.twins.tables_in h.ok h.create fun _ => h.compact, h.mergeKeys⟩

/-- C92. With compaction of primary keys a sample can be merged just as without: the run succeeds, foreign keys hold after
every commit, no row that was there is changed or removed.  The sampled rows of each merged table get new identifiers that
are consecutive from `start_key`; they are appended with their key replaced by the new identifier moved by one more than the
largest key of the table, and every reference to a merged table replaced by what has become of the key referred to. -/
theorem c92_merge {cfg : PlannerConfig} (hR : CompactMergeRun C D p cfg) (hS : Sound D.dstDb D.computed S) :
    (sample C D p S s).err = none ∧ (∀ X ∈ (sample C D p S s).hist, Intact D.dstDb X) ∧
    (∀ k, (∀ n ∈ dkeys p.queries, ¬ DestOf C.remap n k) → (sample C D p S s).final k = S k) ∧
    ∃ Smp ids off, IsSample D.engine (dbTables D.srcDb) D.src p Smp ∧
      (∀ k, (ids k).length = (Smp k).length ∧ FillsFrom C.compact.startKey (ids k)) ∧
      ∀ n ∈ dkeys p.queries, ∀ k t kd, parseTableName n = some k → (n, t) ∈ D.srcDb → DestOf C.remap n kd →
        ∃ new, (sample C D p S s).final kd = S kd ++ new ∧
          (n ∉ p.passthrough → (∀ c ∈ t.primaryKey, IsOffset (S kd) c (off n)) ∧
            List.Forall₂ (RenumberedRow p Smp ids off n t) ((ids k).zip (Smp k)) new) ∧
          (n ∈ p.passthrough → t.primaryKey ≠ [] → ∀ r ∈ Smp k, ∃ r' ∈ S kd ++ new, ∀ c ∈ t.primaryKey, r'.get c = r.get c) :=
  merge_renumbered hR.run (schema_kept hR.create) hR.primaryKeys hS

/-- C92. Afterwards the destination is as sound as before, so that further rows can be merged. -/
theorem c92_sound {cfg : PlannerConfig} (hR : CompactMergeRun C D p cfg) (hS : Sound D.dstDb D.computed S) :
    Sound D.dstDb D.computed (sample C D p S s).final ∧ ∀ k, ∃ new, (sample C D p S s).final k = S k ++ new :=
  merge_sound hR.run (schema_kept hR.create) hS

/-- The largest key after rows with the keys `o + a, …, o + a + N - 1` were appended, if there are such rows. -/
theorem offset_append {old new : List Row} {c : Str} {o a : Int} (ha : 0 ≤ a) (ho : IsOffset old c o) (hne : new ≠ [])
    (hb : KeysBetween new c (o + a) (o + a + new.length)) : IsOffset (old ++ new) c (o + a + new.length) := by
  have hl : 0 < new.length := List.length_pos_iff.2 hne
  refine .inr ⟨o + a + new.length - 1, ⟨?_, fun r hr v hv => ?_⟩, by omega⟩
  · obtain ⟨r, h1, h2⟩ := (hb (o + a + new.length - 1)).2 ⟨by omega, by omega⟩
    exact ⟨r, List.mem_append.2 (.inr h1), h2⟩
  · rcases List.mem_append.1 hr with hr | hr
    · rcases ho with ⟨h1, -⟩ | ⟨m, h1, rfl⟩
      · exact absurd hv (h1 r hr v)
      · have := h1.2 r hr v hv
        omega
    · have := (hb v).1 ⟨r, hr, hv⟩
      omega

/-- C92. The keys of the rows added to a merged table follow each other: they begin `start_key` after the first number past
the largest key, and the largest key grows by no more than the number of rows and `start_key`. -/
theorem c92_keys {cfg : PlannerConfig} (hR : CompactMergeRun C D p cfg) (hS : Sound D.dstDb D.computed S)
    {n : Str} (hn : n ∈ dkeys p.queries) (hp : n ∉ p.passthrough) {t : TableMeta} (ht : (n, t) ∈ D.srcDb) {kd : Key}
    (hd : DestOf C.remap n kd) {c : Str} (hc : c ∈ t.primaryKey) {o : Int} (ho : IsOffset (S kd) c o) :
    ∃ new, (sample C D p S s).final kd = S kd ++ new ∧
      KeysBetween new c (o + C.compact.startKey) (o + C.compact.startKey + new.length) ∧
      (new ≠ [] → IsOffset ((sample C D p S s).final kd) c (o + C.compact.startKey + new.length)) := by
  obtain ⟨-, -, -, Smp, ids, off, -, h5, h6⟩ := c92_merge (s := s) hR hS
  obtain ⟨k, t', hk, ht'⟩ := hR.run.planned_db.2 n hn
  obtain rfl := db_same hR.ok.src ht ht'
  obtain ⟨new, h7, h8, -⟩ := h6 n hn k t kd hk ht hd
  obtain ⟨h9, h10⟩ := h8 hp
  have he : off n = o := by
    rcases h9 c hc with ⟨a1, a2⟩ | ⟨m, a1, a2⟩ <;> rcases ho with ⟨b1, b2⟩ | ⟨m', b1, b2⟩
    · rw [a2, b2]
    · exact absurd (isMax_unique a1 b1) (by simp)
    · exact absurd (isMax_unique a1 b1) (by simp)
    · cases isMax_unique a1 b1
      rw [a2, b2]
  have hl : (new.length : Int) = (ids k).length := by
    have := h10.length_eq
    rw [List.length_zip, ← (h5 k).1, Nat.min_self] at this
    rw [this]
  have hb : KeysBetween new c (o + C.compact.startKey) (o + C.compact.startKey + new.length) := by
    intro v
    have hids := (h5 k).2.2 (v - o)
    constructor
    · rintro ⟨r, h1, h2⟩
      obtain ⟨⟨x, y⟩, h3, h4⟩ := forall₂_mem_right h10 h1
      rw [h4.key c hc, he] at h2
      cases h2
      have := ((h5 k).2.2 x).1 (List.of_mem_zip h3).1
      dsimp only
      omega
    · intro h
      have hv := hids.2 ⟨by omega, by omega⟩
      obtain ⟨a, ha, hva⟩ := List.getElem_of_mem hv
      have hlen := (h5 k).1
      obtain ⟨r, h1, h2⟩ := forall₂_mem_left h10 (List.mem_iff_getElem.2 ⟨a, by rw [List.length_zip]; omega, rfl⟩)
      refine ⟨r, h1, ?_⟩
      rw [h2.key c hc, he, List.getElem_zip, hva]
      congr 1
      omega
  exact ⟨new, h7, hb, fun hne => by rw [h7]; exact offset_append hR.merges.startKey ho hne hb⟩

/-- C92. However many samples are merged one after the other, some with compacted keys and some without, every run succeeds,
foreign keys hold after every commit, the database stays sound, and every row remains where it was. -/
theorem c92_repeated {db : Dict Str TableMeta} {computed : Key → List Str} {js : List (Job σ)} {S : DbState}
    (hS : Sound db computed S)
    (hj : ∀ j ∈ js, (CompactMergeRun j.config j.setting j.plan j.planned ∨ MergeRun j.config j.setting j.plan j.planned) ∧
      j.setting.dstDb = db ∧ j.setting.computed = computed) :
    (∀ pre j post, js = pre ++ j :: post → (sample j.config j.setting j.plan (afterRuns pre S) j.start).err = none ∧
      ∀ X ∈ (sample j.config j.setting j.plan (afterRuns pre S) j.start).hist, Intact db X) ∧
    Sound db computed (afterRuns js S) ∧ ∀ k, ∃ new, afterRuns js S k = S k ++ new :=
  merges_repeated hS fun j h => ⟨(hj j h).2.1 ▸ (hj j h).1.elim CompactMergeRun.run MergeRun.merges,
    (hj j h).1.elim CompactMergeRun.create fun h => h.only.create, (hj j h).2⟩

/-- What a run with compacted keys does to a table it does not pass through. -/
theorem step_keys {cfg : PlannerConfig} (hR : CompactMergeRun C D p cfg) (hS : Sound D.dstDb D.computed S) {kd : Key} {td : TableMeta}
    (htd : (kd.1 ++ '.' :: kd.2, td) ∈ D.dstDb) {c : Str} (hc : td.primaryKey = [c])
    (hp : ∀ n ∈ dkeys p.queries, DestOf C.remap n kd → n ∉ p.passthrough) {o : Int} (ho : IsOffset (S kd) c o) :
    ∃ new, (sample C D p S s).final kd = S kd ++ new ∧
      KeysBetween new c (o + C.compact.startKey) (o + C.compact.startKey + new.length) ∧
      (new ≠ [] → IsOffset ((sample C D p S s).final kd) c (o + C.compact.startKey + new.length)) := by
  by_cases h : ∃ n ∈ dkeys p.queries, DestOf C.remap n kd
  · obtain ⟨n, hn, hd⟩ := h
    obtain ⟨k, t, hk, ht⟩ := hR.run.planned_db.2 n hn
    obtain ⟨kd', td', hcp⟩ := hR.run.twins.copied hn hk ht
    obtain rfl := destOf_unique hd hcp.dest
    obtain rfl := db_same hR.ok.dst htd hcp.schema
    refine c92_keys hR hS hn (hp n hn hd) ht hd (((hR.run.twins.twin hcp).1.primaryKey c).1 ?_) ho
    rw [hc]
    exact List.mem_singleton.2 rfl
  · obtain ⟨-, -, h3, -⟩ := c92_merge (s := s) hR hS
    refine ⟨[], ?_, fun v => ?_, fun h => absurd rfl h⟩
    · rw [h3 kd fun n hn hd => h ⟨n, hn, hd⟩, List.append_nil]
    · constructor
      · rintro ⟨r, hr, -⟩; cases hr
      · rintro ⟨h1, h2⟩
        simp at h2
        omega

/-- C92. Keys do not grow quickly: however large the keys of the sources are, after any number of such runs the first number
past the largest key of a table has grown by the number of rows added, and by at most `start_key` for every run.  Without
compaction no such bound holds, see `c92_grows`. -/
theorem c92_bound {db : Dict Str TableMeta} {computed : Key → List Str} {kd : Key} {td : TableMeta} {c : Str} {a : Int}
    (htd : (kd.1 ++ '.' :: kd.2, td) ∈ db) (hc : td.primaryKey = [c]) :
    ∀ {js : List (Job σ)} {S : DbState}, Sound db computed S →
    (∀ j ∈ js, CompactMergeRun j.config j.setting j.plan j.planned ∧ j.setting.dstDb = db ∧ j.setting.computed = computed ∧
      j.config.compact.startKey = a ∧ ∀ n ∈ dkeys j.plan.queries, DestOf j.config.remap n kd → n ∉ j.plan.passthrough) →
    ∀ {o : Int}, IsOffset (S kd) c o → ∃ o' new, IsOffset (afterRuns js S kd) c o' ∧ afterRuns js S kd = S kd ++ new ∧
      o + (new.length : Int) ≤ o' ∧ o' ≤ o + new.length + a * js.length := by
  intro js
  induction js with
  | nil => exact fun _ _ o ho => ⟨o, [], by rw [afterRuns]; exact ho, by simp [afterRuns], by simp, by simp⟩
  | cons j js ih =>
    intro S hS hj o ho
    obtain ⟨hR, rfl, rfl, rfl, hp⟩ := hj j (by simp)
    have hpos := hR.merges.startKey
    obtain ⟨new, h1, -, h2⟩ := step_keys (s := j.start) hR hS htd hc hp ho
    obtain ⟨h3, -⟩ := c92_sound (s := j.start) hR hS
    have hstep : ∃ o1, IsOffset ((sample j.config j.setting j.plan S j.start).final kd) c o1 ∧
        o + (new.length : Int) ≤ o1 ∧ o1 ≤ o + new.length + j.config.compact.startKey := by
      by_cases hne : new = []
      · subst hne
        rw [List.append_nil] at h1
        exact ⟨o, by rw [h1]; exact ho, by simp, by simp; exact hpos⟩
      · exact ⟨_, h2 hne, by omega, by omega⟩
    obtain ⟨o1, h4, h5, h6⟩ := hstep
    obtain ⟨o', new', g1, g2, g3, g4⟩ := ih h3 (fun j' hj' => hj j' (by simp [hj'])) h4
    refine ⟨o', new ++ new', g1, ?_, ?_, ?_⟩
    · rw [afterRuns, g2, h1, List.append_assoc]
    · rw [List.length_append]; push_cast; omega
    · rw [List.length_append, List.length_cons, Nat.cast_succ, Int.mul_add, Int.mul_one]
      push_cast
      omega

/-- C92. With `start_key` 0 there are no gaps: a table whose keys are `0, …, N - 1`, for example an empty one, has such keys
after any number of runs. -/
theorem c92_no_gaps {db : Dict Str TableMeta} {computed : Key → List Str} {kd : Key} {td : TableMeta} {c : Str}
    (htd : (kd.1 ++ '.' :: kd.2, td) ∈ db) (hc : td.primaryKey = [c]) :
    ∀ {js : List (Job σ)} {S : DbState}, Sound db computed S →
    (∀ j ∈ js, CompactMergeRun j.config j.setting j.plan j.planned ∧ j.setting.dstDb = db ∧ j.setting.computed = computed ∧
      j.config.compact.startKey = 0 ∧ ∀ n ∈ dkeys j.plan.queries, DestOf j.config.remap n kd → n ∉ j.plan.passthrough) →
    KeysBetween (S kd) c 0 (S kd).length → KeysBetween (afterRuns js S kd) c 0 (afterRuns js S kd).length := by
  intro js
  induction js with
  | nil => exact fun _ _ h => h
  | cons j js ih =>
    intro S hS hj hb
    obtain ⟨hR, rfl, rfl, h0, hp⟩ := hj j (by simp)
    have ho : IsOffset (S kd) c (S kd).length := by
      by_cases hne : S kd = []
      · rw [hne]
        exact .inl ⟨fun r hr => (nomatch hr), rfl⟩
      · have hl : 0 < (S kd).length := List.length_pos_iff.2 hne
        refine .inr ⟨(S kd).length - 1, ⟨(hb _).2 ⟨by omega, by omega⟩, fun r hr v hv => ?_⟩, by omega⟩
        have := (hb v).1 ⟨r, hr, hv⟩
        omega
    obtain ⟨new, h1, h2, -⟩ := step_keys (s := j.start) hR hS htd hc hp ho
    obtain ⟨h3, -⟩ := c92_sound (s := j.start) hR hS
    refine ih h3 (fun j' hj' => hj j' (by simp [hj'])) fun v => ?_
    rw [h1, List.length_append]
    push_cast
    rw [h0, Int.add_zero] at h2
    constructor
    · rintro ⟨r, hr, hv⟩
      rcases List.mem_append.1 hr with hr | hr
      · have := (hb v).1 ⟨r, hr, hv⟩
        omega
      · have := (h2 v).1 ⟨r, hr, hv⟩
        omega
    · intro hv
      by_cases hlt : v < (S kd).length
      · obtain ⟨r, hr, h⟩ := (hb v).2 ⟨hv.1, hlt⟩
        exact ⟨r, List.mem_append.2 (.inl hr), h⟩
      · obtain ⟨r, hr, h⟩ := (h2 v).2 ⟨by omega, hv.2⟩
        exact ⟨r, List.mem_append.2 (.inr hr), h⟩

/-! ### Example: as for C91, with compacted keys -/

def miCompact (a : Int) : RunConfig := { miC with compact := { primaryKeys := true, startKey := a } }

theorem mi_compact_run {a : Int} (ha : 0 ≤ a) : ∃ p, plan dxEq miSetting.srcDb miCfg = .ok p ∧ p.passthrough = [str! "s.g"] ∧
    CompactMergeRun (miCompact a) miSetting p miCfg := by
  obtain ⟨p, hp, h⟩ := mi_run
  have hpass := miPass
  rw [hp] at hpass
  have hroot : ∀ e ∈ miSrcDb, ∀ fk ∈ e.2.foreignKeys, str! "id" ∉ fk.columns := by decide
  have hkey : ∀ e ∈ miSrcDb, e.2.primaryKey = [str! "id"] := by decide
  have hnd : ∀ e ∈ miSrcDb, ∀ fk ∈ e.2.foreignKeys, fk.columns.Nodup ∧ fk.dstColumns.Nodup := by decide
  refine ⟨p, hp, hpass, ⟨h.ok.src, h.ok.dst, h.ok.closed, h.ok.srcColumns, h.ok.self, h.ok.plan, .nil⟩,
    ⟨h.only.filters, fun _ _ h => (nomatch h), ha, h.only.once, rfl, rfl, rfl, rfl⟩, rfl, rfl,
    ⟨fun n t c ht _ hc _ _ fk hfk => ?_, fun _ n _ t ht => hnd (n, t) ht, fun h => (nomatch h)⟩, h.extra, h.targets, h.plan,
    h.ignored, h.dependencies, h.all, h.keys, h.source, h.columns,
    ⟨h.twins.tables, h.twins.differ, h.twins.circles, h.twins.self, h.twins.stable, h.twins.dialect, h.twins.auto⟩, h.mergeKeys⟩
  rw [hkey (n, t) ht] at hc
  cases hc
  exact hroot (n, t) ht fk hfk

/-- The tables of the example after `i` runs with `start_key` 1. -/
def miShowCompact (i : Nat) : List (List Row) :=
  match plan dxEq miSetting.srcDb miCfg with
  | .error _ => []
  | .ok p => [str! "o", str! "u", str! "g", str! "x"].map fun n =>
      afterRuns (List.replicate i ⟨miCompact 1, miSetting, p, miCfg, 0⟩) miBefore (str! "m", n)

/-- Order 7 of user 1 becomes order 11 of user 7 and then, sampled again, order 13 of user 9. -/
theorem c92_example : miShowCompact 2 = [[miRow (str! "id") 9 (str! "uid") 5, miRow (str! "id") 11 (str! "uid") 7, miRow (str! "id") 13 (str! "uid") 9],
      [miRow (str! "id") 5 (str! "gid") 1, miRow (str! "id") 7 (str! "gid") 2, miRow (str! "id") 9 (str! "gid") 2],
      [miRow (str! "id") 1 (str! "t") 11, miRow (str! "id") 2 (str! "t") 20], [[(str! "oid", .int 9)]]] := by
  decide +kernel

/-- The bound on the example, for any number of runs. -/
theorem mi_bound (i : Nat) : ∃ p, plan dxEq miSetting.srcDb miCfg = .ok p ∧ ∃ o' new,
    IsOffset (afterRuns (List.replicate i ⟨miCompact 1, miSetting, p, miCfg, 0⟩) miBefore (str! "m", str! "o")) (str! "id") o' ∧
    afterRuns (List.replicate i ⟨miCompact 1, miSetting, p, miCfg, 0⟩) miBefore (str! "m", str! "o") =
      miBefore (str! "m", str! "o") ++ new ∧ 10 + (new.length : Int) ≤ o' ∧ o' ≤ 10 + new.length + i := by
  obtain ⟨p, h1, h2, h3⟩ := mi_compact_run (a := 1) (by decide)
  have hb := c92_bound (db := miDst) (computed := fun _ => []) (kd := (str! "m", str! "o")) (td := miO (str! "m")) (c := str! "id")
    (a := 1) (js := List.replicate i ⟨miCompact 1, miSetting, p, miCfg, 0⟩) (by decide) rfl mi_sound (fun j hj => by
      rw [List.eq_of_mem_replicate hj]
      refine ⟨h3, rfl, rfl, rfl, fun n hn hd hp => ?_⟩
      dsimp only at hp hd
      rw [h2, List.mem_singleton] at hp
      subst hp
      have hg : DestOf (miCompact 1).remap (str! "s.g") (str! "m", str! "g") := ⟨str! "s", str! "g", by decide, by decide⟩
      exact absurd (destOf_unique hd hg) (by decide))
    (o := 10) (.inr ⟨9, ⟨⟨_, List.mem_singleton.2 rfl, rfl⟩, by
      intro r hr v hv
      rw [show miBefore (str! "m", str! "o") = [miRow (str! "id") 9 (str! "uid") 5] from rfl, List.mem_singleton] at hr
      subst hr
      cases hv
      exact le_refl _⟩, rfl⟩)
  obtain ⟨o', new, g1, g2, g3, g4⟩ := hb
  refine ⟨p, h1, o', new, g1, g2, g3, ?_⟩
  rw [List.length_replicate] at g4
  omega

/-- Without compaction the largest key of the orders is 25 after two runs that added one row each, more than the bound
of `c92_bound` for `start_key` 1. -/
theorem c92_grows : (miShow 2)[0]? = some [miRow (str! "id") 9 (str! "uid") 5, miRow (str! "id") 17 (str! "uid") 7, miRow (str! "id") 25 (str! "uid") 9] ∧
    ¬ (25 + 1 ≤ (10 : Int) + 2 + 1 * 2) := by
  constructor
  · rw [c91_example.2]; rfl
  · decide

end Subsetter.Props
