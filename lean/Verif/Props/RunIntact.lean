import Verif.Proofs.RunIntact
import Verif.Props.Run
import Verif.Props.CompactPlan

/-
Property C60: foreign keys of the destination hold at any time of a run.
-/
namespace Subsetter.Props
open Subsetter Spec

variable {σ : Type} {C : RunConfig} {D : Setting σ} {p : Plan} {S : DbState} {s : σ}

/-- Foreign keys hold after every commit if their columns are treated as those they refer to. -/
theorem always_intact (hok : RunOK C D p)
    (hself : ∀ n ∈ dkeys D.dstDb, D.fnmatch n n = true)
    {cfg : PlannerConfig} {T : Tables} (hI : Input cfg T) (hplan : planInternal cfg T = .ok p)
    (hall : ∀ n y, dget cfg.targets n = some y → y.all = true → y.amount = none)
    (hpk : PkOK (dbTables D.srcDb) D.src) (hsrc : Intact D.srcDb D.src)
    (hmir : Mirrored C D cfg T p (sample C D p S s).schema) (hstab : RefsStable C D p (sample C D p S s).schema)
    (h0 : Intact D.dstDb S) (hnew : ∀ k, ¬ InDb D.dstDb k → S k = [])
    (hold : ∀ n k kd t td, Copied C D p (sample C D p S s).schema n k kd t td → TableHolds (target D kd td) (S kd))
    (hlike : ∀ {order B Smp ids Ts mult compact offs},
      Copying C D p S (sample C D p S s).schema order B Smp ids Ts mult compact offs → Intact (sample C D p S s).schema B →
      ((sample C D p S s).schema.map Prod.fst).Nodup →
      (∀ n k kd t td, Copied C D p (sample C D p S s).schema n k kd t td → (td.schema, td.name) = kd) →
      RefsAlike C D p (sample C D p S s).schema Ts mult compact offs ∧
      ∀ n k kd t td, Copied C D p (sample C D p S s).schema n k kd t td → ∀ c d dc, PointsTo Ts compact k c d dc →
        ¬ IsCompacted compact k c → UniqueIn (Smp d) dc) :
    ∀ X ∈ (sample C D p S s).hist, Intact (sample C D p S s).schema X := by
  have htr : ∀ {r : Started} {db : Dict Str TableMeta} {x : DestMeta} {states : List DbState},
      startRun C D p = .ok r → createStep C D r = .ok (db, x) → truncateStep C x S = .ok states →
      ∀ X ∈ states.reverse ++ [S], Intact db X := by
    intro r db x states h1 h2 h3 X hX
    have hS := created_new hok h1 h2 h0 hnew
    rcases List.mem_append.1 hX with hX | hX
    · unfold truncateStep at h3
      split at h3
      · exact ((prepared_run hok h1 h2).truncate h3).1 hS X (List.mem_reverse.1 hX)
      · cases h3; cases hX
    · rw [List.mem_singleton] at hX
      subst hX
      exact hS
  rcases sample_cases C D p S s with ⟨-, h2, -, h3⟩ | ⟨r, db, x, order, states, h1, h2, h3, h4, h5, h6, h7, -⟩ |
    ⟨r, db, x, order, states, offs, compact, mat, temps, hst, h1, h2⟩
  · rw [h2]
    intro X hX
    rw [List.mem_singleton] at hX
    subst hX
    rcases h3 with h3 | ⟨r, x, h3, h4⟩
    · rw [h3]; exact h0
    · exact created_new hok h3 h4 h0 hnew
  · rw [h7, h5]
    exact htr h1 h2 h4
  · rw [h1] at hmir hstab hold hlike ⊢
    have htr' := htr hst.start hst.create hst.truncate
    obtain ⟨B, rest, Smp, ids, hB, hcp, hinj, -, hat⟩ := hst.copying hok
    have hBi : Intact db B := htr' B (by rw [hB]; simp)
    have hBold : ∀ n k kd t td, Copied C D p db n k kd t td → TableHolds (target D kd td) (B kd) := by
      intro n k kd t td hc
      by_cases ht : C.truncate = true
      · rw [hcp.begins.emptied ht kd hc.reached]
        exact ⟨fun _ => List.nodup_nil, by simp⟩
      · rw [hcp.begins.kept kd fun h => absurd h ht]
        exact hold n k kd t td hc
    intro X hX
    rw [hB] at h2
    rcases copyAll_history hcp.nodup hinj h2 X hX with h3 | ⟨done, todo, h3⟩
    · exact htr' X (by rw [hB]; simp [h3])
    · have hf := prepared_run hok hst.start hst.create
      have hkey : ∀ n k kd t td, Copied C D p db n k kd t td → (td.schema, td.name) = kd := by
        intro n k kd t td hc
        obtain ⟨t', ht'⟩ := (reached_iff hok (prepared_of_step hst.start hst.create) kd).2 hc.reached
        have := schema_get hf hc.schema (dget_of_mem hf.tables.keys_nodup ht')
        rw [← this]
        exact hf.tables.key_eq kd t' ht'
      have hl := hlike hcp hBi hf.names hkey
      exact hst.intact hok hself hI hplan hall hpk hsrc hmir hstab hcp hBi hBold hl.1 hl.2 (hat _ _ _ h3)

/-- C60. If foreign keys hold in the source and in the destination, and those of the destination's copied tables are
those of the source, then they hold after every commit of a run that samples a plan of the planner, whether it
finishes, fails or is interrupted, for every conflict strategy and every filter on other columns.
Missing: filters on key columns, targets with `all` and
`amount` (C07), and strategies other than `error` with references to columns outside of primary keys (C36). -/
theorem c60_always_intact_partial (hok : RunOK C D p) (hid : SameIds C)
    (hself : ∀ n ∈ dkeys D.dstDb, D.fnmatch n n = true)
    {cfg : PlannerConfig} {T : Tables} (hI : Input cfg T) (hplan : planInternal cfg T = .ok p)
    (hall : ∀ n y, dget cfg.targets n = some y → y.all = true → y.amount = none)
    (hpk : PkOK (dbTables D.srcDb) D.src) (hsrc : Intact D.srcDb D.src)
    (hmir : Mirrored C D cfg T p (sample C D p S s).schema) (hstab : RefsStable C D p (sample C D p S s).schema)
    (h0 : Intact D.dstDb S) (hnew : ∀ k, ¬ InDb D.dstDb k → S k = [])
    (hold : ∀ n k kd t td, Copied C D p (sample C D p S s).schema n k kd t td → TableHolds (target D kd td) (S kd)) :
    ∀ X ∈ (sample C D p S s).hist, Intact (sample C D p S s).schema X :=
  always_intact hok hself hI hplan hall hpk hsrc hmir hstab h0 hnew hold fun hcp _ _ _ =>
    ⟨sameIds_alike hid hcp, fun _ k _ _ _ _ c d dc h _ => sameIds_lookups hid hcp k c d dc h⟩

/-! ### Example -/

theorem schema_kept (hcr : C.create = false) : (sample C D p S s).schema = D.dstDb := by
  have hc : ∀ {r : Started} {db : Dict Str TableMeta} {x : DestMeta}, createStep C D r = .ok (db, x) → db = D.dstDb := by
    intro r db x h
    unfold createStep at h
    rw [if_neg (by rw [hcr]; simp)] at h
    cases h; rfl
  rcases sample_cases C D p S s with ⟨-, -, -, h⟩ | ⟨r, db, x, order, states, -, h2, -, -, h5, -⟩ |
    ⟨r, db, x, order, states, offs, compact, mat, temps, hst, h1, -⟩
  · rcases h with h | ⟨r, x, -, h⟩
    · exact h
    · exact hc h
  · rw [h5]; exact hc h2
  · rw [h1]; exact hc hst.create

/-- Rows are replaced, nothing is truncated. -/
def ixC : RunConfig := { remap := dxRemap, strategy := .replace }

def ixTables : Tables := dbTables (rxSetting rxDst).srcDb

theorem ixNames : planNames (planInternal exCfg ixTables) = [str! "s.o", str! "s.u"] := by decide +kernel

/-- Tables that can be copied. -/
theorem ix_copied {C : RunConfig} (hC : C.remap = dxRemap) {p : Plan} (hp : dkeys p.queries = [str! "s.o", str! "s.u"])
    {n : Str} {k kd : Key} {t td : TableMeta} (h : Copied C (rxSetting rxDst) p rxDst n k kd t td) :
    (n = str! "s.o" ∧ k = (str! "s", str! "o") ∧ kd = (str! "m", str! "o") ∧ t = rxO (str! "s") ∧ td = rxO (str! "m")) ∨
    (n = str! "s.u" ∧ k = (str! "s", str! "u") ∧ kd = (str! "m", str! "u") ∧ t = rxU (str! "s") ∧ td = rxU (str! "m")) := by
  have hn := h.planned
  rw [hp] at hn
  simp only [List.mem_cons, List.not_mem_nil, or_false] at hn
  have hd := h.dest
  rw [hC] at hd
  have hsrc := dget_of_mem (d := (rxSetting rxDst).srcDb) (by decide) h.source
  have hdst := dget_of_mem (d := rxDst) (by decide) h.schema
  rcases hn with rfl | rfl
  · have e1 : kd = (str! "m", str! "o") := destOf_unique hd ⟨str! "s", str! "o", by decide, by decide⟩
    subst e1
    exact .inl ⟨rfl, (Option.some.inj h.name).symm, rfl, (Option.some.inj hsrc).symm, (Option.some.inj hdst).symm⟩
  · have e1 : kd = (str! "m", str! "u") := destOf_unique hd ⟨str! "s", str! "u", by decide, by decide⟩
    subst e1
    exact .inr ⟨rfl, (Option.some.inj h.name).symm, rfl, (Option.some.inj hsrc).symm, (Option.some.inj hdst).symm⟩

/-- The hypotheses on databases and plan hold of the example, whatever else is configured. -/
theorem ix_hyps {C : RunConfig} (hr : C.remap = dxRemap) (hf : C.filters = []) (hco : C.compact.columns = []) {p : Plan}
    (h : planInternal exCfg ixTables = .ok p) (hn : dkeys p.queries = [str! "s.o", str! "s.u"]) :
    RunOK C (rxSetting rxDst) p ∧ Input exCfg ixTables ∧
    (∀ n y, dget exCfg.targets n = some y → y.all = true → y.amount = none) ∧
    PkOK (dbTables (rxSetting rxDst).srcDb) (rxSetting rxDst).src ∧ Intact (rxSetting rxDst).srcDb (rxSetting rxDst).src ∧
    Mirrored C (rxSetting rxDst) exCfg ixTables p rxDst ∧ RefsStable C (rxSetting rxDst) p rxDst ∧
    Intact (rxSetting rxDst).dstDb rxBefore ∧ (∀ k, ¬ InDb (rxSetting rxDst).dstDb k → rxBefore k = []) ∧
    ∀ n k kd t td, Copied C (rxSetting rxDst) p rxDst n k kd t td → TableHolds (target (rxSetting rxDst) kd td) (rxBefore kd) := by
  have hok : RunOK C (rxSetting rxDst) p := by
    have := rx_ok (C := C) hco
    exact ⟨this.src, this.dst, this.closed, this.srcColumns, this.self, by rw [hn]; decide, this.compactNames⟩
  have hI : Input exCfg ixTables := by
    refine ⟨⟨by decide, ?_, ?_, ?_, ?_⟩, (fun _ h => nomatch h), by decide⟩
    iterate 4
      · intro k t ht
        simp only [ixTables, dbTables, rxSetting, List.map_cons, List.map_nil, List.mem_cons, List.not_mem_nil, or_false] at ht
        rcases ht with ht | ht <;> cases ht <;> decide
  refine ⟨hok, hI, ?_, ?_, ?_, ?_, ?_, ?_, ?_, ?_⟩
  · intro n y hy
    have := dget_some_mem hy
    simp only [exCfg, List.mem_cons, Prod.mk.injEq, List.not_mem_nil, or_false] at this
    obtain ⟨-, rfl⟩ := this
    intro h; cases h
  · intro k t ht _
    have ht := dget_some_mem ht
    simp only [dbTables, rxSetting, List.map_cons, List.map_nil, List.mem_cons, List.not_mem_nil, or_false] at ht
    rcases ht with ht | ht <;> cases ht <;> decide +kernel
  · rintro a fk b ⟨n, t, h1, rfl, h2, rfl⟩
    simp only [rxSetting, List.mem_cons, Prod.mk.injEq, List.not_mem_nil, or_false] at h1
    rcases h1 with ⟨-, rfl⟩ | ⟨-, rfl⟩
    · simp only [rxO, List.mem_cons, List.not_mem_nil, or_false] at h2
      subst h2
      unfold Resolves Refers
      decide +kernel
    · cases h2
  · intro n k kd t td hc fk hfk
    rcases ix_copied hr hn hc with ⟨rfl, rfl, rfl, rfl, rfl⟩ | ⟨rfl, rfl, rfl, rfl, rfl⟩
    · simp only [rxO, List.mem_cons, List.not_mem_nil, or_false] at hfk
      subst hfk
      have hfk : DbFk (rxSetting rxDst).srcDb (str! "s", str! "o") ⟨[str! "uid"], str! "s", str! "u", [str! "id"]⟩ (str! "s", str! "u") :=
        ⟨str! "s.o", rxO (str! "s"), by decide, by decide, by decide, by decide⟩
      refine ⟨?_, _, _, str! "s.u", hfk, ?_, rfl, rfl, by rw [hn]; decide, by decide, ⟨str! "s", str! "u", by decide, by rw [hr]; decide⟩, ?_⟩
      · intro c hc
        rw [List.mem_singleton] at hc
        subst hc
        exact ⟨by decide, by rw [hf]; exact fun _ h => (nomatch h), by decide⟩
      · refine .inl ⟨.inl ⟨rxO (str! "s"), by decide, by decide, rfl⟩, ?_⟩
        simp [IgnoredFk, exCfg]
      · intro kb' tb tdb hb c hc
        rw [List.mem_singleton] at hc
        subst hc
        rcases ix_copied hr hn hb with ⟨h, -⟩ | ⟨-, -, -, rfl, rfl⟩
        · cases h
        · exact ⟨by decide, by rw [hf]; exact fun _ h => (nomatch h), by decide⟩
    · cases hfk
  · rintro a fk b ⟨n, t, h1, rfl, h2, rfl⟩ n' k' t' td' hc
    right; right
    simp only [rxDst, List.mem_cons, Prod.mk.injEq, List.not_mem_nil, or_false] at h1
    rcases h1 with ⟨-, rfl⟩ | ⟨-, rfl⟩ | ⟨-, rfl⟩
    · simp only [rxO, List.mem_cons, List.not_mem_nil, or_false] at h2
      subst h2
      rcases ix_copied hr hn hc with ⟨-, -, h, -⟩ | ⟨-, -, -, -, rfl⟩
      · exact absurd h (by decide)
      · decide
    · cases h2
    · simp only [rxX, List.mem_cons, List.not_mem_nil, or_false] at h2
      subst h2
      rcases ix_copied hr hn hc with ⟨-, -, -, -, rfl⟩ | ⟨-, -, h, -⟩
      · decide
      · exact absurd h (by decide)
  · rintro a fk b ⟨n, t, h1, rfl, h2, rfl⟩
    simp only [rxSetting, rxDst, List.mem_cons, Prod.mk.injEq, List.not_mem_nil, or_false] at h1
    rcases h1 with ⟨-, rfl⟩ | ⟨-, rfl⟩ | ⟨-, rfl⟩
    · simp only [rxO, List.mem_cons, List.not_mem_nil, or_false] at h2
      subst h2
      unfold Resolves Refers
      decide +kernel
    · cases h2
    · simp only [rxX, List.mem_cons, List.not_mem_nil, or_false] at h2
      subst h2
      unfold Resolves Refers
      decide +kernel
  · intro k hk
    unfold rxBefore
    split
    · rename_i e; exact absurd ⟨str! "m.u", rxU (str! "m"), by decide, by rw [e]; decide⟩ hk
    split
    · rename_i e; exact absurd ⟨str! "m.o", rxO (str! "m"), by decide, by rw [e]; decide⟩ hk
    split
    · rename_i e; exact absurd ⟨str! "m.x", rxX, by decide, by rw [e]; decide⟩ hk
    rfl
  · intro n k kd t td hc
    rcases ix_copied hr hn hc with ⟨-, -, rfl, -, rfl⟩ | ⟨-, -, rfl, -, rfl⟩
    · exact ⟨fun _ => by unfold KeysUnique; decide +kernel, by decide +kernel⟩
    · exact ⟨fun _ => by unfold KeysUnique; decide +kernel, by decide +kernel⟩

/-- C60 on the example: order 9 of user 5 is in the destination and a table not planned refers to it; orders of user 1
are sampled and written with the strategy `replace`. -/
theorem ix_always_intact : ∃ p, planInternal exCfg ixTables = .ok p ∧
    ∀ X ∈ (sample ixC (rxSetting rxDst) p rxBefore 0).hist, Intact rxDst X := by
  have hn := ixNames
  cases h : planInternal exCfg ixTables with
  | error e => rw [h] at hn; cases hn
  | ok p =>
    rw [h] at hn
    obtain ⟨hok, hI, h1, h2, h3, h4, h5, h6, h7, h8⟩ := ix_hyps (C := ixC) rfl rfl rfl h hn
    have hsch : (sample ixC (rxSetting rxDst) p rxBefore 0).schema = rxDst := schema_kept rfl
    have := c60_always_intact_partial (C := ixC) (D := rxSetting rxDst) (p := p) (S := rxBefore) (s := 0) hok
      ⟨⟨rfl, rfl⟩, fun _ _ h => (nomatch h), by decide, rfl⟩ (fun n _ => by simp [rxSetting, dxEq]) hI h h1 h2 h3
      (by rw [hsch]; exact h4) (by rw [hsch]; exact h5) h6 h7 (by rw [hsch]; exact h8)
    exact ⟨p, rfl, by rwa [hsch] at this⟩

/-- It finishes: user 1 and order 7 are added. -/
theorem ix_result : (match planInternal exCfg ixTables with
      | .ok p => some (rxShow (sample ixC (rxSetting rxDst) p rxBefore 0))
      | .error _ => none) =
    some (none, [[[(str! "id", .int 5)], [(str! "id", .int 1)]], [[(str! "id", .int 9), (str! "uid", .int 5)], [(str! "id", .int 7), (str! "uid", .int 1)]], [[(str! "oid", .int 9)]]]) := by
  decide +kernel

/-- Two copies of each row. -/
def ixTwice : RunConfig := { remap := dxRemap, truncate := true, mult := { multiplier := 2 } }

theorem ix_twice : (match planInternal exCfg ixTables with
      | .ok p => some (rxShow (sample ixTwice (rxSetting rxDst) p rxBefore 0))
      | .error _ => none) =
    some (none, [[[(str! "id", .int 2)], [(str! "id", .int 3)]], [[(str! "id", .int 14), (str! "uid", .int 1)], [(str! "id", .int 15), (str! "uid", .int 1)]], []]) := by
  decide +kernel

/-- The missing part of C60 is false: copies of orders refer to user 1, while the copies of this user are 2 and 3,
because multiplicity is passed on only between columns of the same name. -/
theorem c60_multiplied_dangling : ∃ p, planInternal exCfg ixTables = .ok p ∧
    (sample ixTwice (rxSetting rxDst) p rxBefore 0).err = none ∧
    ¬ Intact rxDst (sample ixTwice (rxSetting rxDst) p rxBefore 0).final := by
  have h := ix_twice
  cases hp : planInternal exCfg ixTables with
  | error e => rw [hp] at h; cases h
  | ok p =>
    rw [hp] at h
    have h := Option.some.inj h
    unfold rxShow at h
    obtain ⟨h1, h2⟩ := Prod.mk.inj h
    obtain ⟨h3, h2⟩ := List.cons.inj h2
    obtain ⟨h4, -⟩ := List.cons.inj h2
    refine ⟨p, rfl, h1, fun hi => ?_⟩
    have := hi (str! "m", str! "o") ⟨[str! "uid"], str! "m", str! "u", [str! "id"]⟩ (str! "m", str! "u")
      ⟨str! "m.o", rxO (str! "m"), by decide, by decide, by decide, by decide⟩
    rw [h3, h4] at this
    revert this
    unfold Resolves Refers
    decide +kernel

end Subsetter.Props
