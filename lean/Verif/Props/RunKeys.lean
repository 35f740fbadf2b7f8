import Verif.Proofs.RunKeys
import Verif.Props.RunRefs

/-
Property C78: runs do not fail with violations of primary keys.
-/
namespace Subsetter.Props
open Subsetter Spec

variable {σ : Type} {C : RunConfig} {D : Setting σ} {p : Plan} {S : DbState} {s : σ}

/-- C78. No run of a plan of the planner fails with a violation of a primary key, whether identifiers are compacted, rows
are multiplied, or everything is merged into what the destination holds, in any combination, provided that the keys of
tables written with the strategy `error` can be told apart (`KeysApart`). -/
theorem c78_no_conflict (hok : RunOK C D p) (hfo : LookupsFollow C D p) {cfg : PlannerConfig} {T : Tables}
    (hI : Input cfg T) (hplan : planInternal cfg T = .ok p)
    (hall : Compacts C → ∀ n y, dget cfg.targets n = some y → y.all = true → y.amount = none)
    (hpk : PkOK (dbTables D.srcDb) D.src) (hsrc : Compacts C → Intact D.srcDb D.src)
    (hkeys : ∀ n k kd t td, Copied C D p (sample C D p S s).schema n k kd t td → strategyFor C p n = .error →
      td.primaryKey ≠ [] → KeysApart C D cfg T p S (sample C D p S s).schema n k kd t td ∧
        KeysUnique td.primaryKey (S kd)) :
    (sample C D p S s).err ≠ some (.dest (.output .integrity)) := by
  intro h
  obtain ⟨r, db, x, order, states, offs, compact, mat, temps, hst, h1, h2⟩ := sample_output h
  rw [h1] at hkeys
  rw [h] at h2
  obtain ⟨B, rest, Smp, ids, hB, hcp, hinj, hsent, -⟩ := hst.copying hok
  rw [hB] at h2
  obtain ⟨n, hn, j, o, pre, outs, s1, s2, bs, b, X, g1, g2, g3, g4, g5, g6, g7⟩ := copyAll_conflict (fun n he => by
    rcases readTable_error hst.start he with ⟨e', h'⟩ | ⟨h', -⟩ <;> cases h') hcp.nodup hinj h2
  obtain ⟨k, kd, t, td, hc⟩ := (hcp.all n).1 hn
  obtain ⟨f1, f2, f3, rows, -, f4⟩ := hsent n k kd t td hc j g1
  obtain ⟨f5, -, f6⟩ := f4 o pre s1 s2 outs outs g2 g3 g4 List.prefix_rfl
  rw [f1, f2, f3, f5] at g6
  rw [f2, f3, f5] at g7
  obtain ⟨e1, e2, e3⟩ := flush_conflict g7
  have hpkeq : (target D kd td).pk = td.primaryKey := by unfold target; split <;> rfl
  obtain ⟨hka, hu⟩ := hkeys n k kd t td hc e1 (by rw [← hpkeq]; exact e2)
  have := sent_keys hok hfo hcp hI hplan hall hpk hsrc (prepared_run hok hst.start hst.create).names hc hka
    (by rw [← hpkeq]; exact e2) hu f6
  rw [commits_append g6 (.inl e1), List.append_assoc] at e3
  refine e3 ?_
  rw [← g5] at this
  simpa [fullRows] using this

/-- C78. Copying into empty tables: it is enough that primary keys are those of the source, that no filter or generated
column touches them, and that multiplied rows have an integer column in the primary key that is multiplied. -/
theorem c78_empty_tables (hok : RunOK C D p) (hinf : C.infer = .none) (hcp : ¬ Compacts C)
    (hco : C.compact.columns = []) {cfg : PlannerConfig} {T : Tables} (hI : Input cfg T)
    (hplan : planInternal cfg T = .ok p) (hpk : PkOK (dbTables D.srcDb) D.src)
    (hempty : C.truncate = true ∨ ∀ n kd, n ∈ dkeys p.queries → DestOf C.remap n kd → S kd = [])
    (hun : ∀ k, C.truncate = true → ∀ t, (k.1 ++ '.' :: k.2, t) ∈ (sample C D p S s).schema → KeysUnique t.primaryKey (S k))
    (hsame : ∀ n k kd t td, Copied C D p (sample C D p S s).schema n k kd t td →
      (∀ c, c ∈ td.primaryKey ↔ c ∈ t.primaryKey) ∧ (∀ c ∈ t.primaryKey, KeptColumn C D n t kd td c) ∧
      (1 < timesWritten C p n → td.primaryKey ≠ [] →
        ∃ c ∈ t.primaryKey, Multiplied C D p n c ∧ ∀ r ∈ D.src k, ∃ v, r.get c = .int v)) :
    (sample C D p S s).err ≠ some (.dest (.output .integrity)) := by
  refine c78_no_conflict hok ⟨hinf, fun h => absurd h hcp, fun h => absurd h hcp, fun n cs h => by rw [hco] at h; cases h⟩
    hI hplan (fun h => absurd h hcp) hpk (fun h => absurd h hcp) fun n k kd t td hc _ hne => ?_
  obtain ⟨h1, h2, h3⟩ := hsame n k kd t td hc
  rcases hempty with hte | he
  · exact ⟨⟨h1, h2, fun h => h3 h hne, .inr (.inl hte), fun h => absurd h hcp, fun h => absurd h hcp⟩,
      hun kd hte td hc.schema⟩
  · have := he n kd hc.planned hc.dest
    exact ⟨⟨h1, h2, fun h => h3 h hne, .inl this, fun h => absurd h hcp, fun h => absurd h hcp⟩,
      by rw [this]; exact List.Pairwise.nil⟩

/-! ### Examples -/

theorem wx_apart {p : Plan} (hn : dkeys p.queries = [str! "s.o", str! "s.u"]) (hp : p.passthrough = []) {n : Str}
    {k kd : Key} {t td : TableMeta} (hc : Copied wxC (rxSetting rxDst) p rxDst n k kd t td) :
    KeysApart wxC (rxSetting rxDst) exCfg ixTables p rxBefore rxDst n k kd t td ∧ KeysUnique td.primaryKey (rxBefore kd) := by
  rcases ix_copied rfl hn hc with ⟨rfl, rfl, rfl, rfl, rfl⟩ | ⟨rfl, rfl, rfl, rfl, rfl⟩
  · refine ⟨⟨fun c => Iff.rfl, fun c hc => ⟨by revert c; decide, (fun _ h => nomatch h), by revert c; decide⟩, ?_, ?_, ?_, ?_⟩, ?_⟩
    · intro _
      refine ⟨str! "id", by decide, ⟨by decide, .pk (t := rxO (str! "s")) (by rw [hn]; decide) (by rw [hp]; decide) ⟨(str! "s", str! "o"), by decide, by decide⟩ (by decide) ?_⟩, ?_⟩
      · intro cs h; cases h
      · intro r hr
        have : r.get (str! "id") = .int 7 ∨ r.get (str! "id") = .int 8 := by revert r; decide
        rcases this with h | h
        · exact ⟨7, h⟩
        · exact ⟨8, h⟩
    · refine .inr (.inr ⟨rfl, by rw [hp]; exact List.not_mem_nil, by decide, str! "id", by decide, ?_, .inl ⟨rfl, by decide⟩, ?_⟩)
      · intro r hr
        have : r.get (str! "id") = .int 7 ∨ r.get (str! "id") = .int 8 := by revert r; decide
        rcases this with h | h
        · exact ⟨7, by decide, h⟩
        · exact ⟨8, by decide, h⟩
      · rintro kb d ⟨fk, h1, k0, tb, tdb, h2, -⟩
        have : ∀ fk ∈ (rxO (str! "s")).foreignKeys, fk.columns ≠ [str! "id"] := by decide
        exact absurd h2 (this fk h1)
    · rintro - fk h1 ⟨c, h2, h3⟩
      have : ∀ fk ∈ (rxO (str! "s")).foreignKeys, ∀ c ∈ fk.columns, c ∉ (rxO (str! "s")).primaryKey := by decide
      exact absurd h3 (this fk h1 c h2)
    · intro _
      decide
    · exact List.pairwise_singleton ..
  · refine ⟨⟨fun c => Iff.rfl, fun c hc => ⟨by revert c; decide, (fun _ h => nomatch h), by revert c; decide⟩, ?_, ?_, ?_, ?_⟩, ?_⟩
    · intro _
      refine ⟨str! "id", by decide, ⟨by decide, .pk (t := rxU (str! "s")) (by rw [hn]; decide) (by rw [hp]; decide) ⟨(str! "s", str! "u"), by decide, by decide⟩ (by decide) ?_⟩, ?_⟩
      · intro cs h; cases h
      · intro r hr
        have : r.get (str! "id") = .int 1 ∨ r.get (str! "id") = .int 2 := by revert r; decide
        rcases this with h | h
        · exact ⟨1, h⟩
        · exact ⟨2, h⟩
    · refine .inr (.inr ⟨rfl, by rw [hp]; exact List.not_mem_nil, by decide, str! "id", by decide, ?_, .inl ⟨rfl, by decide⟩, ?_⟩)
      · intro r hr
        have : r.get (str! "id") = .int 1 ∨ r.get (str! "id") = .int 2 := by revert r; decide
        rcases this with h | h
        · exact ⟨1, by decide, h⟩
        · exact ⟨2, by decide, h⟩
      · rintro kb d ⟨fk, h1, -⟩
        cases h1
    · rintro - fk h1
      cases h1
    · intro _
      decide
    · exact List.pairwise_singleton ..

/-- C78 on the example: keys are compacted, each row is written twice, and everything is merged into what is there. -/
theorem wx_no_conflict : ∃ p, planInternal exCfg ixTables = .ok p ∧
    (sample wxC (rxSetting rxDst) p rxBefore 0).err ≠ some (.dest (.output .integrity)) := by
  have hn := ixNames
  have hp : wxPass (planInternal exCfg ixTables) = [] := by decide +kernel
  cases h : planInternal exCfg ixTables with
  | error e => rw [h] at hn; cases hn
  | ok p =>
    rw [h] at hn hp
    obtain ⟨hok, hI, h1, h2, h3, -⟩ := ix_hyps (C := wxC) rfl rfl rfl h hn
    have hsch : (sample wxC (rxSetting rxDst) p rxBefore 0).schema = rxDst := schema_kept rfl
    refine ⟨p, rfl, c78_no_conflict hok (wx_follow hn hp).lookups hI h (fun _ => h1) h2 (fun _ => h3) ?_⟩
    rw [hsch]
    exact fun n k kd t td hc _ _ => wx_apart hn hp hc

/-- `c78_empty_tables` on an example: each row is written twice into empty tables. -/
example : ∃ p, planInternal exCfg ixTables = .ok p ∧
    (sample { remap := dxRemap, mult := { multiplier := 2 } } (rxSetting rxDst) p (fun _ => []) 0).err ≠
      some (.dest (.output .integrity)) := by
  have hn := ixNames
  have hp : wxPass (planInternal exCfg ixTables) = [] := by decide +kernel
  cases h : planInternal exCfg ixTables with
  | error e => rw [h] at hn; cases hn
  | ok p =>
    rw [h] at hn hp
    replace hn : dkeys p.queries = _ := hn
    replace hp : p.passthrough = _ := hp
    obtain ⟨hok, hI, h1, h2, h3, -⟩ := ix_hyps (C := { remap := dxRemap, mult := { multiplier := 2 } }) rfl rfl rfl h hn
    refine ⟨p, rfl, c78_empty_tables hok rfl (fun h => ?_) rfl hI h h2 (.inr fun _ _ _ _ => rfl) (fun _ h => nomatch h) ?_⟩
    · rcases h with h | h | ⟨n, cs, c, h, -⟩ <;> cases h
    · intro n k kd t td hc
      have hc' : Copied wxC (rxSetting rxDst) p rxDst n k kd t td := by
        rw [schema_kept rfl] at hc
        exact ⟨hc.planned, hc.name, hc.source, hc.dest, hc.reached, hc.schema⟩
      obtain ⟨ha, -⟩ := wx_apart hn hp hc'
      refine ⟨ha.same, ha.kept, fun h _ => ?_⟩
      rcases ix_copied rfl hn hc' with ⟨rfl, rfl, rfl, rfl, rfl⟩ | ⟨rfl, rfl, rfl, rfl, rfl⟩
      · exact ⟨str! "id", by decide, ⟨by decide, .pk (t := rxO (str! "s")) (by rw [hn]; decide) (by rw [hp]; decide) ⟨(str! "s", str! "o"), by decide, by decide⟩ (by decide) (fun cs h => nomatch h)⟩, fun r hr => (ha.copies h).elim fun c hc => by
          have : c = str! "id" := by have := hc.1; simpa [rxO] using this
          subst this; exact hc.2.2 r hr⟩
      · exact ⟨str! "id", by decide, ⟨by decide, .pk (t := rxU (str! "s")) (by rw [hn]; decide) (by rw [hp]; decide) ⟨(str! "s", str! "u"), by decide, by decide⟩ (by decide) (fun cs h => nomatch h)⟩, fun r hr => (ha.copies h).elim fun c hc => by
          have : c = str! "id" := by have := hc.1; simpa [rxU] using this
          subst this; exact hc.2.2 r hr⟩

/-- If the primary key is exempt from multiplication, copies meet each other. -/
theorem wx_exempt : (match planInternal exCfg ixTables with
      | .ok p => (sample { wxC with compact := {}, mult := { multiplier := 2, ignorePk := [(str! "s.u", [str! "id"])] } } (rxSetting rxDst) p rxBefore 0).err
      | .error _ => none) = some (.dest (.output .integrity)) := by
  decide +kernel

/-- If compaction begins below zero, what is merged meets what is there. -/
theorem wx_below : (match planInternal exCfg ixTables with
      | .ok p => (sample { wxC with compact := { primaryKeys := true, startKey := -1 }, mult := {} } (rxSetting rxDst) p rxBefore 0).err
      | .error _ => none) = some (.dest (.output .integrity)) := by
  decide +kernel

end Subsetter.Props
