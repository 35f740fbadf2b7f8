import Verif.Proofs.RunWritten

/-
Properties C58, C61 and C62: what a whole run leaves in the destination.
-/
namespace Subsetter.Props
open Subsetter Spec

variable {σ : Type} {C : RunConfig} {D : Setting σ} {p : Plan} {S : DbState} {s : σ}

/-! ### C61 -/

/-- C61. A run without error leaves in every destination table what was there (after truncation), with the rows
of the sample, compacted, filtered, multiplied and shifted, written in batches with the table's conflict
strategy; and it leaves other tables alone. -/
theorem c61_run (hok : RunOK C D p) (h : (sample C D p S s).err = none) :
    ∃ order B Smp ids T mult compact offs,
      Copying C D p S (sample C D p S s).schema order B Smp ids T mult compact offs ∧
      (∀ n k kd t td, Copied C D p (sample C D p S s).schema n k kd t td →
        FullyWritten C D p T mult compact offs Smp ids n k kd t td (B kd) ((sample C D p S s).final kd)) ∧
      ∀ kd, (∀ n k t td, ¬ Copied C D p (sample C D p S s).schema n k kd t td) →
        (sample C D p S s).final kd = B kd := by
  rcases sample_cases C D p S s with ⟨-, -, ⟨e, he⟩, -⟩ | ⟨-, -, -, -, -, -, -, -, -, -, -, -, e, he, -⟩ |
    ⟨r, db, x, order, states, offs, compact, mat, temps, hst, h1, h2⟩
  · rw [h] at he; cases he
  · rw [h] at he; cases he
  · rw [h] at h2
    obtain ⟨B, Smp, ids, X, rest, done, todo, g1, g2, g3, g4, -⟩ := hst.content hok h2
    have e : (sample C D p S s).final = X := by unfold RunResult.final; rw [g1]; rfl
    rw [h1, e]
    have e2 := g3.1 rfl
    subst e2
    have e3 := g4.order_eq
    rw [List.append_nil] at e3
    subst e3
    exact ⟨_, B, Smp, ids, _, _, _, _, g2, fun n k kd t td hc => g4.full n k kd t td hc ((g2.all n).2 ⟨k, kd, t, td, hc⟩), g4.others⟩

/-- C61. With the strategy `error`, or in a table without primary key, every row sent is added as a new one, after
those that were there. -/
theorem c61_added {dialect : Dialect} {st : Strategy} {d : DestTable} {cols : List Str} {bs : List (List (List Val))}
    {old new : List Row} (h : Commits (flushBuffer dialect st d cols) old bs new) (hf : Fitting d cols bs.flatten)
    (hst : st = .error ∨ d.pk = []) :
    ∃ stored, new = old ++ stored ∧ List.Forall₂ (StoredAs d cols) bs.flatten stored := by
  refine ⟨_, commits_append h (hst.imp id .inl), ?_⟩
  unfold fullRows
  rw [List.forall₂_map_right_iff]
  exact List.forall₂_same.2 fun b hb => fullRow_stored hf hb

/-- C61 for a single table: after a run with the strategy `error` it holds its former rows and, for each sampled
row and each copy, one more. -/
theorem c61_error (hok : RunOK C D p) (h : (sample C D p S s).err = none) :
    ∃ order B Smp ids T mult compact offs,
      Copying C D p S (sample C D p S s).schema order B Smp ids T mult compact offs ∧
      ∀ n k kd t td, Copied C D p (sample C D p S s).schema n k kd t td → strategyFor C p n = .error ∨ td.primaryKey = [] →
        ∃ ch rows outs stored, Sent C D p T mult compact offs Smp ids n k kd t td ch rows outs ∧
          outs.length = rows.length * timesWritten C p n ∧
          List.Forall₂ (StoredAs (target D kd td) (writtenColumns ch (target D kd td))) outs stored ∧
          (sample C D p S s).final kd = B kd ++ stored := by
  obtain ⟨order, B, Smp, ids, T, mult, compact, offs, h1, h2, -⟩ := c61_run hok h
  refine ⟨order, B, Smp, ids, T, mult, compact, offs, h1, fun n k kd t td hc hs => ?_⟩
  obtain ⟨ch, rows, bs, g1, g2, -, g3⟩ := h2 n k kd t td hc
  obtain ⟨stored, g4, g5⟩ := c61_added g3 g1.fitting (hs.imp id fun e => by
    unfold target; split <;> exact e)
  exact ⟨ch, rows, bs.flatten, stored, g1, g2, g5, g4⟩

/-! ### C62 -/

/-- C62. A run that fails has written nothing, with the destination as it was or truncated; or it failed at a
table: the tables before it have got all their rows, it has got its first complete batches, and the tables after
it and those not to be copied have got nothing. -/
theorem c62_prefix (hok : RunOK C D p) (h : (sample C D p S s).err ≠ none) :
    ((sample C D p S s).writes = [] ∧
      ((sample C D p S s).hist = [S] ∨ Begins C D p S (sample C D p S s).final)) ∨
    ∃ order B Smp ids T mult compact offs done n₀ rest,
      Copying C D p S (sample C D p S s).schema order B Smp ids T mult compact offs ∧
      WhileCopying C D p (sample C D p S s).schema order B Smp ids T mult compact offs (sample C D p S s).final
        done (n₀ :: rest) := by
  rcases sample_cases C D p S s with ⟨h1, h2, -⟩ | ⟨r, db, x, order, states, h1, h2, h3, h4, h5, h6, h7, -⟩ |
    ⟨r, db, x, order, states, offs, compact, mat, temps, hst, h1, h2⟩
  · exact .inl ⟨h1, .inl h2⟩
  · obtain ⟨B, rest, hB, hb⟩ := begins_run hok h1 h2 h4
    refine .inl ⟨h6, .inr ?_⟩
    have : (sample C D p S s).final = B := by unfold RunResult.final; rw [h7, hB]; rfl
    rw [this]
    exact hb
  · obtain ⟨B, Smp, ids, X, rest, done, todo, g1, g2, g3, g4, -⟩ := hst.content hok h2
    have e : (sample C D p S s).final = X := by unfold RunResult.final; rw [g1]; rfl
    rw [h1, e]
    cases todo with
    | nil => exact absurd (g3.2 rfl) h
    | cons n₀ todo => exact .inr ⟨order, B, Smp, ids, _, _, _, _, done, n₀, todo, g2, g4⟩

/-- C62. A run that is killed, at any time: what it has committed is the destination with some of the tables to be
truncated emptied, or some tables complete, one with its first complete batches and the others untouched. -/
theorem c62_any_time (hok : RunOK C D p) :
    (∀ X ∈ (sample C D p S s).hist, ∀ k, X k = S k ∨ (C.truncate = true ∧ Reached C D p k ∧ X k = [])) ∨
    ∃ order B Smp ids T mult compact offs,
      Copying C D p S (sample C D p S s).schema order B Smp ids T mult compact offs ∧
      ∀ X ∈ (sample C D p S s).hist,
        (∀ k, X k = S k ∨ (C.truncate = true ∧ Reached C D p k ∧ X k = [])) ∨
        ∃ done todo, WhileCopying C D p (sample C D p S s).schema order B Smp ids T mult compact offs X done todo := by
  have htr : ∀ {r : Started} {db : Dict Str TableMeta} {x : DestMeta} {states : List DbState},
      startRun C D p = .ok r → createStep C D r = .ok (db, x) → truncateStep C x S = .ok states →
      ∀ X ∈ states.reverse ++ [S], ∀ k, X k = S k ∨ (C.truncate = true ∧ Reached C D p k ∧ X k = []) := by
    intro r db x states h1 h2 h3 X hX k
    rcases List.mem_append.1 hX with hX | hX
    · unfold truncateStep at h3
      split at h3
      · rename_i ht
        rcases ((prepared_run hok h1 h2).truncate h3).2.1 X (List.mem_reverse.1 hX) k with h4 | ⟨h4, h5⟩
        · exact .inl h4
        · exact .inr ⟨ht, (reached_iff hok (prepared_of_step h1 h2) k).1 h4, h5⟩
      · cases h3; cases hX
    · rw [List.mem_singleton] at hX
      subst hX
      exact .inl rfl
  rcases sample_cases C D p S s with ⟨h1, h2, -⟩ | ⟨r, db, x, order, states, h1, h2, h3, h4, h5, h6, h7, -⟩ |
    ⟨r, db, x, order, states, offs, compact, mat, temps, hst, h1, h2⟩
  · rw [h2]
    refine .inl fun X hX k => .inl ?_
    rw [List.mem_singleton] at hX
    rw [hX]
  · rw [h7]
    exact .inl (htr h1 h2 h4)
  · obtain ⟨B, Smp, ids, X, rest, done, todo, g1, g2, -, -, g5⟩ := hst.content hok h2
    rw [h1]
    refine .inr ⟨order, B, Smp, ids, _, _, _, _, g2, fun Y hY => ?_⟩
    rcases g5 Y hY with h3 | h3
    · exact .inl (htr hst.start hst.create hst.truncate Y h3)
    · exact .inr h3

/-! ### C58 -/

/-- What a plain run sends are the sampled rows. -/
theorem plain_rows (hpl : Plain C) {schema : Dict Str TableMeta} {B : DbState}
    {Smp : Key → List Row} {ids : Key → List Int} {T : Tables} {mult : Dict Str (List Str)}
    {compact : Dict Key (List Str)} {offs : Dict Key (Dict Str Int)}
    (hder : Derived C D p schema B T mult compact offs) {n : Str} {k kd : Key} {t td : TableMeta}
    (hids : (ids k).length = (Smp k).length)
    (hnd : t.columns.Nodup) {ch : Chain Val} {rows : List Row} {outs : List (List Val)}
    (h : Sent C D p T mult compact offs Smp ids n k kd t td ch rows outs)
    (hlen : outs.length = rows.length * timesWritten C p n) :
    fullRows (target D kd td) (writtenColumns ch (target D kd td)) outs =
      (Smp k).map (landed (target D kd td) t.columns) ∧ writtenColumns ch (target D kd td) =
        t.columns.filter fun c => decide (c ∉ (target D kd td).computed) := by
  have hco : ∀ d c, ¬ IsCompacted compact d c := by
    intro d c hd
    rcases (hder.compact d c).1 hd with ⟨tb, cols, h1, h2, -⟩ | ⟨t', -, -, -, -, h1⟩
    · rw [hpl.compactColumns tb cols h1] at h2; cases h2
    · rw [hpl.compactKeys.1, hpl.compactKeys.2] at h1
      rcases h1 with h1 | ⟨h1, -⟩ <;> cases h1
  have hpt : ∀ a c d dc, ¬ PointsTo T compact a c d dc := by
    rintro a c d dc ⟨-, -, -, -, -, -, h1⟩
    exact hco d dc h1
  have hm : (timesWritten C p n) = 1 := by
    unfold timesWritten
    rw [if_neg]
    intro h1
    have := hpl.once
    omega
  have hmu : ∀ c, c ∉ (dget mult n).getD [] := by
    intro c hc
    have := ((hder.mult n c).1 hc).1
    have := hpl.once
    omega
  have hof := hder.unmerged hpl.merge kd
  have hfl : (dget C.filters n).getD [] = [] := by
    cases h1 : dget C.filters n with
    | none => rfl
    | some fs => exact hpl.filters n fs (dget_some_mem h1)
  have hfi := h.filter
  rw [hfl] at hfi
  have hch : ch = ⟨t.columns, t.columns, []⟩ := by
    unfold constructFilter constructLoop at hfi
    cases hfi; rfl
  have hrows := h.compacted fun c d dc h1 => absurd h1 (hpt k c d dc)
  obtain ⟨s0, -, ss, -, hwr⟩ := h.written
  rw [hm] at hwr hlen
  rw [Nat.mul_one] at hlen
  have hrl : rows.length = (Smp k).length := by
    have := hrows.length_eq
    rw [List.length_zip, hids, Nat.min_self] at this
    exact this.symm
  refine ⟨?_, by unfold writtenColumns; rw [hch]⟩
  refine List.ext_getElem? fun i => ?_
  unfold fullRows
  rw [List.getElem?_map, List.getElem?_map]
  by_cases hi : i < (Smp k).length
  · have hi1 : i < rows.length := by omega
    have hi2 : i < outs.length := by omega
    rw [List.getElem?_eq_getElem hi, List.getElem?_eq_getElem hi2]
    simp only [Option.map_some, Option.some.injEq]
    have hc := hwr i 0 (t.columns.map (rows[i]).get) outs[i] (by rw [List.getElem?_map, List.getElem?_eq_getElem hi1]; rfl)
      (by omega) (by rw [Nat.mul_one, Nat.add_zero]; exact List.getElem?_eq_getElem hi2)
    obtain ⟨f, hc1, hc2, hc3⟩ := hc
    have hf : f = t.columns.map (rows[i]).get := by
      rw [hch] at hc1
      unfold Chain.run runViews at hc1
      exact (Prod.mk.inj (Except.ok.inj hc1)).1.symm
    have hcr := hrows.get (i := i) (by rw [List.length_zip, hids, Nat.min_self]; exact hi) hi1
    simp only [List.get_eq_getElem, List.getElem_zip] at hcr
    unfold fullRow landed
    refine List.map_congr_left fun c hcc => ?_
    rw [List.mem_filter] at hcc
    congr 1
    rw [dget_zip]
    by_cases hct : c ∈ t.columns
    · have hw : c ∈ writtenColumns ch (target D kd td) := by
        unfold writtenColumns
        rw [hch]
        exact List.mem_filter.2 ⟨hct, hcc.2⟩
      obtain ⟨v, h1, h2⟩ := hc3 c hw
      rw [h2, if_pos hct]
      have hv : v = (rows[i]).get c := by
        rw [hch, hf] at h1
        obtain ⟨a, ha⟩ := List.getElem?_of_mem hct
        rw [valueOf_eq hnd (by simp) ha, List.getElem?_map, ha] at h1
        cases h1; rfl
      unfold outVal
      rw [if_neg (hmu c), hof, hv, hcr.kept c hct (hco k c) (fun d dc => hpt k c d dc)]
      show shiftVal none _ = _
      cases (Smp k)[i].get c <;> simp [shiftVal]
    · rw [if_neg hct]
      have : valueOf (writtenColumns ch (target D kd td)) outs[i] c = none := by
        unfold valueOf
        rw [Option.map_eq_none_iff, List.find?_eq_none]
        rintro ⟨y, v⟩ hy
        have := (List.of_mem_zip hy).1
        simp only [beq_iff_eq]
        rintro rfl
        unfold writtenColumns at this
        rw [hch] at this
        exact hct (List.mem_filter.1 this).1
      rw [this]
      rfl
  · rw [List.getElem?_eq_none (by omega), List.getElem?_eq_none (by omega)]
    rfl

/-- C58. A plain run without error leaves in each destination table that was empty or is truncated exactly the
sampled rows, unless rows of the sample are identified by a primary key of the destination that is not one of
the source; tables not copied are empty if truncated and else unchanged. -/
theorem c58_exactly_the_sample (hok : RunOK C D p) (hpl : Plain C) (h : (sample C D p S s).err = none) :
    ∃ Smp, IsSample D.engine (dbTables D.srcDb) D.src p Smp ∧
      (∀ n k kd t td, Copied C D p (sample C D p S s).schema n k kd t td → C.truncate = true ∨ S kd = [] →
        C.strategy = .error ∨ td.primaryKey = [] ∨
          KeysUnique td.primaryKey ((Smp k).map (landed (target D kd td) t.columns)) →
        (sample C D p S s).final kd = (Smp k).map (landed (target D kd td) t.columns)) ∧
      ∀ kd, (∀ n k t td, ¬ Copied C D p (sample C D p S s).schema n k kd t td) →
        (C.truncate = true → Reached C D p kd → (sample C D p S s).final kd = []) ∧
        ((C.truncate = true → ¬ Reached C D p kd) → (sample C D p S s).final kd = S kd) := by
  obtain ⟨order, B, Smp, ids, T, mult, compact, offs, h1, h2, h3⟩ := c61_run hok h
  refine ⟨Smp, h1.sample, fun n k kd t td hc hemp hkeys => ?_, fun kd hkd => ?_⟩
  · obtain ⟨ch, rows, bs, g1, g2, -, g3⟩ := h2 n k kd t td hc
    obtain ⟨g4, -⟩ := plain_rows hpl h1.derived (h1.ids k).1 (hok.srcColumns n t hc.source) g1 g2
    have hB : B kd = [] := by
      by_cases ht : C.truncate = true
      · exact h1.begins.emptied ht kd hc.reached
      · rw [h1.begins.kept kd fun h => absurd h ht]
        exact hemp.resolve_left ht
    have hpk : (target D kd td).pk = td.primaryKey := by unfold target; split <;> rfl
    have := commits_append g3 (by
      rw [hB, List.nil_append, g4, hpk]
      refine hkeys.imp (fun e => ?_) id
      unfold strategyFor
      rw [if_neg (by rw [hpl.merge]; simp)]
      exact e)
    rw [this, hB, List.nil_append, g4]
  · rw [h3 kd hkd]
    exact ⟨fun a b => h1.begins.emptied a kd b, fun a => h1.begins.kept kd a⟩

/-- C58. With `create` every planned table is copied. -/
theorem c58_all_copied (hok : RunOK C D p) (hcr : C.create = true) (h : (sample C D p S s).err = none) :
    ∀ n ∈ dkeys p.queries, ∃ k kd t td, Copied C D p (sample C D p S s).schema n k kd t td := by
  obtain ⟨order, B, Smp, ids, T, mult, compact, offs, h1, -⟩ := c61_run hok h
  exact fun n hn => (h1.all n).1 (h1.created hcr n hn)

/-! ### Examples -/

def rxO (s : Str) : TableMeta := { schema := s, name := str! "o", columns := [str! "id", str! "uid"], primaryKey := [str! "id"], intColumns := [str! "id", str! "uid"], foreignKeys := [⟨[str! "uid"], s, str! "u", [str! "id"]⟩] }
def rxU (s : Str) : TableMeta := { schema := s, name := str! "u", columns := [str! "id"], primaryKey := [str! "id"], intColumns := [str! "id"] }
/-- A table of the destination that is not planned but refers to one that is. -/
def rxX : TableMeta := { schema := str! "m", name := str! "x", columns := [str! "oid"], primaryKey := [], foreignKeys := [⟨[str! "oid"], str! "m", str! "o", [str! "id"]⟩] }

/-- Source and destination of an example; the destination has schema `m` instead of `s`. -/
def rxSetting (dst : Dict Str TableMeta) : Setting Int where
  fnmatch := dxEq
  srcDb := [(str! "s.o", rxO (str! "s")), (str! "s.u", rxU (str! "s"))]
  src := exSrc
  engine := exEngine
  reopen := true
  le := fun _ _ => true
  world := exWorldV
  dstDb := dst
  dialect := .sqlite
  computed := fun _ => []
  default := fun _ _ => .null
  setOrder := id
  setOrder_perm := fun l => .refl l

def rxDst : Dict Str TableMeta := [(str! "m.o", rxO (str! "m")), (str! "m.u", rxU (str! "m")), (str! "m.x", rxX)]

/-- Contents before: user 5 with order 9 and something referring to it. -/
def rxBefore : DbState := fun k =>
  if k = (str! "m", str! "u") then [[(str! "id", .int 5)]]
  else if k = (str! "m", str! "o") then [[(str! "id", .int 9), (str! "uid", .int 5)]]
  else if k = (str! "m", str! "x") then [[(str! "oid", .int 9)]]
  else []

/-- Error, and contents of users, orders and the other table. -/
def rxShow (R : RunResult) : Option RunErr × List (List Row) :=
  (R.err, [R.final (str! "m", str! "u"), R.final (str! "m", str! "o"), R.final (str! "m", str! "x")])

theorem rxDb_ok {db : Dict Str TableMeta} (h1 : (db.map Prod.fst).Nodup)
    (h2 : ∀ e ∈ db, e.1 = e.2.schema ++ '.' :: e.2.name ∧ '.' ∉ e.2.schema ∧ e.2.revForeignKeys = [] ∧
      ∀ fk ∈ e.2.foreignKeys, fk.columns.length = fk.dstColumns.length ∧ fk.columns ≠ [] ∧ '.' ∉ fk.dstSchema) : DbOK db :=
  ⟨h1, fun n t h => (h2 (n, t) h).1, fun n t h => (h2 (n, t) h).2.1, fun n t h => (h2 (n, t) h).2.2.1,
    fun n t h => (h2 (n, t) h).2.2.2⟩

/-- The hypotheses on schemas and plan are met. -/
theorem rx_ok {C : RunConfig} (hC : C.compact.columns = []) : RunOK C (rxSetting rxDst) exPlan := by
  refine ⟨rxDb_ok (by decide) (by decide), rxDb_ok (by decide) (by decide), ?_, ?_, ?_, by decide, by rw [hC]; exact .nil⟩
  · rintro a b ⟨n, t, fk, h1, -, h2, rfl⟩
    have : ∀ e ∈ rxDst, ∀ fk ∈ e.2.foreignKeys, ∃ x ∈ rxDst, (x.2.schema, x.2.name) = (fk.dstSchema, fk.dstTable) := by decide
    obtain ⟨x, h3, h4⟩ := this (n, t) h1 fk h2
    exact ⟨x.1, x.2, h3, h4⟩
  · intro n t h
    have : ∀ e ∈ (rxSetting rxDst).srcDb, e.2.columns.Nodup := by decide
    exact this (n, t) h
  · intro _ n _
    simp [rxSetting, dxEq]

/-- Orders are copied. -/
theorem rx_copied {C : RunConfig} (hC : C.remap = dxRemap) : Copied C (rxSetting rxDst) exPlan rxDst (str! "s.o")
    (str! "s", str! "o") (str! "m", str! "o") (rxO (str! "s")) (rxO (str! "m")) := by
  have hd : DestOf C.remap (str! "s.o") (str! "m", str! "o") := ⟨str! "s", str! "o", by decide, by rw [hC]; decide⟩
  refine ⟨by decide, by decide, by decide, hd, ⟨str! "s.o", by decide, _, hd, .inr ⟨(str! "m", str! "o"),
    ⟨str! "m.o", rxO (str! "m"), by decide, by decide, str! "m.o", by simp, by decide⟩, .refl⟩⟩, by decide⟩

/-- A run that truncates leaves the sample: user 1 and order 7. -/
theorem rx_truncate : rxShow (sample { remap := dxRemap, truncate := true } (rxSetting rxDst) exPlan rxBefore 0) =
    (none, [[[(str! "id", .int 1)]], [[(str! "id", .int 7), (str! "uid", .int 1)]], []]) := by decide +kernel

/-- Its configuration is plain. -/
theorem rx_plain : Plain { remap := dxRemap, truncate := true } :=
  ⟨fun _ _ h => (nomatch h), ⟨rfl, rfl⟩, fun _ _ h => (nomatch h), by decide, rfl⟩

/-- The same with tables created in an empty database. -/
theorem rx_create : rxShow (sample { remap := dxRemap, create := true } (rxSetting []) exPlan (fun _ => []) 0) =
    (none, [[[(str! "id", .int 1)]], [[(str! "id", .int 7), (str! "uid", .int 1)]], []]) := by decide +kernel

/-- Merging, two copies of each row, a filter and compaction of orders from 100: users get `2 * 1 + i + 6`,
orders `2 * 100 + i + 10`; the reference to a user is not multiplied because the columns have different names. -/
theorem rx_transform : rxShow (sample { remap := dxRemap, merge := true, mult := { multiplier := 2 }, compact := { startKey := 100, columns := [(str! "s.o", [str! "id"])] } } (rxSetting rxDst) exPlan rxBefore 0) =
    (none, [[[(str! "id", .int 5)], [(str! "id", .int 8)], [(str! "id", .int 9)]], [[(str! "id", .int 9), (str! "uid", .int 5)], [(str! "id", .int 210), (str! "uid", .int 7)], [(str! "id", .int 211), (str! "uid", .int 7)]], [[(str! "oid", .int 9)]]]) := by decide +kernel

end Subsetter.Props
