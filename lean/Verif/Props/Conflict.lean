import Verif.Proofs.Insert
import Verif.Props.Output

/-
Properties C34 and C35: conflict strategies and repeated runs.
-/
namespace Subsetter.Props
open Subsetter Spec

variable {dialect : Dialect} {d : DestTable} {cols : List Str} {batch : List (List Val)} {T : List Row}

theorem unique_pkOf (h : KeysUnique d.pk T) : (T.map (pkOf d)).Nodup := h

theorem flush_error (hpk : d.pk ≠ []) (hsub : ∀ c ∈ d.pk, c ∈ cols) : flushBuffer dialect .error d cols batch T =
    insertMany .error d (updateColumns dialect d (cols.filter fun c => decide (c ∉ d.pk)))
      (batch.map fun row => cols.zip row) T := by
  unfold flushBuffer
  rw [conflictInit_ok hpk hsub]
  simp

theorem flush_skip (hd : dialect ≠ .generic) (hpk : d.pk ≠ []) (hsub : ∀ c ∈ d.pk, c ∈ cols)
    {strategy : Strategy}
    (hs : strategy = .skip ∨ (strategy = .replace ∧ ∀ c ∈ cols, c ∈ d.pk)) :
    flushBuffer dialect strategy d cols batch T = .ok ((fullRows d cols batch).foldl
      (ins .skip d (updateColumns dialect d (cols.filter fun c => decide (c ∉ d.pk)))) T) := by
  unfold flushBuffer
  rw [conflictInit_ok hpk hsub]
  have : (if strategy = .replace ∧ (∀ c ∈ cols, c ∈ d.pk) then Strategy.skip else strategy) = .skip := by
    rcases hs with rfl | h
    · simp
    · rw [if_pos h]
  rw [this]
  dsimp only
  rw [if_neg fun h => hd h.1, if_neg (by rintro ⟨h, -⟩; cases h),
    insertMany_ins (st := .skip) (by decide), List.map_map]
  rfl

theorem flush_replace (hd : dialect ≠ .generic) (hpk : d.pk ≠ []) (hsub : ∀ c ∈ d.pk, c ∈ cols)
    (hf : ∀ c ∈ cols, c ∉ d.computed) (hq : dialect = .sqlite → ∀ c ∈ d.columns, c ∉ d.computed)
    (hn : ¬ ∀ c ∈ cols, c ∈ d.pk) :
    flushBuffer dialect .replace d cols batch T = .ok ((fullRows d cols batch).foldl
      (ins .replace d (updateColumns dialect d (cols.filter fun c => decide (c ∉ d.pk)))) T) := by
  unfold flushBuffer
  rw [conflictInit_ok hpk hsub, if_neg fun h => hn h.2]
  dsimp only
  rw [if_neg fun h => hd h.1, if_neg, insertMany_ins (st := .replace) (by decide), List.map_map]
  · rfl
  · rintro ⟨-, h⟩
    rw [List.any_eq_true] at h
    obtain ⟨c, h1, h2⟩ := h
    simp only [decide_eq_true_eq] at h2
    cases dialect with
    | sqlite => exact hq rfl c h1 h2
    | postgresql => exact hf c (List.mem_of_mem_filter h1) h2
    | mysql => exact hf c (List.mem_of_mem_filter h1) h2
    | generic => exact hd rfl

theorem filter_unique {U : List Row} {r : Row} (hu : (U.map (pkOf d)).Nodup) (hr : r ∈ U) :
    withKey d.pk U (pkOf d r) = [r] := by
  unfold withKey
  change U.filter (fun q => decide (pkOf d q = pkOf d r)) = [r]
  induction U with
  | nil => cases hr
  | cons u U ih =>
    simp only [List.map_cons, List.nodup_cons] at hu
    rcases List.mem_cons.1 hr with rfl | hr
    · rw [List.filter_cons_of_pos (by simp)]
      congr 1
      rw [List.filter_eq_nil_iff]
      intro q hq h
      exact hu.1 (List.mem_map.2 ⟨q, hq, by simpa using h⟩)
    · rw [List.filter_cons_of_neg, ih hu.2 hr]
      simp only [decide_eq_true_eq]
      intro h
      exact hu.1 (List.mem_map.2 ⟨r, hr, h.symm⟩)

theorem mem_withKey {U : List Row} {k : List Val} {r : Row} : r ∈ withKey d.pk U k ↔ r ∈ U ∧ pkOf d r = k := by
  unfold withKey
  rw [List.mem_filter]
  simp [pkOf]

/-! ### C34 -/

/-- C34, `error`: a batch is inserted as a whole if no key is there already or occurs twice; otherwise
it is rejected. -/
theorem c34_error (hpk : d.pk ≠ []) (hsub : ∀ c ∈ d.pk, c ∈ cols) (hf : Fitting d cols batch)
    (hu : KeysUnique d.pk T) :
    if (batch.map (keyOf cols d.pk)).Nodup ∧ ∀ b ∈ batch, withKey d.pk T (keyOf cols d.pk b) = [] then
      ∃ new, flushBuffer dialect .error d cols batch T = .ok (T ++ new) ∧
        List.Forall₂ (StoredAs d cols) batch new
    else flushBuffer dialect .error d cols batch T = .error .integrity := by
  rw [flush_error hpk hsub]
  obtain ⟨h1, h2⟩ := insertMany_error (rows := batch.map fun row => cols.zip row)
    (upd := updateColumns dialect d (cols.filter fun c => decide (c ∉ d.pk))) hpk (unique_pkOf hu)
  have hkeys : ((T ++ (batch.map fun row => cols.zip row).map (fullRow d)).map (pkOf d)) =
      T.map (pkOf d) ++ batch.map (keyOf cols d.pk) := by
    rw [List.map_append, List.map_map, List.map_map]
    congr 1
    exact List.map_congr_left fun b hb => pkOf_fullRow hf hb hsub
  rw [hkeys] at h1 h2
  have hiff : (T.map (pkOf d) ++ batch.map (keyOf cols d.pk)).Nodup ↔
      (batch.map (keyOf cols d.pk)).Nodup ∧ ∀ b ∈ batch, withKey d.pk T (keyOf cols d.pk b) = [] := by
    rw [List.nodup_append]
    constructor
    · rintro ⟨-, h3, h4⟩
      refine ⟨h3, fun b hb => ?_⟩
      rw [List.eq_nil_iff_forall_not_mem]
      intro r hr
      obtain ⟨h5, h6⟩ := mem_withKey.1 hr
      exact h4 _ (List.mem_map.2 ⟨r, h5, rfl⟩) _ (List.mem_map.2 ⟨b, hb, rfl⟩) h6
    · rintro ⟨h3, h4⟩
      refine ⟨hu, h3, fun k hk k' hk' e => ?_⟩
      obtain ⟨r, hr, rfl⟩ := List.mem_map.1 hk
      obtain ⟨b, hb, rfl⟩ := List.mem_map.1 hk'
      have : r ∈ withKey d.pk T (keyOf cols d.pk b) := mem_withKey.2 ⟨hr, e⟩
      rw [h4 b hb] at this
      cases this
  by_cases hc : (T.map (pkOf d) ++ batch.map (keyOf cols d.pk)).Nodup
  · rw [if_pos (hiff.1 hc)]
    refine ⟨_, h1 hc, ?_⟩
    rw [List.map_map]
    have : ∀ l : List (List Val), (∀ b ∈ l, b ∈ batch) →
        List.Forall₂ (StoredAs d cols) l (l.map (fullRow d ∘ fun row => cols.zip row)) := by
      intro l
      induction l with
      | nil => intro _; exact .nil
      | cons b l ih =>
        intro hl
        exact .cons (fullRow_stored hf (hl b (.head _))) (ih fun b hb => hl b (.tail _ hb))
    exact this batch fun _ h => h
  · rw [if_neg fun h => hc (hiff.2 h)]
    exact h2 hc

/-- C34, tables without primary key: rows are added, whatever the strategy. -/
theorem c34_no_primary_key {strategy : Strategy} (hpk : d.pk = []) (hf : Fitting d cols batch) :
    ∃ new, flushBuffer dialect strategy d cols batch T = .ok (T ++ new) ∧
      List.Forall₂ (StoredAs d cols) batch new := by
  unfold flushBuffer conflictInit
  simp only [hpk, List.isEmpty_nil, if_true, ne_eq, not_true_eq_false, and_false, if_false]
  rw [if_neg (by rintro ⟨h, -⟩; cases h), insertMany_no_pk hpk]
  refine ⟨_, rfl, ?_⟩
  rw [List.map_map]
  have : ∀ l : List (List Val), (∀ b ∈ l, b ∈ batch) →
      List.Forall₂ (StoredAs d cols) l (l.map (fullRow d ∘ fun row => cols.zip row)) := by
    intro l
    induction l with
    | nil => intro _; exact .nil
    | cons b l ih =>
      intro hl
      exact .cons (fullRow_stored hf (hl b (.head _))) (ih fun b hb => hl b (.tail _ hb))
  exact this batch fun _ h => h

theorem skip_spec {upd : List Str} (hpk : d.pk ≠ []) (hsub : ∀ c ∈ d.pk, c ∈ cols)
    (hf : Fitting d cols batch) (hu : KeysUnique d.pk T) :
    ∃ new, (fullRows d cols batch).foldl (ins .skip d upd) T = T ++ new ∧ KeysUnique d.pk (T ++ new) ∧
      (∀ r ∈ new, withKey d.pk T (d.pk.map r.get) = [] ∧
        ∃ b, (batch.filter fun b => decide (keyOf cols d.pk b = d.pk.map r.get)).head? = some b ∧
          StoredAs d cols b r) ∧
      ∀ b ∈ batch, withKey d.pk (T ++ new) (keyOf cols d.pk b) ≠ [] := by
  obtain ⟨new, h1, h2⟩ := skip_inv (upd := upd) (T := T) (P := fullRows d cols batch) hpk
  refine ⟨new, h1, ?_, fun r hr => ?_, fun b hb => ?_⟩
  · unfold KeysUnique
    rw [← h1]
    exact foldl_ins_unique hpk (unique_pkOf hu)
  · obtain ⟨h3, h4⟩ := h2 r hr
    refine ⟨?_, ?_⟩
    · rw [List.eq_nil_iff_forall_not_mem]
      intro q hq
      obtain ⟨h5, h6⟩ := mem_withKey.1 hq
      exact h3 q h5 h6
    · unfold firstWith at h4
      rw [fullRows_filter hf hsub, List.head?_map, Option.map_eq_some_iff] at h4
      obtain ⟨b, h5, rfl⟩ := h4
      refine ⟨b, h5, ?_⟩
      have : b ∈ batch := List.mem_of_mem_filter (List.mem_of_head? h5)
      exact fullRow_stored hf this
  · have : keyOf cols d.pk b ∈ ((fullRows d cols batch).foldl (ins .skip d upd) T).map (pkOf d) :=
      (mem_foldl_keys hpk).2 (.inr (List.mem_map.2 ⟨_, List.mem_map.2 ⟨b, hb, rfl⟩, pkOf_fullRow hf hb hsub⟩))
    rw [h1] at this
    obtain ⟨r, hr, h5⟩ := List.mem_map.1 this
    intro h6
    have : r ∈ withKey d.pk (T ++ new) (keyOf cols d.pk b) := mem_withKey.2 ⟨hr, h5⟩
    rw [h6] at this
    cases this

/-- C34, `skip`: the table keeps its rows unchanged; the rows added have new keys, each is the first of
the batch with its key, and every key of the batch is there afterwards, none twice. -/
theorem c34_skip (hd : dialect ≠ .generic) (hpk : d.pk ≠ []) (hsub : ∀ c ∈ d.pk, c ∈ cols)
    (hf : Fitting d cols batch) (hu : KeysUnique d.pk T) :
    ∃ new, flushBuffer dialect .skip d cols batch T = .ok (T ++ new) ∧ KeysUnique d.pk (T ++ new) ∧
      (∀ r ∈ new, withKey d.pk T (d.pk.map r.get) = [] ∧
        ∃ b, (batch.filter fun b => decide (keyOf cols d.pk b = d.pk.map r.get)).head? = some b ∧
          StoredAs d cols b r) ∧
      ∀ b ∈ batch, withKey d.pk (T ++ new) (keyOf cols d.pk b) ≠ [] := by
  rw [flush_skip hd hpk hsub (.inl rfl)]
  obtain ⟨new, h1, h2⟩ := skip_spec (upd := updateColumns dialect d (cols.filter fun c => decide (c ∉ d.pk)))
    hpk hsub hf hu
  exact ⟨new, by rw [h1], h2⟩

/-- C34, `replace`: rows whose key is not in the batch stay; for every key of the batch there is exactly
one row, with the values of the last row of the batch that has this key. -/
theorem c34_replace (hd : dialect ≠ .generic) (hpk : d.pk ≠ []) (hsub : ∀ c ∈ d.pk, c ∈ cols)
    (hf : Fitting d cols batch) (hq : dialect = .sqlite → ∀ c ∈ d.columns, c ∉ d.computed)
    (hu : KeysUnique d.pk T)
    (hT : ∀ r ∈ T, dkeys r = d.columns.filter fun c => decide (c ∉ d.computed)) :
    ∃ T', flushBuffer dialect .replace d cols batch T = .ok T' ∧ KeysUnique d.pk T' ∧
      (∀ k, (∀ b ∈ batch, keyOf cols d.pk b ≠ k) → withKey d.pk T' k = withKey d.pk T k) ∧
      ∀ k b, (batch.filter fun b => decide (keyOf cols d.pk b = k)).getLast? = some b →
        ∃ r, withKey d.pk T' k = [r] ∧
          dkeys r = (d.columns.filter fun c => decide (c ∉ d.computed)) ∧
          (∀ c ∈ cols, valueOf cols b c = some (r.get c)) ∧
          ∀ c ∈ d.columns, c ∉ d.computed → c ∉ cols →
            r.get c = unwritten dialect d cols (withKey d.pk T k) c := by
  by_cases hn : ∀ c ∈ cols, c ∈ d.pk
  · -- only key columns: nothing to replace
    rw [flush_skip hd hpk hsub (.inr ⟨rfl, hn⟩)]
    obtain ⟨new, h1, h2, h3, h4⟩ :=
      skip_spec (upd := updateColumns dialect d (cols.filter fun c => decide (c ∉ d.pk))) hpk hsub hf hu
    refine ⟨_, rfl, by rw [h1]; exact h2, fun k hk => ?_, fun k b hb => ?_⟩
    · rw [h1]
      unfold withKey
      rw [List.filter_append]
      have : new.filter (fun r => decide (d.pk.map r.get = k)) = [] := by
        rw [List.filter_eq_nil_iff]
        intro r hr h
        obtain ⟨-, b, h5, h6⟩ := h3 r hr
        have h7 := List.mem_filter.1 (List.mem_of_head? h5)
        simp only [decide_eq_true_eq] at h h7
        exact hk b h7.1 (h7.2.trans h)
      rw [this, List.append_nil]
    · have hmem := List.mem_filter.1 (List.mem_of_getLast? hb)
      simp only [decide_eq_true_eq] at hmem
      obtain ⟨hmem, rfl⟩ := hmem
      rw [h1]
      obtain ⟨r, hr⟩ := List.exists_mem_of_ne_nil _ (h4 b hmem)
      obtain ⟨hr, hk⟩ := mem_withKey.1 hr
      have hvals : ∀ c ∈ cols, valueOf cols b c = some (r.get c) := by
        intro c hc
        have h5 := List.map_inj_left.1 hk c (hn c hc)
        obtain ⟨v, hv⟩ := valueOf_isSome (hf.2.2 b hmem) hc
        rw [hv] at h5
        rw [hv, h5]; rfl
      refine ⟨r, by rw [← hk]; exact filter_unique h2 hr, ?_, hvals, fun c g1 g2 g3 => ?_⟩
      · rcases List.mem_append.1 hr with hr | hr
        · exact hT r hr
        · obtain ⟨-, b', -, h6⟩ := h3 r hr
          exact h6.1
      · have hne : ¬ (dialect = .sqlite ∧ ∃ e ∈ cols, e ∉ d.pk) := by
          rintro ⟨-, e, h7, h8⟩
          exact h8 (hn e h7)
        unfold unwritten
        rw [if_neg hne]
        rcases List.mem_append.1 hr with hr | hr
        · rw [← hk, filter_unique (unique_pkOf hu) hr]
        · obtain ⟨h5, b', -, h6⟩ := h3 r hr
          have h5' : withKey d.pk T (keyOf cols d.pk b) = [] := by rw [← hk]; exact h5
          rw [h5']
          exact h6.2.2 c g1 g2 g3
  · rw [flush_replace hd hpk hsub (fun c hc => (hf.2.1 c hc).2) hq hn]
    generalize hupd : updateColumns dialect d (cols.filter fun c => decide (c ∉ d.pk)) = upd
    have hfull : ∀ p ∈ fullRows d cols batch, ∃ q, p = fullRow d q := by
      intro p hp
      obtain ⟨b, -, rfl⟩ := List.mem_map.1 hp
      exact ⟨_, rfl⟩
    have hu' := foldl_ins_unique (st := .replace) (upd := upd) (P := fullRows d cols batch) hpk (unique_pkOf hu)
    obtain ⟨i1, i2⟩ := replace_inv (upd := upd) (T := T) hpk hfull
    have hkeys := fun k => mem_foldl_keys (st := .replace) (upd := upd) (P := fullRows d cols batch) (T := T)
      (k := k) hpk
    generalize hU : (fullRows d cols batch).foldl (ins .replace d upd) T = U at hu' i1 i2 hkeys ⊢
    refine ⟨U, rfl, hu', fun k hk => ?_, fun k b hb => ?_⟩
    · have hnone : lastWith d (fullRows d cols batch) k = none := by
        unfold lastWith
        rw [fullRows_filter hf hsub]
        have : batch.filter (fun b => decide (keyOf cols d.pk b = k)) = [] := by
          rw [List.filter_eq_nil_iff]
          intro b hb h
          exact hk b hb (by simpa using h)
        rw [this]; rfl
      cases hw : withKey d.pk T k with
      | cons r rs =>
        have hr : r ∈ withKey d.pk T k := by rw [hw]; exact .head _
        obtain ⟨hr', rfl⟩ := mem_withKey.1 hr
        rw [← hw, filter_unique (unique_pkOf hu) hr', filter_unique hu' (i1 r hr' hnone)]
      | nil =>
        rw [List.eq_nil_iff_forall_not_mem]
        intro r hr
        obtain ⟨hr', rfl⟩ := mem_withKey.1 hr
        have := i2 r hr'
        rw [hnone] at this
        have : r ∈ withKey d.pk T (pkOf d r) := mem_withKey.2 ⟨this, rfl⟩
        rw [hw] at this
        cases this
    · have hlast : lastWith d (fullRows d cols batch) k = some (fullRow d (cols.zip b)) := by
        unfold lastWith
        rw [fullRows_filter hf hsub, List.getLast?_map, hb]
        rfl
      have hmem := (List.mem_filter.1 (List.mem_of_getLast? hb)).1
      have hst := fullRow_stored hf hmem
      obtain ⟨hp1, hp2⟩ := lastWith_mem hlast
      have hin : k ∈ U.map (pkOf d) := (hkeys k).2 (.inr (List.mem_map.2 ⟨_, hp1, hp2⟩))
      obtain ⟨r, hr, rfl⟩ := List.mem_map.1 hin
      have := i2 r hr
      rw [hlast] at this
      obtain ⟨r0, h1, h2, h3⟩ := this
      have hk0 : dkeys r0 = d.columns.filter fun c => decide (c ∉ d.computed) := by
        rcases h3 with h3 | ⟨h3, -⟩
        · exact hT r0 h3
        · obtain ⟨q, rfl⟩ := hfull r0 h3
          exact fullRow_keys q
      refine ⟨r, filter_unique hu' hr, ?_, fun c hc => ?_, fun c g1 g2 g3 => ?_⟩
      · rw [h2, updateRow_keys, hk0]
      · rw [hst.2.1 c hc]
        congr 1
        obtain ⟨g1, g2⟩ := hf.2.1 c hc
        by_cases hcp : c ∈ d.pk
        · exact List.map_inj_left.1 hp2 c hcp
        · rw [h2, updateRow_get, if_pos]
          refine ⟨?_, by rw [hk0]; exact List.mem_filter.2 ⟨g1, by simpa using g2⟩⟩
          rw [← hupd]
          cases dialect with
          | sqlite => exact g1
          | postgresql => exact List.mem_filter.2 ⟨hc, by simpa using hcp⟩
          | mysql => exact List.mem_filter.2 ⟨hc, by simpa using hcp⟩
          | generic => exact absurd rfl hd
      · rw [h2, updateRow_get]
        unfold unwritten
        push Not at hn
        by_cases hsq : dialect = .sqlite
        · have hcu : c ∈ upd ∧ c ∈ dkeys r0 := by
            refine ⟨?_, by rw [hk0]; exact List.mem_filter.2 ⟨g1, by simpa using g2⟩⟩
            rw [← hupd, hsq]; exact g1
          rw [if_pos hcu, if_pos ⟨hsq, hn⟩]
          exact hst.2.2 c g1 g2 g3
        · have hcu : c ∉ upd := by
            rw [← hupd]
            intro h
            cases dialect with
            | sqlite => exact hsq rfl
            | postgresql => exact g3 (List.mem_of_mem_filter h)
            | mysql => exact g3 (List.mem_of_mem_filter h)
            | generic => exact hd rfl
          rw [if_neg (fun h => hcu h.1), if_neg (fun h => hsq h.1), ← h2]
          rcases h3 with h3 | ⟨h3, h4⟩
          · rw [← h1, filter_unique (unique_pkOf hu) h3]
          · have : withKey d.pk T (pkOf d r) = [] := by
              rw [List.eq_nil_iff_forall_not_mem]
              intro q hq
              obtain ⟨h5, h6⟩ := mem_withKey.1 hq
              exact h4 q h5 h6
            rw [this]
            obtain ⟨b', hb', rfl⟩ := List.mem_map.1 h3
            exact (fullRow_stored hf hb').2.2 c g1 g2 g3

/-- A table for the examples. -/
def exDest (computed : List Str) : DestTable :=
  ⟨[str! "id", str! "a", str! "b"], computed, fun c => if c = str! "b" then .int 9 else .null, [str! "id"]⟩

/-- Its contents. -/
def exRows : List Row :=
  [[(str! "id", .int 1), (str! "a", .int 10), (str! "b", .int 100)],
    [(str! "id", .int 2), (str! "a", .int 20), (str! "b", .int 200)]]

/-- A batch with a key that is there, a new one, and a repetition. -/
def exBatch : List (List Val) := [[.int 2, .int 21], [.int 3, .int 31], [.int 2, .int 22], [.int 3, .null]]

example : (exDest []).pk ≠ [] ∧ (∀ c ∈ (exDest []).pk, c ∈ [str! "id", str! "a"]) ∧
    Fitting (exDest []) [str! "id", str! "a"] exBatch ∧ KeysUnique (exDest []).pk exRows ∧
    (∀ r ∈ exRows, dkeys r = (exDest []).columns.filter fun c => decide (c ∉ (exDest []).computed)) := by
  unfold Fitting KeysUnique; decide

example : flushBuffer .postgresql .error (exDest []) [str! "id", str! "a"] exBatch exRows = .error .integrity ∧
    flushBuffer .mysql .skip (exDest []) [str! "id", str! "a"] exBatch exRows = .ok (exRows ++
      [[(str! "id", .int 3), (str! "a", .int 31), (str! "b", .int 9)]]) ∧
    flushBuffer .postgresql .replace (exDest []) [str! "id", str! "a"] exBatch exRows = .ok
      [[(str! "id", .int 1), (str! "a", .int 10), (str! "b", .int 100)],
        [(str! "id", .int 2), (str! "a", .int 22), (str! "b", .int 200)],
        [(str! "id", .int 3), (str! "a", .null), (str! "b", .int 9)]] := by decide

/-- C34: on SQLite `replace` resets columns that are not written, e.g. because a filter omits them, to
their default; on PostgreSQL and MySQL they keep their value. -/
theorem c34_sqlite_resets_unwritten :
    flushBuffer .sqlite .replace (exDest []) [str! "id", str! "a"] [[.int 2, .int 21]] exRows = .ok
      [[(str! "id", .int 1), (str! "a", .int 10), (str! "b", .int 100)],
        [(str! "id", .int 2), (str! "a", .int 21), (str! "b", .int 9)]] ∧
    flushBuffer .mysql .replace (exDest []) [str! "id", str! "a"] [[.int 2, .int 21]] exRows = .ok
      [[(str! "id", .int 1), (str! "a", .int 10), (str! "b", .int 100)],
        [(str! "id", .int 2), (str! "a", .int 21), (str! "b", .int 200)]] := by decide

/-- C34: if a column of the primary key is not written, e.g. because a filter omits it, every batch fails
with a `KeyError`, whatever the strategy. -/
theorem c34_key_column_omitted {strategy : Strategy} {c : Str} (h1 : c ∈ d.pk) (h2 : c ∉ cols) :
    flushBuffer dialect strategy d cols batch T = .error .keyError := by
  unfold flushBuffer conflictInit
  rw [if_neg, if_neg]
  · intro h
    exact h2 (by simpa using List.all_eq_true.1 h c h1)
  · intro h
    rw [List.isEmpty_iff] at h
    rw [h] at h1
    cases h1

/-- C34: on SQLite `replace` fails for tables with a generated column, on MySQL it does not. -/
theorem c34_sqlite_generated_column :
    flushBuffer .sqlite .replace (exDest [str! "b"]) [str! "id", str! "a"] [[.int 2, .int 21]] [] =
      .error .generatedColumn ∧
    flushBuffer .mysql .replace (exDest [str! "b"]) [str! "id", str! "a"] [[.int 2, .int 21]] [] =
      .ok [[(str! "id", .int 2), (str! "a", .int 21)]] := by decide

/-- C34: `skip` and `replace` are rejected for other dialects if the table has a primary key. -/
theorem c34_other_dialects {strategy : Strategy} (hs : strategy ≠ .error) (hpk : d.pk ≠ [])
    (hsub : ∀ c ∈ d.pk, c ∈ cols) : flushBuffer .generic strategy d cols batch T = .error .unsupported := by
  unfold flushBuffer
  rw [conflictInit_ok hpk hsub]
  dsimp only
  rw [if_pos]
  refine ⟨rfl, ?_⟩
  split
  · decide
  · exact hs

/-! ### C35 -/

variable {σ : Type} {W : Outside σ Val}

theorem commits_foldl {upd : List Str} {st : Strategy} {flush : List (List Val) → List Row → Except OutErr (List Row)}
    (hfl : ∀ b U, flush b U = .ok ((fullRows d cols b).foldl (ins st d upd) U))
    {bs : List (List (List Val))} {T' : List Row} (h : Commits flush T bs T') :
    T' = (fullRows d cols bs.flatten).foldl (ins st d upd) T := by
  induction h with
  | nil => rfl
  | cons h1 _ ih =>
    rw [hfl] at h1; cases h1
    rw [ih]
    simp [fullRows, List.foldl_append]

/-- A flush that cannot fail, for `skip` and `replace`. -/
theorem flush_total {strategy : Strategy} (hs : strategy ≠ .error) (hd : dialect ≠ .generic) (hpk : d.pk ≠ [])
    (hsub : ∀ c ∈ d.pk, c ∈ cols) (hf : ∀ c ∈ cols, c ∉ d.computed)
    (hq : strategy = .replace → dialect = .sqlite → ∀ c ∈ d.columns, c ∉ d.computed) :
    ∃ st upd, st ≠ .error ∧ ∀ b U, flushBuffer dialect strategy d cols b U =
      .ok ((fullRows d cols b).foldl (ins st d upd) U) := by
  by_cases hn : ∀ c ∈ cols, c ∈ d.pk
  · refine ⟨.skip, _, by decide, fun b U => flush_skip hd hpk hsub ?_⟩
    cases strategy with
    | error => exact absurd rfl hs
    | skip => exact .inl rfl
    | replace => exact .inr ⟨rfl, hn⟩
  · cases strategy with
    | error => exact absurd rfl hs
    | skip => exact ⟨.skip, _, by decide, fun b U => flush_skip hd hpk hsub (.inl rfl)⟩
    | replace => exact ⟨.replace, _, by decide, fun b U => flush_replace hd hpk hsub hf (hq rfl) hn⟩

/-- C35: a run that writes the batches `st.written` and ends with `st.dest` was interrupted after the
first `k` batches, leaving the table `Tk`.  Repeating it from the start, with the same values from the
outside world, succeeds and ends with `st.dest` as well. -/
theorem c35_rerun_converges {strategy : Strategy} (hs : strategy ≠ .error) (hd : dialect ≠ .generic)
    {x : OutInput} (hpk : x.dest.pk ≠ []) (hsub : ∀ c ∈ x.dest.pk, c ∈ writtenColumns x.chain x.dest)
    (hq : strategy = .replace → dialect = .sqlite → ∀ c ∈ x.dest.columns, c ∉ x.dest.computed)
    {rows : List (List Val)} {s : σ} {st : WState σ (List Row)}
    (h : outputResultSet W dialect strategy x rows T s = .ok st) {k : Nat} {Tk : List Row}
    (hk : Commits (flushBuffer dialect strategy x.dest (writtenColumns x.chain x.dest)) T
      (st.written.take k) Tk) :
    ∃ st', outputResultSet W dialect strategy x rows Tk s = .ok st' ∧ st'.dest = st.dest ∧
      st'.written = st.written := by
  have hf : ∀ c ∈ writtenColumns x.chain x.dest, c ∉ x.dest.computed := fun c hc => by
    simpa using (List.mem_filter.1 hc).2
  obtain ⟨st0, upd, h0, hfl⟩ := flush_total hs hd hpk hsub hf hq
  unfold outputResultSet at h ⊢
  cases h1 : outPlan x with
  | error e => rw [h1] at h; cases h
  | ok p =>
    rw [h1] at h
    dsimp only at h ⊢
    obtain ⟨-, e1, -⟩ := outPlan_ok h1
    rw [e1] at h ⊢
    obtain ⟨st', h2, h3⟩ := writeAll_other (flush' := flushBuffer dialect strategy x.dest
      (writtenColumns x.chain x.dest)) (d2 := Tk) (fun b U => ⟨_, hfl b U⟩) h
    refine ⟨st', h2, ?_, h3⟩
    obtain ⟨-, -, -, -, h4, -⟩ := writeAll_ok h
    obtain ⟨-, -, -, -, h5, -⟩ := writeAll_ok h2
    rw [commits_foldl hfl h4, commits_foldl hfl h5, commits_foldl hfl hk, h3]
    have hsp : fullRows x.dest (writtenColumns x.chain x.dest) st.written.flatten =
        fullRows x.dest (writtenColumns x.chain x.dest) (st.written.take k).flatten ++
          fullRows x.dest (writtenColumns x.chain x.dest) (st.written.drop k).flatten := by
      unfold fullRows
      rw [← List.map_append, ← List.flatten_append, List.take_append_drop]
    rw [hsp, List.foldl_append, List.foldl_append, foldl_ins_idem h0 hpk]
    intro q hq
    obtain ⟨b, -, rfl⟩ := List.mem_map.1 hq
    exact ⟨_, rfl⟩

/-- The table after `n` rows with key `0 .. n - 1` and value `v` were written to `T`. -/
def exRun35 (strategy : Strategy) (n : Nat) (v : Nat → Int) (T : List Row) : Option (List Row) :=
  match outputResultSet exWorldV .sqlite strategy
      ⟨⟨[str! "id", str! "v"], [str! "id", str! "v"], []⟩,
        ⟨[str! "id", str! "v"], [], fun _ => .null, [str! "id"]⟩, [], 1, [], none, bufferSize⟩
      ((List.range n).map fun i => [.int (i % 3 : Nat), .int (v i)]) T 0 with
  | .error _ => none
  | .ok st => some st.dest

example : exRun35 .replace 5 (fun i => i) [] = some [[(str! "id", .int 0), (str! "v", .int 3)],
      [(str! "id", .int 1), (str! "v", .int 4)], [(str! "id", .int 2), (str! "v", .int 2)]] ∧
    (exRun35 .replace 4 (fun i => i) []).bind (exRun35 .replace 5 (fun i => i)) =
      exRun35 .replace 5 (fun i => i) [] ∧
    (exRun35 .skip 2 (fun i => i) []).bind (exRun35 .skip 5 (fun i => i)) = exRun35 .skip 5 (fun i => i) [] ∧
    (exRun35 .error 3 (fun i => i) []).bind (exRun35 .error 3 (fun i => i)) = none := by decide

/-- C35 needs the same values from the outside world in both runs: with `skip`, rows of the first run keep
the values drawn then. -/
theorem c35_other_random_values :
    (exRun35 .skip 2 (fun i => i) []).bind (exRun35 .skip 3 fun i => i + 10) ≠
      exRun35 .skip 3 (fun i => i + 10) [] := by decide

/-- C35, `error`: if at least one batch was committed, repeating the run fails and changes nothing. -/
theorem c35_rerun_error {x : OutInput} (hpk : x.dest.pk ≠ [])
    (hsub : ∀ c ∈ x.dest.pk, c ∈ writtenColumns x.chain x.dest) (hu : KeysUnique x.dest.pk T)
    {rows : List (List Val)} {s : σ} {st : WState σ (List Row)}
    (h : outputResultSet W dialect .error x rows T s = .ok st) {k : Nat} (hk0 : 0 < k) (hw : st.written ≠ [])
    {Tk : List Row} (hk : Commits (flushBuffer dialect .error x.dest (writtenColumns x.chain x.dest)) T
      (st.written.take k) Tk) :
    ∃ st', outputResultSet W dialect .error x rows Tk s = .error (st', .integrity) ∧ st'.dest = Tk := by
  unfold outputResultSet at h ⊢
  cases h1 : outPlan x with
  | error e => rw [h1] at h; cases h
  | ok p =>
    rw [h1] at h
    dsimp only at h ⊢
    obtain ⟨-, e1, -⟩ := outPlan_ok h1
    rw [e1] at h ⊢
    obtain ⟨-, -, -, h2, -, -⟩ := writeAll_ok h
    -- inserting with `error` keeps the keys unique and only adds rows
    have hstep : ∀ {b : List (List Val)} {U U' : List Row}, KeysUnique x.dest.pk U →
        flushBuffer dialect .error x.dest (writtenColumns x.chain x.dest) b U = .ok U' →
        KeysUnique x.dest.pk U' ∧ U' = U ++ fullRows x.dest (writtenColumns x.chain x.dest) b := by
      intro b U U' hU hfl
      rw [flush_error hpk hsub] at hfl
      obtain ⟨g1, g2⟩ := insertMany_error (rows := b.map fun row => (writtenColumns x.chain x.dest).zip row)
        (upd := updateColumns dialect x.dest ((writtenColumns x.chain x.dest).filter fun c =>
          decide (c ∉ x.dest.pk))) hpk (unique_pkOf hU)
      by_cases hc : ((U ++ (b.map fun row => (writtenColumns x.chain x.dest).zip row).map
          (fullRow x.dest)).map (pkOf x.dest)).Nodup
      · rw [g1 hc] at hfl; cases hfl
        refine ⟨hc, ?_⟩
        rw [List.map_map]; rfl
      · rw [g2 hc] at hfl; cases hfl
    have hmany : ∀ {bs : List (List (List Val))} {U U' : List Row}, KeysUnique x.dest.pk U →
        Commits (flushBuffer dialect .error x.dest (writtenColumns x.chain x.dest)) U bs U' →
        KeysUnique x.dest.pk U' ∧ ∀ r ∈ U, r ∈ U' := by
      intro bs U U' hU hc
      induction hc with
      | nil => exact ⟨hU, fun r hr => hr⟩
      | cons hc _ ih =>
        obtain ⟨g1, g2⟩ := hstep hU hc
        obtain ⟨g3, g4⟩ := ih g1
        exact ⟨g3, fun r hr => g4 r (by rw [g2]; exact List.mem_append_left _ hr)⟩
    cases hwr : st.written with
    | nil => exact absurd hwr hw
    | cons b bs =>
      obtain ⟨k, rfl⟩ : ∃ k', k = k' + 1 := ⟨k - 1, by omega⟩
      rw [hwr, List.take_succ_cons] at hk
      cases hk with
      | @cons _ U _ _ _ hk1 hk2 =>
        obtain ⟨g1, g2⟩ := hstep hu hk1
        obtain ⟨g3, g4⟩ := hmany g1 hk2
        have hb0 : b ≠ [] := (h2.1 b (by rw [hwr]; exact .head _)).1
        obtain ⟨row, hrow⟩ := List.exists_mem_of_ne_nil _ hb0
        have hrej : flushBuffer dialect .error x.dest (writtenColumns x.chain x.dest) b Tk = .error .integrity := by
          rw [flush_error hpk hsub]
          refine (insertMany_error hpk (unique_pkOf g3)).2 fun hc => ?_
          rw [List.map_append, List.nodup_append] at hc
          have hin : fullRow x.dest ((writtenColumns x.chain x.dest).zip row) ∈ Tk :=
            g4 _ (by rw [g2]; exact List.mem_append_right _ (List.mem_map.2 ⟨row, hrow, rfl⟩))
          exact hc.2.2 _ (List.mem_map.2 ⟨_, hin, rfl⟩) _ (List.mem_map.2 ⟨_, List.mem_map.2
            ⟨_, List.mem_map.2 ⟨row, hrow, rfl⟩, rfl⟩, rfl⟩) rfl
        obtain ⟨st', h5, h6⟩ := writeAll_reject hrej h hwr
        exact ⟨st', h5, h6⟩

end Subsetter.Props
