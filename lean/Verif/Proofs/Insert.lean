import Verif.Proofs.Output
import Mathlib.Data.List.Induction

/-
Lemmas about inserting rows under the three conflict strategies.
-/
namespace Subsetter
open Spec

variable {d : DestTable} {upd : List Str}

theorem dget_zip (cols : List Str) (b : List Val) (c : Str) : dget (cols.zip b) c = valueOf cols b c := by
  unfold valueOf
  induction cols generalizing b with
  | nil => rfl
  | cons x cols ih =>
    cases b with
    | nil => rfl
    | cons v b =>
      rw [List.zip_cons_cons]
      by_cases h : x = c
      · subst h; simp [dget]
      · rw [List.find?_cons_of_neg (by simpa using h), ← ih]
        simp [dget, h]

theorem dget_mapped {f : Str → Val} {c : Str} : ∀ {l : List Str}, c ∈ l →
    dget (l.map fun c => (c, f c)) c = some (f c)
  | [], h => by cases h
  | x :: l, h => by
    by_cases hx : x = c
    · subst hx; simp [dget]
    · simp only [List.map_cons, dget, hx, if_false]
      exact dget_mapped ((List.mem_cons.1 h).resolve_left (Ne.symm hx))

theorem fullRow_get {r : Row} {c : Str} (h1 : c ∈ d.columns) (h2 : c ∉ d.computed) :
    (fullRow d r).get c = (dget r c).getD (d.default c) := by
  unfold fullRow Row.get
  rw [dget_mapped (f := fun c => (dget r c).getD (d.default c))
    (List.mem_filter.2 ⟨h1, by simpa using h2⟩)]
  rfl

theorem fullRow_keys (r : Row) : dkeys (fullRow d r) = d.columns.filter fun c => decide (c ∉ d.computed) := by
  unfold fullRow dkeys
  rw [List.map_map]
  exact List.map_id' _

theorem fullRow_mem {r : Row} {q : Str × Val} (h : q ∈ fullRow d r) : (fullRow d r).get q.1 = q.2 := by
  unfold fullRow at h
  obtain ⟨c, h1, rfl⟩ := List.mem_map.1 h
  rw [List.mem_filter] at h1
  exact fullRow_get h1.1 (by simpa using h1.2)

theorem valueOf_isSome {cols : List Str} {b : List Val} (hl : b.length = cols.length) {c : Str}
    (hc : c ∈ cols) : ∃ v, valueOf cols b c = some v := by
  induction cols generalizing b with
  | nil => cases hc
  | cons x cols ih =>
    cases b with
    | nil => simp at hl
    | cons v b =>
      by_cases h : x = c
      · subst h; exact ⟨v, by simp [valueOf]⟩
      · obtain ⟨w, hw⟩ := ih (b := b) (by simpa using hl) ((List.mem_cons.1 hc).resolve_left (Ne.symm h))
        refine ⟨w, ?_⟩
        rw [← hw]
        unfold valueOf
        rw [List.zip_cons_cons, List.find?_cons_of_neg (by simpa using h)]

theorem fullRow_stored {cols : List Str} {batch : List (List Val)} (hf : Fitting d cols batch) {b : List Val}
    (hb : b ∈ batch) : StoredAs d cols b (fullRow d (cols.zip b)) := by
  refine ⟨fullRow_keys _, fun c hc => ?_, fun c h1 h2 h3 => ?_⟩
  · obtain ⟨h1, h2⟩ := hf.2.1 c hc
    obtain ⟨v, hv⟩ := valueOf_isSome (hf.2.2 b hb) hc
    rw [fullRow_get h1 h2, dget_zip, hv]
    rfl
  · rw [fullRow_get h1 h2, dget_zip]
    have : valueOf cols b c = none := by
      unfold valueOf
      rw [Option.map_eq_none_iff, List.find?_eq_none]
      rintro ⟨x, v⟩ hx
      have := (List.of_mem_zip hx).1
      simp only [beq_iff_eq]
      rintro rfl
      exact h3 this
    rw [this]; rfl

theorem pkOf_fullRow {cols : List Str} {batch : List (List Val)} (hf : Fitting d cols batch) {b : List Val}
    (hb : b ∈ batch) (hpk : ∀ c ∈ d.pk, c ∈ cols) : pkOf d (fullRow d (cols.zip b)) = keyOf cols d.pk b := by
  unfold pkOf keyOf
  refine List.map_congr_left fun c hc => ?_
  rw [(fullRow_stored hf hb).2.1 c (hpk c hc)]
  rfl

/-! ### Updating rows -/

theorem dget_map_value {f : Str → Val → Val} (r : Row) (c : Str) :
    dget (r.map fun p => (p.1, f p.1 p.2)) c = (dget r c).map (f c) := by
  induction r with
  | nil => rfl
  | cons q r ih =>
    obtain ⟨k, v⟩ := q
    by_cases h : k = c
    · subst h; simp [dget]
    · simp [dget, h, ih]

theorem updateRow_get {new old : Row} {c : Str} :
    (updateRow upd new old).get c = if c ∈ upd ∧ c ∈ dkeys old then new.get c else old.get c := by
  unfold updateRow
  change (dget (old.map fun p => (p.1, (fun k v => if k ∈ upd then new.get k else v) p.1 p.2)) c).getD _ = _
  rw [dget_map_value (f := fun k v => if k ∈ upd then new.get k else v)]
  by_cases h : c ∈ dkeys old
  · obtain ⟨v, hv⟩ := Option.isSome_iff_exists.1 (dget_isSome_iff.2 h)
    simp only [hv, Option.map_some, Option.getD_some, h, and_true]
    by_cases h1 : c ∈ upd
    · simp [h1]
    · simp [h1, Row.get, hv]
  · have hn : dget old c = none := by
      cases hd : dget old c with
      | none => rfl
      | some v => exact absurd (dget_isSome_iff.1 (by rw [hd]; rfl)) h
    simp [hn, h, Row.get]

theorem updateRow_keys {new old : Row} : dkeys (updateRow upd new old) = dkeys old := by
  unfold updateRow dkeys
  rw [List.map_map]
  rfl

theorem updateRow_pk {new old : Row} (h : pkOf d old = pkOf d new) :
    pkOf d (updateRow upd new old) = pkOf d old := by
  unfold pkOf at h ⊢
  refine List.map_congr_left fun c hc => ?_
  rw [updateRow_get]
  split
  · exact (List.map_inj_left.1 h c hc).symm
  · rfl

theorem updateRow_twice {new mid old : Row} :
    updateRow upd new (updateRow upd mid old) = updateRow upd new old := by
  unfold updateRow
  rw [List.map_map]
  refine List.map_congr_left fun q _ => ?_
  simp only [Function.comp]
  by_cases h : q.1 ∈ upd <;> simp [h]

theorem updateRow_self {r : Row} : updateRow upd (fullRow d r) (fullRow d r) = fullRow d r := by
  unfold updateRow
  conv_rhs => rw [← List.map_id (fullRow d r)]
  refine List.map_congr_left fun q hq => ?_
  obtain ⟨c, v⟩ := q
  have := fullRow_mem hq
  simp only [id] at this ⊢
  rw [this]
  simp

/-! ### Sequences of rows -/

theorem insertMany_append {st : Strategy} {xs ys T : List Row} :
    insertMany st d upd (xs ++ ys) T =
      match insertMany st d upd xs T with
      | .error e => .error e
      | .ok T' => insertMany st d upd ys T' := by
  induction xs generalizing T with
  | nil => rfl
  | cons x xs ih =>
    simp only [List.cons_append, insertMany]
    cases insertOne st d upd (fullRow d x) T with
    | error e => rfl
    | ok T' => exact ih

/-- Insertion without errors. -/
def ins (st : Strategy) (d : DestTable) (upd : List Str) (T : List Row) (r : Row) : List Row :=
  if d.pk ≠ [] ∧ (T.any fun q => decide (pkOf d q = pkOf d r)) then
    if st = .replace then T.map fun q => if pkOf d q = pkOf d r then updateRow upd r q else q else T
  else T ++ [r]

theorem insertMany_ins {st : Strategy} (hst : st ≠ .error) : ∀ (xs T : List Row),
    insertMany st d upd xs T = .ok ((xs.map (fullRow d)).foldl (ins st d upd) T)
  | [], T => rfl
  | x :: xs, T => by
    have : insertOne st d upd (fullRow d x) T = .ok (ins st d upd T (fullRow d x)) := by
      unfold insertOne ins
      split
      · cases st with
        | error => exact absurd rfl hst
        | skip => rfl
        | replace => rfl
      · rfl
    simp only [insertMany, this, List.map_cons, List.foldl_cons]
    exact insertMany_ins hst xs _

theorem any_key {T : List Row} {r : Row} :
    (T.any fun q => decide (pkOf d q = pkOf d r)) = true ↔ ∃ q ∈ T, pkOf d q = pkOf d r := by simp

theorem ins_keys {st : Strategy} (hpk : d.pk ≠ []) {T : List Row} {r : Row} :
    (ins st d upd T r).map (pkOf d) =
      if ∃ q ∈ T, pkOf d q = pkOf d r then T.map (pkOf d) else T.map (pkOf d) ++ [pkOf d r] := by
  unfold ins
  by_cases h : ∃ q ∈ T, pkOf d q = pkOf d r
  · rw [if_pos ⟨hpk, any_key.2 h⟩, if_pos h]
    split
    · rw [List.map_map]
      refine List.map_congr_left fun q _ => ?_
      simp only [Function.comp]
      split
      · rename_i h1; exact updateRow_pk h1
      · rfl
    · rfl
  · rw [if_neg (fun h1 => h (any_key.1 h1.2)), if_neg h]
    simp

theorem ins_unique {st : Strategy} (hpk : d.pk ≠ []) {T : List Row} {r : Row}
    (h : (T.map (pkOf d)).Nodup) : ((ins st d upd T r).map (pkOf d)).Nodup := by
  rw [ins_keys hpk]
  split
  · exact h
  · rename_i h1
    rw [List.nodup_append]
    refine ⟨h, by simp, fun k hk k' hk' e => h1 ?_⟩
    simp only [List.mem_singleton] at hk'
    obtain ⟨q, hq, rfl⟩ := List.mem_map.1 hk
    exact ⟨q, hq, e.trans hk'⟩

theorem foldl_ins_unique {st : Strategy} (hpk : d.pk ≠ []) {P T : List Row}
    (h : (T.map (pkOf d)).Nodup) : ((P.foldl (ins st d upd) T).map (pkOf d)).Nodup := by
  induction P generalizing T with
  | nil => exact h
  | cons p P ih => exact ih (ins_unique hpk h)

theorem mem_ins_keys {st : Strategy} (hpk : d.pk ≠ []) {T : List Row} {r : Row} {k : List Val} :
    k ∈ (ins st d upd T r).map (pkOf d) ↔ k ∈ T.map (pkOf d) ∨ k = pkOf d r := by
  rw [ins_keys hpk]
  split
  · rename_i h
    obtain ⟨q, hq, h1⟩ := h
    constructor
    · exact .inl
    · rintro (h | rfl)
      · exact h
      · exact List.mem_map.2 ⟨q, hq, h1⟩
  · simp

theorem mem_foldl_keys {st : Strategy} (hpk : d.pk ≠ []) {P T : List Row} {k : List Val} :
    k ∈ (P.foldl (ins st d upd) T).map (pkOf d) ↔ k ∈ T.map (pkOf d) ∨ k ∈ P.map (pkOf d) := by
  induction P generalizing T with
  | nil => simp
  | cons p P ih =>
    rw [List.foldl_cons, ih, mem_ins_keys hpk, List.map_cons, List.mem_cons, or_assoc]

/-! ### Replace -/

/-- The last row with a key. -/
def lastWith (d : DestTable) (P : List Row) (k : List Val) : Option Row :=
  (P.filter fun p => decide (pkOf d p = k)).getLast?

theorem lastWith_snoc {P : List Row} {p : Row} {k : List Val} :
    lastWith d (P ++ [p]) k = if pkOf d p = k then some p else lastWith d P k := by
  unfold lastWith
  rw [List.filter_append]
  by_cases h : pkOf d p = k
  · simp [h]
  · simp [h]

theorem lastWith_mem {P : List Row} {k : List Val} {p : Row} (h : lastWith d P k = some p) :
    p ∈ P ∧ pkOf d p = k := by
  have := List.mem_of_getLast? h
  rw [List.mem_filter] at this
  exact ⟨this.1, by simpa using this.2⟩

theorem lastWith_none {P : List Row} {k : List Val} : lastWith d P k = none ↔ ∀ p ∈ P, pkOf d p ≠ k := by
  unfold lastWith
  rw [List.getLast?_eq_none_iff, List.filter_eq_nil_iff]
  simp

/-- What replacing does to the rows: a row whose key is not written is an old row; the others are an old
row, or the first one written, updated by the last one written. -/
theorem replace_inv (hpk : d.pk ≠ []) {T : List Row} {P : List Row}
    (hP : ∀ p ∈ P, ∃ q, p = fullRow d q) :
    (∀ r ∈ T, lastWith d P (pkOf d r) = none → r ∈ P.foldl (ins .replace d upd) T) ∧
    ∀ r ∈ P.foldl (ins .replace d upd) T,
      match lastWith d P (pkOf d r) with
      | none => r ∈ T
      | some p => ∃ r0, pkOf d r0 = pkOf d r ∧ r = updateRow upd p r0 ∧
          (r0 ∈ T ∨ (r0 ∈ P ∧ ∀ q ∈ T, pkOf d q ≠ pkOf d r)) := by
  induction P using List.reverseRecOn with
  | nil => exact ⟨fun r hr _ => hr, fun r hr => by simpa [lastWith] using hr⟩
  | append_singleton P p ih =>
    have hP1 : ∀ q ∈ P, ∃ q', q = fullRow d q' := fun q hq => hP q (List.mem_append_left _ hq)
    obtain ⟨q0, hq0⟩ := hP p (by simp)
    obtain ⟨ih1, ih2⟩ := ih hP1
    rw [List.foldl_append, List.foldl_cons, List.foldl_nil]
    generalize hU : P.foldl (ins .replace d upd) T = U at ih1 ih2 ⊢
    have hkeys : ∀ k, k ∈ U.map (pkOf d) ↔ k ∈ T.map (pkOf d) ∨ k ∈ P.map (pkOf d) := fun k => by
      rw [← hU]; exact mem_foldl_keys hpk
    refine ⟨fun r hr hl => ?_, fun r hr => ?_⟩
    · rw [lastWith_snoc] at hl
      split at hl
      · cases hl
      · rename_i hne
        have := ih1 r hr hl
        unfold ins
        split
        · simp only [if_true]
          exact List.mem_map.2 ⟨r, this, by rw [if_neg fun h => hne h.symm]⟩
        · exact List.mem_append_left _ this
    · rw [lastWith_snoc]
      unfold ins at hr
      by_cases hc : d.pk ≠ [] ∧ (U.any fun q => decide (pkOf d q = pkOf d p))
      · rw [if_pos hc] at hr
        simp only [if_true] at hr
        obtain ⟨u, hu, rfl⟩ := List.mem_map.1 hr
        by_cases hk : pkOf d u = pkOf d p
        · rw [if_pos hk]
          rw [updateRow_pk hk, if_pos hk.symm]
          dsimp only
          have := ih2 u hu
          cases hl : lastWith d P (pkOf d u) with
          | none =>
            rw [hl] at this
            exact ⟨u, rfl, rfl, .inl this⟩
          | some p' =>
            rw [hl] at this
            obtain ⟨r0, h1, h2, h3⟩ := this
            refine ⟨r0, h1, ?_, ?_⟩
            · conv_lhs => rw [h2]
              exact updateRow_twice
            · rcases h3 with h3 | ⟨h3, h4⟩
              · exact .inl h3
              · exact .inr ⟨List.mem_append_left _ h3, h4⟩
        · rw [if_neg hk]
          rw [if_neg fun h => hk h.symm]
          have := ih2 u hu
          cases hl : lastWith d P (pkOf d u) with
          | none => rw [hl] at this; exact this
          | some p' =>
            rw [hl] at this
            obtain ⟨r0, h1, h2, h3⟩ := this
            refine ⟨r0, h1, h2, ?_⟩
            rcases h3 with h3 | ⟨h3, h4⟩
            · exact .inl h3
            · exact .inr ⟨List.mem_append_left _ h3, h4⟩
      · rw [if_neg hc] at hr
        have hfresh : ∀ u ∈ U, pkOf d u ≠ pkOf d p := fun u hu h => hc ⟨hpk, any_key.2 ⟨u, hu, h⟩⟩
        rcases List.mem_append.1 hr with hr | hr
        · rw [if_neg fun h => hfresh r hr h.symm]
          have := ih2 r hr
          cases hl : lastWith d P (pkOf d r) with
          | none => rw [hl] at this; exact this
          | some p' =>
            rw [hl] at this
            obtain ⟨r0, h1, h2, h3⟩ := this
            refine ⟨r0, h1, h2, ?_⟩
            rcases h3 with h3 | ⟨h3, h4⟩
            · exact .inl h3
            · exact .inr ⟨List.mem_append_left _ h3, h4⟩
        · simp only [List.mem_singleton] at hr
          subst hr
          rw [if_pos rfl]
          refine ⟨r, rfl, by rw [hq0]; exact updateRow_self.symm, .inr ⟨by simp, fun q hq h => ?_⟩⟩
          have : pkOf d r ∈ U.map (pkOf d) := (hkeys _).2 (.inl (List.mem_map.2 ⟨q, hq, h⟩))
          obtain ⟨u, hu, h'⟩ := List.mem_map.1 this
          exact hfresh u hu h'

/-! ### Repeating -/

theorem foldl_skip_present (hpk : d.pk ≠ []) {P T : List Row} (h : ∀ p ∈ P, pkOf d p ∈ T.map (pkOf d)) :
    P.foldl (ins .skip d upd) T = T := by
  induction P with
  | nil => rfl
  | cons p P ih =>
    have h1 : ins .skip d upd T p = T := by
      unfold ins
      obtain ⟨q, hq, h1⟩ := List.mem_map.1 (h p (.head _))
      rw [if_pos ⟨hpk, any_key.2 ⟨q, hq, h1⟩⟩]
      simp
    rw [List.foldl_cons, h1]
    exact ih fun p hp => h p (.tail _ hp)

/-- Updating a row by all written rows with its key. -/
def applyAll (d : DestTable) (upd : List Str) (P : List Row) (r : Row) : Row :=
  P.foldl (fun r p => if pkOf d r = pkOf d p then updateRow upd p r else r) r

theorem applyAll_pk {P : List Row} {r : Row} : pkOf d (applyAll d upd P r) = pkOf d r := by
  unfold applyAll
  induction P generalizing r with
  | nil => rfl
  | cons p P ih =>
    rw [List.foldl_cons, ih]
    split
    · rename_i h; exact updateRow_pk h
    · rfl

theorem applyAll_last {P : List Row} {r : Row} :
    applyAll d upd P r = match lastWith d P (pkOf d r) with | none => r | some p => updateRow upd p r := by
  induction P using List.reverseRecOn with
  | nil => rfl
  | append_singleton P p ih =>
    have : applyAll d upd (P ++ [p]) r =
        if pkOf d (applyAll d upd P r) = pkOf d p then updateRow upd p (applyAll d upd P r)
        else applyAll d upd P r := by
      unfold applyAll; rw [List.foldl_append]; rfl
    rw [this, applyAll_pk, lastWith_snoc]
    by_cases h : pkOf d r = pkOf d p
    · rw [if_pos h, if_pos h.symm, ih]
      cases lastWith d P (pkOf d r) with
      | none => rfl
      | some p' => exact updateRow_twice
    · rw [if_neg h, if_neg fun h' => h h'.symm, ih]

theorem foldl_replace_present (hpk : d.pk ≠ []) {P T : List Row} (h : ∀ p ∈ P, pkOf d p ∈ T.map (pkOf d)) :
    P.foldl (ins .replace d upd) T = T.map (applyAll d upd P) := by
  induction P generalizing T with
  | nil => exact (List.map_id T).symm
  | cons p P ih =>
    have h1 : ins .replace d upd T p = T.map fun q => if pkOf d q = pkOf d p then updateRow upd p q else q := by
      unfold ins
      obtain ⟨q, hq, h1⟩ := List.mem_map.1 (h p (.head _))
      rw [if_pos ⟨hpk, any_key.2 ⟨q, hq, h1⟩⟩]
      simp
    rw [List.foldl_cons, ih, h1, List.map_map]
    · rfl
    · intro q hq
      exact (mem_ins_keys hpk).2 (.inl (h q (.tail _ hq)))

/-- Repeating an insertion changes nothing. -/
theorem foldl_ins_idem {st : Strategy} (hst : st ≠ .error) (hpk : d.pk ≠ []) {P T : List Row}
    (hP : ∀ p ∈ P, ∃ q, p = fullRow d q) :
    P.foldl (ins st d upd) (P.foldl (ins st d upd) T) = P.foldl (ins st d upd) T := by
  have hpres : ∀ p ∈ P, pkOf d p ∈ (P.foldl (ins st d upd) T).map (pkOf d) := fun p hp =>
    (mem_foldl_keys hpk).2 (.inr (List.mem_map.2 ⟨p, hp, rfl⟩))
  cases st with
  | error => exact absurd rfl hst
  | skip => exact foldl_skip_present hpk hpres
  | replace =>
    rw [foldl_replace_present hpk hpres]
    conv_rhs => rw [← List.map_id (P.foldl (ins .replace d upd) T)]
    refine List.map_congr_left fun r hr => ?_
    rw [applyAll_last]
    have := (replace_inv (upd := upd) (T := T) hpk hP).2 r hr
    cases hl : lastWith d P (pkOf d r) with
    | none => rfl
    | some p =>
      rw [hl] at this
      obtain ⟨r0, h1, h2, -⟩ := this
      dsimp only [id]
      conv_lhs => rw [h2]
      rw [updateRow_twice, ← h2]

/-! ### Skip -/

/-- The first row with a key. -/
def firstWith (d : DestTable) (P : List Row) (k : List Val) : Option Row :=
  (P.filter fun p => decide (pkOf d p = k)).head?

theorem firstWith_snoc {P : List Row} {p : Row} {k : List Val} :
    firstWith d (P ++ [p]) k = (firstWith d P k).or (if pkOf d p = k then some p else none) := by
  unfold firstWith
  rw [List.filter_append, List.head?_append]
  by_cases h : pkOf d p = k <;> simp [h]

theorem firstWith_none {P : List Row} {k : List Val} : firstWith d P k = none ↔ ∀ p ∈ P, pkOf d p ≠ k := by
  unfold firstWith
  rw [List.head?_eq_none_iff, List.filter_eq_nil_iff]
  simp

theorem skip_inv (hpk : d.pk ≠ []) {T : List Row} {P : List Row} :
    ∃ new, P.foldl (ins .skip d upd) T = T ++ new ∧
      ∀ r ∈ new, (∀ q ∈ T, pkOf d q ≠ pkOf d r) ∧ firstWith d P (pkOf d r) = some r := by
  induction P using List.reverseRecOn with
  | nil => exact ⟨[], by simp, by simp⟩
  | append_singleton P p ih =>
    obtain ⟨new, h1, h2⟩ := ih
    have hkeys : ∀ k, k ∈ (P.foldl (ins .skip d upd) T).map (pkOf d) ↔
        k ∈ T.map (pkOf d) ∨ k ∈ P.map (pkOf d) := fun k => mem_foldl_keys hpk
    rw [List.foldl_append, List.foldl_cons, List.foldl_nil]
    generalize P.foldl (ins .skip d upd) T = U at h1 hkeys ⊢
    unfold ins
    have hold : ∀ r ∈ new, (∀ q ∈ T, pkOf d q ≠ pkOf d r) ∧ firstWith d (P ++ [p]) (pkOf d r) = some r := by
      intro r hr
      obtain ⟨h3, h4⟩ := h2 r hr
      exact ⟨h3, by rw [firstWith_snoc, h4]; rfl⟩
    split
    · refine ⟨new, ?_, hold⟩
      rw [if_neg (by simp)]; exact h1
    · rename_i hc
      have hfresh : pkOf d p ∉ U.map (pkOf d) := by
        intro h
        obtain ⟨q, hq, h'⟩ := List.mem_map.1 h
        exact hc ⟨hpk, any_key.2 ⟨q, hq, h'⟩⟩
      rw [hkeys] at hfresh
      refine ⟨new ++ [p], by rw [h1, List.append_assoc], fun r hr => ?_⟩
      rcases List.mem_append.1 hr with hr | hr
      · exact hold r hr
      · simp only [List.mem_singleton] at hr
        subst hr
        refine ⟨fun q hq h => hfresh (.inl (List.mem_map.2 ⟨q, hq, h⟩)), ?_⟩
        rw [firstWith_snoc, if_pos rfl,
          firstWith_none.2 fun q hq h => hfresh (.inr (List.mem_map.2 ⟨q, hq, h⟩))]
        rfl

/-! ### Error -/

theorem insertMany_error (hpk : d.pk ≠ []) : ∀ {rows T : List Row}, (T.map (pkOf d)).Nodup →
    (((T ++ rows.map (fullRow d)).map (pkOf d)).Nodup →
      insertMany .error d upd rows T = .ok (T ++ rows.map (fullRow d))) ∧
    (¬ ((T ++ rows.map (fullRow d)).map (pkOf d)).Nodup → insertMany .error d upd rows T = .error .integrity)
  | [], T, hT => ⟨fun _ => by simp [insertMany], fun h => absurd (by simpa using hT) h⟩
  | r :: rows, T, hT => by
    by_cases h : ∃ q ∈ T, pkOf d q = pkOf d (fullRow d r)
    · have h1 : insertOne .error d upd (fullRow d r) T = .error .integrity := by
        unfold insertOne; rw [if_pos ⟨hpk, any_key.2 h⟩]
      constructor
      · intro hn
        obtain ⟨q, hq, h2⟩ := h
        rw [List.map_append, List.nodup_append] at hn
        exact absurd h2 (hn.2.2 _ (List.mem_map.2 ⟨q, hq, rfl⟩) _ (by simp))
      · intro _; simp only [insertMany, h1]
    · have h1 : insertOne .error d upd (fullRow d r) T = .ok (T ++ [fullRow d r]) := by
        unfold insertOne; rw [if_neg fun h2 => h (any_key.1 h2.2)]
      have hT' : ((T ++ [fullRow d r]).map (pkOf d)).Nodup := by
        rw [List.map_append, List.nodup_append]
        refine ⟨hT, by simp, fun k hk k' hk' e => h ?_⟩
        simp only [List.map_cons, List.map_nil, List.mem_singleton] at hk'
        obtain ⟨q, hq, rfl⟩ := List.mem_map.1 hk
        exact ⟨q, hq, e.trans hk'⟩
      have ih := insertMany_error (rows := rows) hpk hT'
      simp only [insertMany, h1, List.map_cons]
      simpa [List.append_assoc] using ih

theorem insertMany_no_pk (hpk : d.pk = []) {st : Strategy} : ∀ {rows T : List Row},
    insertMany st d upd rows T = .ok (T ++ rows.map (fullRow d))
  | [], T => by simp [insertMany]
  | r :: rows, T => by
    have h1 : insertOne st d upd (fullRow d r) T = .ok (T ++ [fullRow d r]) := by
      unfold insertOne; rw [if_neg fun h => h.1 hpk]
    simp only [insertMany, h1, List.map_cons]
    rw [insertMany_no_pk hpk]
    simp

/-! ### Batches -/

/-- The complete rows of a batch. -/
def fullRows (d : DestTable) (cols : List Str) (batch : List (List Val)) : List Row :=
  batch.map fun b => fullRow d (cols.zip b)

theorem fullRows_filter {cols : List Str} {batch : List (List Val)} (hf : Fitting d cols batch)
    (hpk : ∀ c ∈ d.pk, c ∈ cols) (k : List Val) :
    (fullRows d cols batch).filter (fun p => decide (pkOf d p = k)) =
      (batch.filter fun b => decide (keyOf cols d.pk b = k)).map fun b => fullRow d (cols.zip b) := by
  unfold fullRows
  rw [List.filter_map]
  congr 1
  refine List.filter_congr fun b hb => ?_
  simp only [Function.comp, pkOf_fullRow hf hb hpk]

theorem conflictInit_ok {strategy : Strategy} {pk cols : List Str} (h0 : pk ≠ []) (h : ∀ c ∈ pk, c ∈ cols) :
    conflictInit strategy pk cols = .ok (if strategy = .replace ∧ (∀ c ∈ cols, c ∈ pk) then .skip else strategy,
      cols.filter fun c => decide (c ∉ pk)) := by
  unfold conflictInit
  rw [if_neg (by simpa using h0), if_pos (by simpa using h)]
  dsimp only
  have : (cols.filter fun c => decide (c ∉ pk)).isEmpty = true ↔ ∀ c ∈ cols, c ∈ pk := by
    rw [List.isEmpty_iff, List.filter_eq_nil_iff]; simp
  by_cases h1 : strategy = .replace ∧ ∀ c ∈ cols, c ∈ pk
  · rw [if_pos ⟨h1.1, this.2 h1.2⟩, if_pos h1]
  · rw [if_neg fun h2 => h1 ⟨h2.1, this.1 h2.2⟩, if_neg h1]

/-! ### Runs with different tables -/

variable {σ D : Type} {W : Outside σ Val} {p : OutPlan}

theorem writeLoop_other {flush flush' : List (List Val) → D → Except OutErr D}
    (ht : ∀ b d, ∃ d', flush' b d = .ok d') : ∀ {xs : List (List Val × Nat)} {st st' st2 : WState σ D},
    writeLoop W flush p xs st = .ok st' → st2.buffer = st.buffer → st2.auto = st.auto →
    st2.world = st.world → st2.written = st.written →
    ∃ st3, writeLoop W flush' p xs st2 = .ok st3 ∧ st3.buffer = st'.buffer ∧ st3.auto = st'.auto ∧
      st3.world = st'.world ∧ st3.written = st'.written
  | [], st, st', st2, h, e1, e2, e3, e4 => by cases h; exact ⟨st2, rfl, e1, e2, e3, e4⟩
  | x :: xs, st, st', st2, h, e1, e2, e3, e4 => by
    unfold writeLoop at h ⊢
    cases h0 : writeStep W flush p st x with
    | error e => rw [h0] at h; cases h
    | ok st1 =>
      rw [h0] at h
      dsimp only at h
      have : ∃ st4, writeStep W flush' p st2 x = .ok st4 ∧ st4.buffer = st1.buffer ∧ st4.auto = st1.auto ∧
          st4.world = st1.world ∧ st4.written = st1.written := by
        unfold writeStep at h0 ⊢
        rw [e3]
        cases h1 : outRow W p x st.world with
        | error e => rw [h1] at h0; cases h0
        | ok q =>
          obtain ⟨row, s'⟩ := q
          rw [h1] at h0
          dsimp only at h0 ⊢
          rw [e2]
          cases h2 : autoMax p st.auto row with
          | error e => rw [h2] at h0; cases h0
          | ok a =>
            rw [h2] at h0
            dsimp only at h0 ⊢
            rw [e1]
            split at h0
            · rename_i h3
              rw [if_pos h3]
              obtain ⟨d', h5⟩ := ht (st.buffer ++ [row]) st2.dest
              rw [h5]
              cases h4 : flush (st.buffer ++ [row]) st.dest with
              | error e => rw [h4] at h0; cases h0
              | ok d =>
                rw [h4] at h0; cases h0
                exact ⟨_, rfl, rfl, rfl, rfl, by rw [e4]⟩
            · rename_i h3
              rw [if_neg h3]
              cases h0
              exact ⟨_, rfl, rfl, rfl, rfl, e4⟩
      obtain ⟨st4, h5, f1, f2, f3, f4⟩ := this
      rw [h5]
      exact writeLoop_other ht h f1 f2 f3 f4

theorem writeAll_other {flush flush' : List (List Val) → D → Except OutErr D}
    (ht : ∀ b d, ∃ d', flush' b d = .ok d') {rows : List (List Val)} {d d2 : D} {s : σ} {st : WState σ D}
    (h : writeAll W flush p rows d s = .ok st) :
    ∃ st2, writeAll W flush' p rows d2 s = .ok st2 ∧ st2.written = st.written := by
  unfold writeAll at h ⊢
  cases h1 : writeLoop W flush p (copies p.multiplier rows) ⟨[], d, .null, s, []⟩ with
  | error e => rw [h1] at h; cases h
  | ok st1 =>
    rw [h1] at h
    dsimp only at h
    obtain ⟨st3, h2, e1, e2, e3, e4⟩ := writeLoop_other (st2 := ⟨[], d2, .null, s, []⟩) ht h1 rfl rfl rfl rfl
    rw [h2]
    dsimp only
    rw [e1]
    split at h
    · rename_i h3
      rw [if_pos h3]; cases h
      exact ⟨st3, rfl, e4⟩
    · rename_i h3
      rw [if_neg h3]
      obtain ⟨d', h5⟩ := ht st1.buffer st3.dest
      rw [h5]
      cases h4 : flush st1.buffer st1.dest with
      | error e => rw [h4] at h; cases h
      | ok d4 =>
        rw [h4] at h; cases h
        exact ⟨_, rfl, by rw [e4]⟩

/-- A run whose first batch is rejected. -/
theorem writeLoop_reject {flush flush' : List (List Val) → D → Except OutErr D} {b : List (List Val)} {d2 : D}
    {e : OutErr} (hb : flush' b d2 = .error e) :
    ∀ {xs : List (List Val × Nat)} {st st' st2 : WState σ D},
    writeLoop W flush p xs st = .ok st' → st2.buffer = st.buffer → st2.auto = st.auto →
    st2.world = st.world → st2.dest = d2 →
    (st'.written = st.written ∧ ∃ st3, writeLoop W flush' p xs st2 = .ok st3 ∧ st3.buffer = st'.buffer ∧
      st3.auto = st'.auto ∧ st3.world = st'.world ∧ st3.dest = d2) ∨
    ∃ b' bs, st'.written = st.written ++ b' :: bs ∧
      (b' = b → ∃ st3, writeLoop W flush' p xs st2 = .error (st3, e) ∧ st3.dest = d2)
  | [], st, st', st2, h, e1, e2, e3, e4 => by cases h; exact .inl ⟨rfl, st2, rfl, e1, e2, e3, e4⟩
  | x :: xs, st, st', st2, h, e1, e2, e3, e4 => by
    unfold writeLoop at h ⊢
    cases h0 : writeStep W flush p st x with
    | error e => rw [h0] at h; cases h
    | ok st1 =>
      rw [h0] at h
      dsimp only at h
      unfold writeStep at h0 ⊢
      rw [e3]
      cases h1 : outRow W p x st.world with
      | error e => rw [h1] at h0; cases h0
      | ok q =>
        obtain ⟨row, s'⟩ := q
        rw [h1] at h0
        dsimp only at h0 ⊢
        rw [e2]
        cases h2 : autoMax p st.auto row with
        | error e => rw [h2] at h0; cases h0
        | ok a =>
          rw [h2] at h0
          dsimp only at h0 ⊢
          rw [e1]
          split at h0
          · rename_i h3
            rw [if_pos h3]
            cases h4 : flush (st.buffer ++ [row]) st.dest with
            | error e => rw [h4] at h0; cases h0
            | ok d =>
              rw [h4] at h0
              dsimp only at h0
              have h0' := (Except.ok.inj h0)
              obtain ⟨outs, new, s1, a1, a2, a3, a4, a5, a6, a7⟩ :=
                writeLoop_ok (st := st1) (by rw [← h0']; simp) h
              refine .inr ⟨st.buffer ++ [row], new, ?_, ?_⟩
              · rw [a2, ← h0']; simp
              · intro e5
                rw [e5, e4, hb]
                exact ⟨st2, rfl, e4⟩
          · rename_i h3
            rw [if_neg h3]
            have h0' := (Except.ok.inj h0)
            dsimp only
            have := writeLoop_reject hb (st2 := ⟨st.buffer ++ [row], st2.dest, a, s', st2.written⟩) h
              (by rw [← h0']) (by rw [← h0']) (by rw [← h0']) e4
            rw [← h0'] at this
            exact this

theorem writeAll_reject {flush flush' : List (List Val) → D → Except OutErr D} {b : List (List Val)}
    {bs : List (List (List Val))} {d d2 : D} {e : OutErr} (hb : flush' b d2 = .error e)
    {rows : List (List Val)} {s : σ} {st : WState σ D} (h : writeAll W flush p rows d s = .ok st)
    (hw : st.written = b :: bs) :
    ∃ st2, writeAll W flush' p rows d2 s = .error (st2, e) ∧ st2.dest = d2 := by
  unfold writeAll at h ⊢
  cases h1 : writeLoop W flush p (copies p.multiplier rows) ⟨[], d, .null, s, []⟩ with
  | error e => rw [h1] at h; cases h
  | ok st1 =>
    rw [h1] at h
    dsimp only at h
    rcases writeLoop_reject hb (st2 := ⟨[], d2, .null, s, []⟩) h1 rfl rfl rfl rfl with
      ⟨h2, st3, h3, e1, e2, e3, e4⟩ | ⟨b', bs', h2, h3⟩
    · rw [h3]
      dsimp only
      rw [e1]
      split at h
      · cases h; rw [h2] at hw; cases hw
      · rename_i h5
        rw [if_neg h5]
        cases h4 : flush st1.buffer st1.dest with
        | error e => rw [h4] at h; cases h
        | ok d4 =>
          rw [h4] at h; cases h
          rw [h2] at hw
          simp only [List.nil_append, List.cons.injEq] at hw
          rw [hw.1, e4, hb]
          exact ⟨st3, rfl, e4⟩
    · have : b' = b := by
        simp only [List.nil_append] at h2
        split at h
        · cases h; rw [h2] at hw; cases hw; rfl
        · cases h4 : flush st1.buffer st1.dest with
          | error e => rw [h4] at h; cases h
          | ok d4 =>
            rw [h4] at h; cases h
            rw [h2] at hw; cases hw; rfl
      obtain ⟨st3, h4, h5⟩ := h3 this
      rw [h4]
      exact ⟨st3, rfl, h5⟩

end Subsetter
