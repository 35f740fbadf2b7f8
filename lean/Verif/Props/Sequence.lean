import Verif.Props.Output

/-
Property C46: sequences of PostgreSQL.
-/
namespace Subsetter.Props
open Subsetter Spec

variable {σ D : Type} {W : Outside σ Val}

theorem valueOf_firstIndex (c : Str) : ∀ (cols : List Str) (b : List Val),
    valueOf cols b c = (firstIndex c cols).bind fun k => b[k]?
  | [], b => by simp [valueOf, firstIndex]
  | a :: cols, [] => by
    cases h : firstIndex c (a :: cols) <;> simp [valueOf]
  | a :: cols, v :: b => by
    have ih := valueOf_firstIndex c cols b
    unfold valueOf at ih ⊢
    by_cases e : a = c
    · simp [firstIndex, e]
    · have e' : (a == c) = false := by simpa using e
      simp only [List.zip_cons_cons, List.find?_cons, e', ih, firstIndex]
      rw [if_neg (by simpa using e)]
      cases firstIndex c cols <;> simp

/-- What is known of `autoinc_max_written` after some rows. -/
def AutoInv (k : Nat) (auto : Val) (rows : List (List Val)) : Prop :=
  (∀ row ∈ rows, ∀ v, row[k]? = some (.int v) → ∃ m, auto = .int m ∧ v ≤ m) ∧
  ∀ m, auto = .int m → ∃ row ∈ rows, row[k]? = some (.int m)

theorem autoMax_inv {p : OutPlan} {k : Nat} (hp : p.autoinc = some k) {acc a : Val} {row : List Val}
    {rows : List (List Val)} (h : autoMax p acc row = .ok a) (hi : AutoInv k acc rows) :
    AutoInv k a (rows ++ [row]) := by
  unfold autoMax at h
  rw [hp] at h; dsimp only at h
  cases hv : row[k]? with
  | none => rw [hv] at h; cases h
  | some v =>
    rw [hv] at h; dsimp only at h
    obtain ⟨h1, h2⟩ := hi
    split at h
    · cases h
      refine ⟨fun r hr w hw => ?_, fun m hm => ⟨row, by simp, by rw [hv, hm]⟩⟩
      rcases List.mem_append.1 hr with hr | hr
      · obtain ⟨m, h3, -⟩ := h1 r hr w hw
        cases h3
      · rw [List.mem_singleton] at hr
        subst hr
        rw [hv] at hw
        exact ⟨w, Option.some.inj hw, le_refl w⟩
    · rename_i a b
      cases h
      refine ⟨fun r hr w hw => ?_, fun m hm => ?_⟩
      · rcases List.mem_append.1 hr with hr | hr
        · obtain ⟨m, h3, h4⟩ := h1 r hr w hw
          cases h3
          exact ⟨_, rfl, by split <;> omega⟩
        · rw [List.mem_singleton] at hr
          subst hr
          rw [hv] at hw
          cases hw
          exact ⟨_, rfl, by split <;> omega⟩
      · cases hm
        by_cases hab : a < b
        · rw [if_pos hab]
          exact ⟨row, by simp, hv⟩
        · rw [if_neg hab]
          obtain ⟨r, h3, h4⟩ := h2 a rfl
          exact ⟨r, by simp [h3], h4⟩
    · cases h

theorem writeLoop_auto {flush : List (List Val) → D → Except OutErr D} {p : OutPlan} {k : Nat}
    (hp : p.autoinc = some k) : ∀ {xs : List (List Val × Nat)} {st st' : WState σ D},
    writeLoop W flush p xs st = .ok st' → AutoInv k st.auto (st.written.flatten ++ st.buffer) →
    AutoInv k st'.auto (st'.written.flatten ++ st'.buffer)
  | [], st, st', h, hi => by cases h; exact hi
  | x :: xs, st, st', h, hi => by
    unfold writeLoop at h
    cases h1 : writeStep W flush p st x with
    | error e => rw [h1] at h; cases h
    | ok st1 =>
      rw [h1] at h
      refine writeLoop_auto hp h ?_
      unfold writeStep at h1
      cases h2 : outRow W p x st.world with
      | error e => rw [h2] at h1; cases h1
      | ok q =>
        obtain ⟨row, s'⟩ := q
        rw [h2] at h1; dsimp only at h1
        cases h3 : autoMax p st.auto row with
        | error e => rw [h3] at h1; cases h1
        | ok a =>
          rw [h3] at h1; dsimp only at h1
          have h4 := autoMax_inv hp h3 hi
          split at h1
          · split at h1
            · cases h1
            · cases h1
              simpa using h4
          · cases h1
            simpa using h4

theorem writeAll_auto {flush : List (List Val) → D → Except OutErr D} {p : OutPlan} {k : Nat}
    (hp : p.autoinc = some k) {rows : List (List Val)} {d : D} {s : σ} {st : WState σ D}
    (h : writeAll W flush p rows d s = .ok st) : AutoInv k st.auto st.written.flatten := by
  unfold writeAll at h
  cases h1 : writeLoop W flush p (copies p.multiplier rows) ⟨[], d, .null, s, []⟩ with
  | error e => rw [h1] at h; cases h
  | ok st1 =>
    rw [h1] at h; dsimp only at h
    have h2 := writeLoop_auto hp h1 ⟨by simp, fun m hm => by cases hm⟩
    split at h
    · rename_i hb
      cases h
      rw [hb] at h2
      simpa using h2
    · split at h
      · cases h
      · cases h
        simpa using h2

/-- C46: after a table was written, the next identifier the sequence gives is larger than every identifier
written, provided `currval` of the session is a value of this sequence that is not ahead of it. -/
theorem c46_next_ahead {strategy : Strategy} {x : OutInput} {rows : List (List Val)} {T : List Row} {s : σ}
    {currval : Option Int} {q q' : Sequence} (hq : ∀ c, currval = some c → q.called = true ∧ c ≤ q.last)
    {written : List (List (List Val))} (h : outputAndUpdate W strategy x rows T s currval q = (written, q', none))
    {col : Str} (hcol : x.autoincrement = some col) {b : List Val} (hb : b ∈ written.flatten) {v : Int}
    (hv : valueOf (writtenColumns x.chain x.dest) b col = some (.int v)) : v < q'.next := by
  unfold outputAndUpdate at h
  split at h
  · cases h
  · rename_i st h1
    simp only [Prod.mk.injEq, and_true] at h
    obtain ⟨rfl, rfl⟩ := h
    unfold outputResultSet at h1
    cases h2 : outPlan x with
    | error e => rw [h2] at h1; cases h1
    | ok p =>
      rw [h2] at h1; dsimp only at h1
      obtain ⟨-, h3, -, -, -, h4, -⟩ := outPlan_ok h2
      rw [← h3, valueOf_firstIndex] at hv
      cases hk : firstIndex col p.colsOut with
      | none => rw [hk] at hv; cases hv
      | some k =>
        rw [hk] at hv
        have hp : p.autoinc = some k := by rw [h4, hcol]; exact hk
        obtain ⟨m, h5, h6⟩ := (writeAll_auto hp h1).1 b hb v hv
        rw [h5]
        unfold autoValue autoincrementUpdate
        dsimp only
        cases currval with
        | none => simp only [Sequence.next, if_true]; omega
        | some c =>
          obtain ⟨h7, h8⟩ := hq c rfl
          dsimp only
          split
          · simp only [Sequence.next, h7, if_true]; omega
          · simp only [Sequence.next, if_true]; omega

/-- C46: the sequence does not move backwards if `currval` of the session is its last value.  In other
sessions it may (`c46_moves_backwards`). -/
theorem c46_not_backwards_partial {strategy : Strategy} {x : OutInput} {rows : List (List Val)} {T : List Row}
    {s : σ} {q q' : Sequence} {written : List (List (List Val))} {e : Option OutErr}
    (h : outputAndUpdate W strategy x rows T s (some q.last) q = (written, q', e)) : q.next ≤ q'.next := by
  unfold outputAndUpdate at h
  split at h
  · simp only [Prod.mk.injEq] at h
    rw [h.2.1]
  · simp only [Prod.mk.injEq] at h
    rw [← h.2.1]
    unfold autoincrementUpdate
    split
    · exact le_refl _
    · dsimp only
      split
      · exact le_refl _
      · simp only [Sequence.next, if_true]; split <;> omega

/-- A table `t(id)` whose column `id` is generated by a sequence. -/
def exSeqInput : OutInput :=
  ⟨⟨[str! "id"], [str! "id"], []⟩, ⟨[str! "id"], [], fun _ => .null, [str! "id"]⟩, [], 1, [], some (str! "id"), bufferSize⟩

example : (outputAndUpdate exWorldV .error exSeqInput [[.int 5], [.int 9], [.int 7]] [] 0 none ⟨1, false⟩).2.1.next = 10 ∧
    (outputAndUpdate exWorldV .error exSeqInput [[.int 5], [.int 9], [.int 7]] [] 0 (some 12) ⟨12, true⟩).2.1.next = 13 ∧
    (outputAndUpdate exWorldV .error exSeqInput [] [] 0 none ⟨1, false⟩).2.1.next = 1 := by decide

/-- C46: the sequence can move backwards.  `currval` is defined only in sessions that used the sequence, so
if the destination has rows up to 100 and row 5 is written, the sequence that would give 101 gives 6, which
exists. -/
theorem c46_moves_backwards : ((outputAndUpdate exWorldV .skip exSeqInput [[.int 5]]
    [[(str! "id", .int 5)], [(str! "id", .int 6)], [(str! "id", .int 100)]] 0 none ⟨100, true⟩).2.1.next = 6) ∧
    Sequence.next ⟨100, true⟩ = 101 := by decide

/-- C46: if writing fails, the sequence is not updated, although rows may have been committed
(`c33_failure_keeps_prefix`). -/
theorem c46_failure_leaves_behind {strategy : Strategy} {x : OutInput} {rows : List (List Val)} {T : List Row}
    {s : σ} {currval : Option Int} {q q' : Sequence} {written : List (List (List Val))} {e : OutErr}
    (h : outputAndUpdate W strategy x rows T s currval q = (written, q', some e)) : q' = q := by
  unfold outputAndUpdate at h
  split at h
  · simp only [Prod.mk.injEq] at h
    exact h.2.1.symm
  · simp at h

end Subsetter.Props
