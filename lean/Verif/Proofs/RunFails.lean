import Verif.Proofs.KeyConflict
import Verif.Proofs.RunSucceeds

/- Why writing fails. -/
namespace Subsetter
open Spec Props

variable {σ Dst : Type}

section
variable {W : Outside σ Val} {flush : List (List Val) → Dst → Except OutErr Dst} {p : OutPlan}

/-- Writing rows fails with `e` because of a row that cannot be transformed, a value the sequence cannot be compared
with, or a batch that cannot be written. -/
def FailsAt (W : Outside σ Val) (flush : List (List Val) → Dst → Except OutErr Dst) (p : OutPlan)
    (xs : List (List Val × Nat)) (buf : List (List Val)) (d : Dst) (s : σ) (e : OutErr) : Prop :=
  ∃ pre outs s', pre <+: xs ∧ Run W p pre s outs s' ∧
    ((∃ x ∈ xs, outRow W p x s' = .error e) ∨ (∃ row ∈ outs, ¬ AutoOK p row) ∨
      ∃ bs b d', bs.flatten ++ b = buf ++ outs ∧ Commits flush d bs d' ∧ flush b d' = .error e)

theorem writeLoop_fails : ∀ {xs : List (List Val × Nat)} {st q : WState σ Dst} {e : OutErr},
    st.buffer.length ≤ p.buffer → (st.auto = .null ∨ ∃ v : Int, st.auto = .int v) →
    writeLoop W flush p xs st = .error (q, e) → FailsAt W flush p xs st.buffer st.dest st.world e
  | [], st, q, e, hb, ha, h => by cases h
  | x :: xs, st, q, e, hb, ha, h => by
    unfold writeLoop at h
    cases h1 : outRow W p x st.world with
    | error e' =>
      have : writeStep W flush p st x = .error (st, e') := by unfold writeStep; rw [h1]
      rw [this] at h
      cases h
      exact ⟨[], [], st.world, List.nil_prefix, .nil _, .inl ⟨x, by simp, h1⟩⟩
    | ok r =>
      obtain ⟨row, s'⟩ := r
      by_cases hau : AutoOK p row
      · obtain ⟨a, h2, h3⟩ := autoMax_succeeds ha hau
        cases hw : writeStep W flush p st x with
        | error q' =>
          rw [hw] at h; cases h
          unfold writeStep at hw
          rw [h1] at hw; dsimp only at hw
          rw [h2] at hw; dsimp only at hw
          split at hw
          · cases h4 : flush (st.buffer ++ [row]) st.dest with
            | error e =>
              rw [h4] at hw; cases hw
              exact ⟨[x], [row], s', by simp, .cons h1 (.nil _), .inr (.inr ⟨[], _, _, rfl, .nil _, h4⟩)⟩
            | ok d => rw [h4] at hw; cases hw
          · cases hw
        | ok st1 =>
          rw [hw] at h
          have ha1 : st1.auto = a := by
            unfold writeStep at hw
            rw [h1] at hw; dsimp only at hw
            rw [h2] at hw; dsimp only at hw
            split at hw
            · cases h4 : flush (st.buffer ++ [row]) st.dest with
              | error e => rw [h4] at hw; cases hw
              | ok d => rw [h4] at hw; cases hw; rfl
            · cases hw; rfl
          have h2 := writeStep_ok hb hw
          obtain ⟨pre, outs, s2, g1, g2, g3⟩ := writeLoop_fails h2.buffer (by rw [ha1]; exact h3) h
          obtain ⟨o1, n1, s1, a1, a2, a3, a4, a5, a6, rfl⟩ := h2
          refine ⟨x :: pre, o1 ++ outs, s2, by simpa using g1, a1.trans g2, ?_⟩
          rcases g3 with ⟨y, hy, g3⟩ | ⟨y, hy, g3⟩ | ⟨bs, b, d', g3, g4, g5⟩
          · exact .inl ⟨y, by simp [hy], g3⟩
          · exact .inr (.inl ⟨y, by simp [hy], g3⟩)
          · refine .inr (.inr ⟨n1 ++ bs, b, d', ?_, a5.append g4, g5⟩)
            rw [List.flatten_append, List.append_assoc, g3, ← List.append_assoc, a3, List.append_assoc]
      · exact ⟨[x], [row], s', by simp, .cons h1 (.nil _), .inr (.inl ⟨row, by simp, hau⟩)⟩

theorem writeAll_fails {rows : List (List Val)} {d : Dst} {s : σ} {q : WState σ Dst} {e : OutErr}
    (h : writeAll W flush p rows d s = .error (q, e)) : FailsAt W flush p (copies p.multiplier rows) [] d s e := by
  unfold writeAll at h
  cases h1 : writeLoop W flush p (copies p.multiplier rows) ⟨[], d, .null, s, []⟩ with
  | error e =>
    rw [h1] at h; cases h
    exact writeLoop_fails (by simp) (.inl rfl) h1
  | ok st1 =>
    rw [h1] at h
    dsimp only at h
    obtain ⟨outs, new, s', a1, a2, a3, a4, a5, a6, rfl⟩ := writeLoop_ok (by simp) h1
    simp only [List.nil_append] at a1 a2 a3 a5
    split at h
    · cases h
    · cases h3 : flush st1.buffer st1.dest with
      | ok d' => rw [h3] at h; cases h
      | error e =>
        rw [h3] at h; cases h
        exact ⟨_, outs, _, List.prefix_rfl, a1, .inr (.inr ⟨new, _, _, by simpa using a3, a5, h3⟩)⟩

end

theorem flushTo_fails {dialect : Dialect} {st : Strategy} {k : Key} {d : DestTable} {cols : List Str}
    {b : List (List Val)} {S : DbState} {rest : List DbState} {e : OutErr}
    (h : flushTo dialect st k d cols b (S :: rest) = .error e) :
    flushBuffer dialect st d cols b (S k) = .error e := by
  unfold flushTo at h
  dsimp only at h
  cases h1 : flushBuffer dialect st d cols b (S k) with
  | error e => rw [h1] at h; cases h; rfl
  | ok rows => rw [h1] at h; cases h

/-- Copying fails because a table cannot be read, its columns do not fit, or its rows cannot be written to what it held
in the beginning. -/
theorem copyAll_fails {W : Outside σ Val} {dialect : Dialect} {read : Str → Except RunErr (Option TableJob)} :
    ∀ {names : List Str} {S : DbState} {hist hist' : List DbState} {s : σ} {writes : Writes} {e : RunErr},
    names.Nodup → (∀ n ∈ names, ∀ n' ∈ names, ∀ j j', read n = .ok (some j) → read n' = .ok (some j') →
      j.key = j'.key → n = n') →
    copyAll W dialect read names (S :: hist) s = (hist', writes, some e) →
    ∃ n ∈ names, read n = .error e ∨ ∃ j e', read n = .ok (some j) ∧ e = .dest (.output e') ∧
      (outPlan j.input = .error e' ∨ ∃ o s, outPlan j.input = .ok o ∧
        FailsAt W (flushBuffer dialect j.strategy j.input.dest o.colsOut) o (copies o.multiplier j.rows) [] (S j.key) s e')
  | [], S, hist, hist', s, writes, e, _, _, h => by cases h
  | n :: ns, S, hist, hist', s, writes, e, hnd, hinj, h => by
    unfold copyAll at h
    rw [List.nodup_cons] at hnd
    have hinj' : ∀ m ∈ ns, ∀ m' ∈ ns, ∀ j j', read m = .ok (some j) → read m' = .ok (some j') →
        j.key = j'.key → m = m' := fun m hm m' hm' => hinj m (by simp [hm]) m' (by simp [hm'])
    cases h1 : read n with
    | error e =>
      rw [h1] at h; cases h
      exact ⟨n, by simp, .inl h1⟩
    | ok o =>
      rw [h1] at h
      cases o with
      | none =>
        obtain ⟨m, hm, g⟩ := copyAll_fails hnd.2 hinj' h
        exact ⟨m, by simp [hm], g⟩
      | some j =>
        dsimp only at h
        cases h2 : outPlan j.input with
        | error e =>
          rw [h2] at h; cases h
          exact ⟨n, by simp, .inr ⟨j, e, h1, rfl, .inl h2⟩⟩
        | ok o =>
          rw [h2] at h; dsimp only at h
          cases h3 : writeAll W (flushTo dialect j.strategy j.key j.input.dest o.colsOut) o j.rows (S :: hist) s with
          | error q =>
            obtain ⟨st, e⟩ := q
            rw [h3] at h; cases h
            refine ⟨n, by simp, .inr ⟨j, e, h1, rfl, .inr ⟨o, s, h2, ?_⟩⟩⟩
            obtain ⟨pre, outs, s2, f1, f2, f3⟩ := writeAll_fails h3
            refine ⟨pre, outs, s2, f1, f2, ?_⟩
            rcases f3 with f3 | f3 | ⟨bs, b, d', f3, f4, f5⟩
            · exact .inl f3
            · exact .inr (.inl f3)
            · obtain ⟨rows, rest, g1, g2⟩ := commits_flushTo f4
              subst g1
              have f5 := flushTo_fails f5
              rw [show (S.set j.key rows) j.key = rows by simp [DbState.set]] at f5
              exact .inr (.inr ⟨bs, b, rows, f3, g2, f5⟩)
          | ok st =>
            rw [h3] at h; dsimp only at h
            obtain ⟨outs, f1, rfl, f3, f4, -⟩ := writeAll_ok h3
            obtain ⟨rows, rest, g1, g2⟩ := commits_flushTo f4
            cases h4 : copyAll W dialect read ns st.dest st.world with
            | mk hist2 q =>
              obtain ⟨writes2, err2⟩ := q
              rw [h4] at h; cases h
              rw [g1] at h4
              obtain ⟨m, hm, k0⟩ := copyAll_fails hnd.2 hinj' h4
              refine ⟨m, by simp [hm], k0.imp id ?_⟩
              rintro ⟨j', e', k1, k2, k3⟩
              refine ⟨j', e', k1, k2, ?_⟩
              have hne : j'.key ≠ j.key := fun e => hnd.1 (by rw [← hinj m (by simp [hm]) n (by simp) j' j k1 h1 e]; exact hm)
              rwa [show (S.set j.key rows) j'.key = S j'.key by simp [DbState.set, hne]] at k3

end Subsetter
