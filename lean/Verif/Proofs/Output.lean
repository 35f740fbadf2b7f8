import Verif.Spec.Output
import Verif.Proofs.Filters
import Verif.Proofs.PyDict

/-
Lemmas about the loops of `output_result_set`.
-/
namespace Subsetter
open Spec

variable {σ D : Type} {W : Outside σ Val} {flush : List (List Val) → D → Except OutErr D} {p : OutPlan}

theorem Spec.Commits.append {d d1 d2 : D} {xs ys : List (List (List Val))} (h1 : Commits flush d xs d1)
    (h2 : Commits flush d1 ys d2) : Commits flush d (xs ++ ys) d2 := by
  induction h1 with
  | nil d => exact h2
  | cons h _ ih => exact .cons h (ih h2)

theorem Spec.Commits.det {d d1 d2 : D} {xs : List (List (List Val))} (h1 : Commits flush d xs d1)
    (h2 : Commits flush d xs d2) : d1 = d2 := by
  induction h1 with
  | nil d => cases h2; rfl
  | cons h _ ih =>
    cases h2 with
    | cons h' h2 => rw [h] at h'; cases h'; exact ih h2

/-- The copies produced for a list of items. -/
inductive Run (W : Outside σ Val) (p : OutPlan) : List (List Val × Nat) → σ → List (List Val) → σ → Prop
  | nil (s : σ) : Run W p [] s [] s
  | cons {x : List Val × Nat} {xs : List (List Val × Nat)} {s s1 s2 : σ} {o : List Val}
    {os : List (List Val)} : outRow W p x s = .ok (o, s1) → Run W p xs s1 os s2 →
    Run W p (x :: xs) s (o :: os) s2

theorem Run.length {xs : List (List Val × Nat)} {s s' : σ} {os : List (List Val)}
    (h : Run W p xs s os s') : os.length = xs.length := by
  induction h with
  | nil => rfl
  | cons _ _ ih => simp [ih]

theorem Run.trans {xs ys : List (List Val × Nat)} {s s1 s2 : σ} {os os' : List (List Val)}
    (h : Run W p xs s os s1) (h' : Run W p ys s1 os' s2) : Run W p (xs ++ ys) s (os ++ os') s2 := by
  induction h with
  | nil => exact h'
  | cons h _ ih => exact .cons h (ih h')

theorem Run.states {xs : List (List Val × Nat)} {s s' : σ} {os : List (List Val)}
    (h : Run W p xs s os s') : ∃ ss : Nat → σ, ss 0 = s ∧ ∀ (j : Nat) (x : List Val × Nat) (o : List Val),
      xs[j]? = some x → os[j]? = some o → outRow W p x (ss j) = .ok (o, ss (j + 1)) := by
  induction h with
  | nil s => exact ⟨fun _ => s, rfl, fun j x o hx => by simp at hx⟩
  | @cons x xs s s1 s2 o os h1 _ ih =>
    obtain ⟨ss, h2, h3⟩ := ih
    refine ⟨fun j => if j = 0 then s else ss (j - 1), by simp, fun j y o' hy ho => ?_⟩
    cases j with
    | zero =>
      simp only [List.getElem?_cons_zero, Option.some.injEq] at hy ho
      subst hy; subst ho
      simpa [h2] using h1
    | succ j =>
      simp only [List.getElem?_cons_succ] at hy ho
      simpa using h3 j y o' hy ho

theorem copies_length (m : Nat) (rows : List (List Val)) : (copies m rows).length = rows.length * m := by
  unfold copies
  induction rows with
  | nil => simp
  | cons r rs ih => simp only [List.flatMap_cons, List.length_append, ih]; simp [Nat.add_mul, Nat.add_comm]

theorem copies_get (m : Nat) : ∀ (rows : List (List Val)) {k i : Nat} {r : List Val}, rows[k]? = some r →
    i < m → (copies m rows)[k * m + i]? = some (r, i)
  | [], k, i, r, hk, _ => by simp at hk
  | r0 :: rs, k, i, r, hk, hi => by
    have he : copies m (r0 :: rs) = (List.range m).map (fun i => (r0, i)) ++ copies m rs := by
      simp [copies]
    rw [he]
    cases k with
    | zero =>
      simp only [List.getElem?_cons_zero, Option.some.injEq] at hk
      subst hk
      rw [List.getElem?_append_left (by simpa using hi)]
      simp [hi]
    | succ k =>
      simp only [List.getElem?_cons_succ] at hk
      rw [List.getElem?_append_right (by simp [Nat.add_mul]; omega)]
      have := copies_get m rs hk hi
      rw [← this]
      congr 1
      simp [Nat.add_mul]; omega

theorem Run.firstCopies {rows : List (List Val)} {pre : List (List Val × Nat)} {m : Nat} {s s' : σ}
    {os : List (List Val)} (h : Run W p pre s os s') (hp : pre <+: copies m rows) :
    FirstCopies (fun r i s o s' => r ∈ rows ∧ outRow W p (r, i) s = .ok (o, s')) m rows s os := by
  refine ⟨by rw [h.length, ← copies_length]; exact hp.length_le, ?_⟩
  obtain ⟨ss, h1, h2⟩ := h.states
  refine ⟨ss, h1, fun k i r o hr hi ho => ⟨List.mem_of_getElem? hr, h2 _ (r, i) o ?_ ho⟩⟩
  have h3 := copies_get m rows hr hi
  have h4 : k * m + i < pre.length := by
    rw [← h.length]
    rcases Nat.lt_or_ge (k * m + i) os.length with h | h
    · exact h
    · rw [List.getElem?_eq_none h] at ho; cases ho
  obtain ⟨t, ht⟩ := hp
  rw [← ht, List.getElem?_append_left h4] at h3
  exact h3

theorem Spec.FirstCopies.mono {ρ ο : Type} {step step' : ρ → Nat → σ → ο → σ → Prop} {m : Nat} {rows : List ρ}
    {s : σ} {outs : List ο} (h : FirstCopies step m rows s outs)
    (hs : ∀ r i s o s', i < m → step r i s o s' → step' r i s o s') :
    FirstCopies step' m rows s outs := by
  obtain ⟨h1, ss, h2, h3⟩ := h
  exact ⟨h1, ss, h2, fun k i r o hr hi ho => hs _ _ _ _ _ hi (h3 k i r o hr hi ho)⟩

/-! ### The loop -/

/-- What the loop has done between two states. -/
structure Progress (W : Outside σ Val) (flush : List (List Val) → D → Except OutErr D) (p : OutPlan)
    (st st' : WState σ D) (xs : List (List Val × Nat)) : Prop where
  ex : ∃ outs new s', Run W p xs st.world outs s' ∧ st'.written = st.written ++ new ∧
    new.flatten ++ st'.buffer = st.buffer ++ outs ∧ (∀ b ∈ new, b.length = p.buffer + 1) ∧
    Commits flush st.dest new st'.dest ∧ st'.buffer.length ≤ p.buffer ∧ s' = st'.world

theorem writeStep_ok {st st' : WState σ D} {x : List Val × Nat} (hb : st.buffer.length ≤ p.buffer)
    (h : writeStep W flush p st x = .ok st') : Progress W flush p st st' [x] := by
  unfold writeStep at h
  cases h1 : outRow W p x st.world with
  | error e => rw [h1] at h; cases h
  | ok q =>
    obtain ⟨row, s'⟩ := q
    rw [h1] at h
    dsimp only at h
    cases h2 : autoMax p st.auto row with
    | error e => rw [h2] at h; cases h
    | ok a =>
      rw [h2] at h
      dsimp only at h
      split at h
      · rename_i h3
        cases h4 : flush (st.buffer ++ [row]) st.dest with
        | error e => rw [h4] at h; cases h
        | ok d =>
          rw [h4] at h; cases h
          refine ⟨[row], [st.buffer ++ [row]], s', .cons h1 (.nil _), rfl, by simp, ?_, .cons h4 (.nil _),
            by simp, rfl⟩
          intro b hb'
          simp only [List.mem_singleton] at hb'
          subst hb'
          simp only [List.length_append, List.length_singleton] at h3 ⊢
          omega
      · rename_i h3
        cases h
        refine ⟨[row], [], s', .cons h1 (.nil _), by simp, by simp, by simp, .nil _, ?_, rfl⟩
        dsimp only
        omega

theorem Progress.trans {st st1 st2 : WState σ D} {xs ys : List (List Val × Nat)}
    (h1 : Progress W flush p st st1 xs) (h2 : Progress W flush p st1 st2 ys) :
    Progress W flush p st st2 (xs ++ ys) := by
  obtain ⟨o1, n1, s1, a1, a2, a3, a4, a5, a6, rfl⟩ := h1
  obtain ⟨o2, n2, s2, b1, b2, b3, b4, b5, b6, rfl⟩ := h2
  refine ⟨o1 ++ o2, n1 ++ n2, _, ?_, by rw [b2, a2, List.append_assoc], ?_, ?_, a5.append b5, b6, rfl⟩
  · exact a1.trans b1
  · rw [List.flatten_append, List.append_assoc, b3, ← List.append_assoc, a3, List.append_assoc]
  · intro b hb
    rcases List.mem_append.1 hb with h | h
    · exact a4 b h
    · exact b4 b h

theorem Progress.refl (st : WState σ D) (hb : st.buffer.length ≤ p.buffer) : Progress W flush p st st [] :=
  ⟨[], [], st.world, .nil _, by simp, by simp, by simp, .nil _, hb, rfl⟩

theorem Progress.buffer {st st' : WState σ D} {xs : List (List Val × Nat)} (h : Progress W flush p st st' xs) :
    st'.buffer.length ≤ p.buffer := by
  obtain ⟨_, _, _, _, _, _, _, _, h, _⟩ := h
  exact h

theorem writeStep_error {st : WState σ D} {x : List Val × Nat} {q : WState σ D × OutErr}
    (h : writeStep W flush p st x = .error q) : q.1 = st := by
  unfold writeStep at h
  cases h1 : outRow W p x st.world with
  | error e => rw [h1] at h; cases h; rfl
  | ok r =>
    obtain ⟨row, s'⟩ := r
    rw [h1] at h
    dsimp only at h
    cases h2 : autoMax p st.auto row with
    | error e => rw [h2] at h; cases h; rfl
    | ok a =>
      rw [h2] at h
      dsimp only at h
      split at h
      · cases h4 : flush (st.buffer ++ [row]) st.dest with
        | error e => rw [h4] at h; cases h; rfl
        | ok d => rw [h4] at h; cases h
      · cases h

theorem writeLoop_ok : ∀ {xs : List (List Val × Nat)} {st st' : WState σ D},
    st.buffer.length ≤ p.buffer → writeLoop W flush p xs st = .ok st' → Progress W flush p st st' xs
  | [], st, st', hb, h => by cases h; exact .refl _ hb
  | x :: xs, st, st', hb, h => by
    unfold writeLoop at h
    cases h1 : writeStep W flush p st x with
    | error e => rw [h1] at h; cases h
    | ok st1 =>
      rw [h1] at h
      have h2 := writeStep_ok hb h1
      exact h2.trans (writeLoop_ok h2.buffer h)

theorem writeLoop_error : ∀ {xs : List (List Val × Nat)} {st : WState σ D} {q : WState σ D × OutErr},
    st.buffer.length ≤ p.buffer → writeLoop W flush p xs st = .error q →
    ∃ pre, pre <+: xs ∧ Progress W flush p st q.1 pre
  | [], st, q, hb, h => by cases h
  | x :: xs, st, q, hb, h => by
    unfold writeLoop at h
    cases h1 : writeStep W flush p st x with
    | error e =>
      rw [h1] at h; cases h
      exact ⟨[], by simp, by rw [writeStep_error h1]; exact .refl _ hb⟩
    | ok st1 =>
      rw [h1] at h
      have h2 := writeStep_ok hb h1
      obtain ⟨pre, h3, h4⟩ := writeLoop_error h2.buffer h
      exact ⟨x :: pre, by simpa using h3, h2.trans h4⟩

theorem writeAll_ok {rows : List (List Val)} {d : D} {s : σ} {st : WState σ D}
    (h : writeAll W flush p rows d s = .ok st) :
    ∃ outs, Run W p (copies p.multiplier rows) s outs st.world ∧ st.written.flatten = outs ∧
      Batches (p.buffer + 1) st.written ∧ Commits flush d st.written st.dest ∧
      st.buffer = [] := by
  unfold writeAll at h
  cases h1 : writeLoop W flush p (copies p.multiplier rows) ⟨[], d, .null, s, []⟩ with
  | error e => rw [h1] at h; cases h
  | ok st1 =>
    rw [h1] at h
    dsimp only at h
    obtain ⟨outs, new, s', a1, a2, a3, a4, a5, a6, rfl⟩ := writeLoop_ok (by simp) h1
    simp only [List.nil_append] at a1 a2 a3 a5
    split at h
    · rename_i h2
      cases h
      rw [h2, List.append_nil] at a3
      refine ⟨outs, a1, by rw [a2, a3], ?_, by rw [a2]; exact a5, h2⟩
      rw [a2]
      refine ⟨fun b hb => ⟨?_, by rw [a4 b hb]⟩, fun b hb => a4 b (List.dropLast_subset _ hb)⟩
      rintro rfl
      have := a4 _ hb
      simp at this
    · rename_i h2
      cases h3 : flush st1.buffer st1.dest with
      | error e => rw [h3] at h; cases h
      | ok d' =>
        rw [h3] at h; cases h
        refine ⟨outs, a1, by rw [a2]; simpa using a3, ?_, ?_, rfl⟩
        · rw [a2]
          refine ⟨fun b hb => ?_, fun b hb => a4 b (by rwa [List.dropLast_concat] at hb)⟩
          rcases List.mem_append.1 hb with hb | hb
          · refine ⟨?_, by rw [a4 b hb]⟩
            rintro rfl
            have := a4 _ hb
            simp at this
          · simp only [List.mem_singleton] at hb
            subst hb
            exact ⟨h2, by omega⟩
        · rw [a2]
          exact a5.append (.cons h3 (.nil _))

theorem writeAll_error {rows : List (List Val)} {d : D} {s : σ} {q : WState σ D × OutErr}
    (h : writeAll W flush p rows d s = .error q) :
    ∃ pre outs, pre <+: copies p.multiplier rows ∧ Run W p pre s outs q.1.world ∧
      q.1.written.flatten <+: outs ∧
      (∀ b ∈ q.1.written, b.length = p.buffer + 1) ∧ Commits flush d q.1.written q.1.dest := by
  unfold writeAll at h
  cases h1 : writeLoop W flush p (copies p.multiplier rows) ⟨[], d, .null, s, []⟩ with
  | error e =>
    rw [h1] at h; cases h
    obtain ⟨pre, h2, outs, new, s', a1, a2, a3, a4, a5, a6, rfl⟩ := writeLoop_error (by simp) h1
    simp only [List.nil_append] at a1 a2 a3 a5
    exact ⟨pre, outs, h2, a1, by rw [a2, ← a3]; exact List.prefix_append _ _, by rw [a2]; exact a4,
      by rw [a2]; exact a5⟩
  | ok st1 =>
    rw [h1] at h
    dsimp only at h
    obtain ⟨outs, new, s', a1, a2, a3, a4, a5, a6, rfl⟩ := writeLoop_ok (by simp) h1
    simp only [List.nil_append] at a1 a2 a3 a5
    split at h
    · cases h
    · cases h3 : flush st1.buffer st1.dest with
      | ok d' => rw [h3] at h; cases h
      | error e =>
        rw [h3] at h; cases h
        exact ⟨_, outs, List.prefix_rfl, a1, by rw [a2, ← a3]; exact List.prefix_append _ _,
          by rw [a2]; exact a4, by rw [a2]; exact a5⟩

/-! ### One row -/

theorem multiplyAt_ok {m i : Int} : ∀ {is : List Nat} {row out : List Val}, is.Nodup →
    multiplyAt m i is row = .ok out → out.length = row.length ∧
      ∀ k : Nat, out[k]? = (row[k]?).map fun v => if k ∈ is then copyVal m i v else v
  | [], row, out, _, h => by cases h; simp
  | j :: is, row, out, hnd, h => by
    unfold multiplyAt at h
    cases h1 : row[j]? with
    | none => rw [h1] at h; cases h
    | some v =>
      rw [h1] at h
      dsimp only at h
      cases h2 : multiplyColumn v m i with
      | none => rw [h2] at h; cases h
      | some w =>
        rw [h2] at h
        simp only [List.nodup_cons] at hnd
        obtain ⟨h3, h4⟩ := multiplyAt_ok hnd.2 h
        refine ⟨by rw [h3, List.length_set], fun k => ?_⟩
        rw [h4]
        by_cases hk : j = k
        · subst hk
          have hlt : j < row.length := by
            rcases Nat.lt_or_ge j row.length with h | h
            · exact h
            · rw [List.getElem?_eq_none h] at h1; cases h1
          rw [List.getElem?_set_self hlt, h1]
          simp only [Option.map_some, hnd.1, if_false, List.mem_cons, true_or, if_true, Option.some.injEq]
          cases v <;> simp_all [multiplyColumn, copyVal]
        · rw [List.getElem?_set_ne hk]
          simp [Ne.symm hk]

theorem shiftAt_ok : ∀ {is : List (Nat × Int)} {row out : List Val}, (is.map Prod.fst).Nodup →
    shiftAt is row = .ok out → out.length = row.length ∧
      ∀ k : Nat, out[k]? = (row[k]?).map (shiftVal (dget is k))
  | [], row, out, _, h => by
    cases h
    refine ⟨rfl, fun k => ?_⟩
    cases row[k]? with
    | none => rfl
    | some v => cases v <;> simp [dget, shiftVal]
  | (j, o) :: is, row, out, hnd, h => by
    simp only [List.map_cons, List.nodup_cons] at hnd
    have hnone : dget is j = none := by
      cases hd : dget is j with
      | none => rfl
      | some w => exact absurd (List.mem_map.2 ⟨_, dget_some_mem hd, rfl⟩) hnd.1
    unfold shiftAt at h
    have key : ∀ {row' : List Val}, row'.length = row.length →
        (∀ k, k ≠ j → row'[k]? = row[k]?) →
        (row'[j]? = (row[j]?).map fun v => match v with | .int n => .int (n + o) | w => w) →
        shiftAt is row' = .ok out → out.length = row.length ∧
      ∀ k : Nat, out[k]? = (row[k]?).map (shiftVal (dget ((j, o) :: is) k)) := by
      intro row' hl hne hj h
      obtain ⟨h3, h4⟩ := shiftAt_ok hnd.2 h
      refine ⟨h3.trans hl, fun k => ?_⟩
      rw [h4]
      by_cases hk : k = j
      · subst hk
        rw [hj, hnone]
        cases row[k]? with
        | none => rfl
        | some v => cases v <;> simp [dget, shiftVal]
      · rw [hne k hk]
        have : dget ((j, o) :: is) k = dget is k := by simp [dget, Ne.symm hk]
        rw [this]
    cases h1 : row[j]? with
    | none => rw [h1] at h; cases h
    | some v =>
      have hlt : j < row.length := by
        rcases Nat.lt_or_ge j row.length with h | h
        · exact h
        · rw [List.getElem?_eq_none h] at h1; cases h1
      rw [h1] at h
      cases v with
      | null => exact key rfl (fun _ _ => rfl) (by rw [h1]; rfl) h
      | int n =>
        exact key (by simp) (fun k hk => List.getElem?_set_ne (Ne.symm hk))
          (by rw [h1, List.getElem?_set_self hlt]; rfl) h
      | str _ => cases h
      | other _ => cases h

theorem mem_indexesOf {cols : List Str} {q : Str → Bool} {k : Nat} :
    k ∈ indexesOf cols q ↔ ∃ c, cols[k]? = some c ∧ q c = true := by
  unfold indexesOf
  simp only [List.mem_map, List.mem_filter, Prod.exists, List.mem_zipIdx_iff_getElem?]
  constructor
  · rintro ⟨c, j, ⟨h1, h2⟩, rfl⟩
    exact ⟨c, h1, h2⟩
  · rintro ⟨c, h1, h2⟩
    exact ⟨c, k, ⟨h1, h2⟩, rfl⟩

theorem indexesOf_nodup {cols : List Str} {q : Str → Bool} : (indexesOf cols q).Nodup := by
  unfold indexesOf
  have h : (cols.zipIdx.map Prod.snd).Nodup := by
    rw [List.zipIdx_map_snd]
    exact List.nodup_range'
  exact (List.filter_sublist.map Prod.snd).nodup h

theorem offsetIndexes_keys_sublist (offsets : Dict Str Int) : ∀ (l : List (Str × Nat)),
    ((l.filterMap fun x => (dget offsets x.1).map fun o => (x.2, o)).map Prod.fst).Sublist (l.map Prod.snd)
  | [] => .slnil
  | (c, j) :: l => by
    have ih := offsetIndexes_keys_sublist offsets l
    cases h : dget offsets c with
    | none => simpa [List.filterMap_cons, h] using ih.cons j
    | some o => simpa [List.filterMap_cons, h] using ih

theorem offsetIndexes_nodup {cols : List Str} {offsets : Dict Str Int} :
    ((offsetIndexes cols offsets).map Prod.fst).Nodup := by
  refine (offsetIndexes_keys_sublist offsets cols.zipIdx).nodup ?_
  rw [List.zipIdx_map_snd]
  exact List.nodup_range'

theorem mem_offsetIndexes {cols : List Str} {offsets : Dict Str Int} {k : Nat} {o : Int} :
    (k, o) ∈ offsetIndexes cols offsets ↔ ∃ c, cols[k]? = some c ∧ dget offsets c = some o := by
  unfold offsetIndexes
  simp only [List.mem_filterMap, Prod.exists, List.mem_zipIdx_iff_getElem?, Option.map_eq_some_iff,
    Prod.mk.injEq]
  constructor
  · rintro ⟨c, j, h1, o', h2, rfl, rfl⟩
    exact ⟨c, h1, h2⟩
  · rintro ⟨c, h1, h2⟩
    exact ⟨c, k, h1, o, h2, rfl, rfl⟩

theorem dget_offsetIndexes {cols : List Str} {offsets : Dict Str Int} {k : Nat} {c : Str}
    (hc : cols[k]? = some c) : dget (offsetIndexes cols offsets) k = dget offsets c := by
  cases h : dget offsets c with
  | some o => exact dget_of_mem offsetIndexes_nodup (mem_offsetIndexes.2 ⟨c, hc, h⟩)
  | none =>
    cases h1 : dget (offsetIndexes cols offsets) k with
    | none => rfl
    | some o =>
      obtain ⟨d, h2, h3⟩ := mem_offsetIndexes.1 (dget_some_mem h1)
      rw [hc] at h2; cases h2
      rw [h] at h3; cases h3

theorem runViews_append {vs ws : List (View Val)} {r : List Val} {s s' : σ} {out : List Val}
    (h : runViews W (vs ++ ws) r s = .ok (out, s')) :
    ∃ f s1, runViews W vs r s = .ok (f, s1) ∧ runViews W ws f s1 = .ok (out, s') := by
  induction vs generalizing r s with
  | nil => exact ⟨r, s, rfl, h⟩
  | cons v vs ih =>
    simp only [List.cons_append, runViews] at h ⊢
    cases h1 : v.run W r s with
    | error e => rw [h1] at h; cases h
    | ok q =>
      obtain ⟨r1, s1⟩ := q
      rw [h1] at h
      exact ih h

/-- The row after multiplication and shifting, by column. -/
theorem outRow_values {r : List Val} {i : Nat} {s s' : σ} {o : List Val} {cols mult : List Str}
    {offsets : Dict Str Int} (hm : p.multiplied = indexesOf cols fun c => decide (c ∈ mult))
    (ho : p.offsets = offsetIndexes cols offsets) (hnd : cols.Nodup)
    (h : outRow W p (r, i) s = .ok (o, s')) :
    ∃ f, runViews W p.views r s = .ok (f, s') ∧ o.length = f.length ∧ (f.length = cols.length →
      ∀ c ∈ cols, ∃ v, valueOf cols f c = some v ∧
        valueOf cols o c = some (outVal mult p.multiplier i offsets c v)) := by
  unfold outRow at h
  dsimp only at h
  cases h1 : runViews W p.views r s with
  | error e => rw [h1] at h; cases h
  | ok q =>
    obtain ⟨f, s1⟩ := q
    rw [h1] at h
    dsimp only at h
    cases h2 : multiplyAt p.multiplier i p.multiplied f with
    | error e => rw [h2] at h; cases h
    | ok f1 =>
      rw [h2] at h
      dsimp only at h
      cases h3 : shiftAt p.offsets f1 with
      | error e => rw [h3] at h; cases h
      | ok f2 =>
        rw [h3] at h; cases h
        rw [hm] at h2
        rw [ho] at h3
        obtain ⟨h4, h5⟩ := multiplyAt_ok indexesOf_nodup h2
        obtain ⟨h6, h7⟩ := shiftAt_ok offsetIndexes_nodup h3
        refine ⟨f, rfl, h6.trans h4, fun hl c hc => ?_⟩
        obtain ⟨k, hk, hk'⟩ := List.mem_iff_getElem.1 hc
        have hc' : cols[k]? = some c := by rw [List.getElem?_eq_getElem hk, hk']
        rw [valueOf_eq hnd hl hc', valueOf_eq hnd (h6.trans (h4.trans hl)) hc', h7, h5,
          List.getElem?_eq_getElem (hl ▸ hk), dget_offsetIndexes hc']
        refine ⟨_, rfl, ?_⟩
        have : (k ∈ indexesOf cols fun c => decide (c ∈ mult)) ↔ c ∈ mult := by
          rw [mem_indexesOf]
          constructor
          · rintro ⟨d, h8, h9⟩
            rw [hc'] at h8; cases h8
            simpa using h9
          · intro h; exact ⟨c, hc', by simpa using h⟩
        simp only [Option.map_some, outVal, this]

theorem outPlan_buffer {x : OutInput} (h : outPlan x = .ok p) : p.buffer = x.buffer := by
  unfold outPlan at h
  dsimp only at h
  split at h
  · cases h
  · cases h; rfl

theorem outPlan_ok {x : OutInput} (h : outPlan x = .ok p) :
    (∀ c ∈ x.chain.colsOut, c ∈ x.dest.columns) ∧ p.colsOut = writtenColumns x.chain x.dest ∧
    p.multiplier = x.multiplier ∧ (p.multiplied = indexesOf p.colsOut fun c => decide (c ∈ x.mult)) ∧
    p.offsets = offsetIndexes p.colsOut x.offsets ∧
    (p.autoinc = x.autoincrement.bind fun c => firstIndex c p.colsOut) ∧
    ((p.views = x.chain.views ∧ p.colsOut = x.chain.colsOut) ∨ ∃ comp,
      p.views = x.chain.views ++ [.simple (mkOmit x.chain.colsOut comp)] ∧
      p.colsOut = (mkOmit (V := Val) x.chain.colsOut comp).colsOut ∧ (∀ c ∈ comp, c ∈ x.dest.computed)) := by
  unfold outPlan at h
  dsimp only at h
  split at h
  · cases h
  · rename_i h0
    have h0' : ∀ c ∈ x.chain.colsOut, c ∈ x.dest.columns := by
      intro c hc
      by_contra h1
      exact h0 fun h2 => by
        have : c ∈ x.chain.colsOut.filter fun c => decide (c ∉ x.dest.columns) :=
          List.mem_filter.2 ⟨hc, by simpa using h1⟩
        rw [h2] at this; cases this
    cases h
    refine ⟨h0', ?_, rfl, rfl, rfl, rfl, ?_⟩
    · dsimp only
      split
      · rename_i h1
        unfold writtenColumns
        symm
        rw [List.filter_eq_self]
        intro c hc
        have := List.filter_eq_nil_iff.1 h1 c hc
        simpa using this
      · change (mkOmit (V := Val) _ _).colsOut = _
        simp only [mkOmit, SimpleView.colsOut, writtenColumns]
        refine List.filter_congr fun c hc => ?_
        simp [List.mem_filter, hc]
    · dsimp only
      split
      · exact .inl ⟨rfl, rfl⟩
      · exact .inr ⟨_, rfl, rfl, fun c hc => by simpa using (List.mem_filter.1 hc).2⟩

end Subsetter
