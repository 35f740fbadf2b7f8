import Verif.Proofs.Simplify

/- JOIN + GROUP BY and EXISTS compute the same rows. -/
set_option linter.unusedSimpArgs false
namespace Subsetter
open Spec

theorem eq3_eq_true {a b : Val} : eq3 a b = some true ↔ a ≠ .null ∧ a = b := by
  unfold eq3
  by_cases h : a = .null ∨ b = .null
  · rw [if_pos h]
    constructor
    · intro h; cases h
    · rintro ⟨h1, h2⟩; rcases h with h | h
      · exact absurd h h1
      · exact absurd (h2.trans h) h1
  · rw [if_neg h]
    rw [not_or] at h
    simp [h.1]

theorem onTrue_iff {j : Join} {r m : Row} :
    onTrue j r m = true ↔ Refers j.leftColumns j.rightColumns r m := by
  unfold onTrue Refers
  rw [beq_iff_eq, all3_true]
  simp only [List.mem_map, forall_exists_index, and_imp, forall_apply_eq_imp_iff₂, eq3_eq_true]

theorem existsCond_iff {D : Env} {j : Join} {r : Row} :
    existsCond D j r = true ↔ ∃ m ∈ D.rows j.right, Refers j.leftColumns j.rightColumns r m := by
  simp [existsCond, onTrue_iff]

theorem exists_joinTuples {D : Env} {outer : Bool} {r : Row} {js : List Join} :
    (∃ t, t ∈ joinTuples D outer r js) ↔ ∀ j ∈ js, joinRow D outer j r ≠ [] := by
  induction js with
  | nil => simp [joinTuples]
  | cons j js ih =>
    rw [List.forall_mem_cons, ← ih]
    simp only [joinTuples, List.mem_flatMap, List.mem_map]
    constructor
    · rintro ⟨t, m, hm, t', ht', rfl⟩
      exact ⟨List.ne_nil_of_mem hm, t', ht'⟩
    · rintro ⟨h1, t', ht'⟩
      obtain ⟨m, hm⟩ := List.exists_mem_of_ne_nil _ h1
      exact ⟨m :: t', m, hm, t', ht', rfl⟩

theorem joinRow_inner_ne {D : Env} {j : Join} {r : Row} :
    joinRow D false j r ≠ [] ↔ existsCond D j r = true := by
  unfold joinRow existsCond
  simp [List.filter_eq_nil_iff]

theorem joinRow_outer_ne {D : Env} {j : Join} {r : Row} : joinRow D true j r ≠ [] := by
  unfold joinRow
  by_cases h : ((D.rows j.right).filter (onTrue j r)).isEmpty = true
  · simp [h]
  · simp only [h]
    simpa using h

theorem mem_joinRow_some {D : Env} {outer : Bool} {j : Join} {r m : Row} :
    some m ∈ joinRow D outer j r ↔ m ∈ D.rows j.right ∧ onTrue j r m = true := by
  unfold joinRow
  by_cases h : (outer && ((D.rows j.right).filter (onTrue j r)).isEmpty) = true
  · simp only [h]
    simp only [Bool.and_eq_true, List.isEmpty_iff, List.filter_eq_nil_iff] at h
    simp only [if_true, List.mem_singleton, reduceCtorEq, false_iff, not_and]
    exact h.2 m
  · simp only [h]
    simp

theorem refers_right_ne_null {lc rc : List Str} {r m : Row} (hl : lc.length = rc.length)
    (h : Refers lc rc r m) {c : Str} (hc : c ∈ rc) : m.get c ≠ .null := by
  obtain ⟨i, hi, rfl⟩ := List.mem_iff_getElem.1 hc
  have := h (lc[i], rc[i]) (by
    rw [List.mem_iff_getElem]
    exact ⟨i, by simp; omega, by simp⟩)
  rw [← this.2]; exact this.1

theorem exists_outer {D : Env} {r : Row} {hs : List Join} (hwf : ∀ j ∈ hs, j.WellFormed) :
    (∃ t ∈ joinTuples D true r hs, (notNullConds hs t).any id = true) ↔
      ∃ j ∈ hs, existsCond D j r = true := by
  induction hs with
  | nil => simp [joinTuples, notNullConds]
  | cons j js ih =>
    have hj := hwf j (by simp)
    have ih := ih (fun x hx => hwf x (by simp [hx]))
    rw [List.exists_mem_cons_iff, ← ih]
    simp only [joinTuples, List.mem_flatMap, List.mem_map]
    constructor
    · rintro ⟨t, ⟨m, hm, t', ht', rfl⟩, hany⟩
      simp only [notNullConds, List.any_append, Bool.or_eq_true] at hany
      rcases hany with hany | hany
      · left
        cases m with
        | none => simp at hany
        | some m =>
          obtain ⟨h1, h2⟩ := mem_joinRow_some.1 hm
          exact existsCond_iff.2 ⟨m, h1, onTrue_iff.1 h2⟩
      · exact Or.inr ⟨t', ht', hany⟩
    · rintro (h | ⟨t', ht', hany⟩)
      · obtain ⟨m, hm, href⟩ := existsCond_iff.1 h
        obtain ⟨t', ht'⟩ := exists_joinTuples.2 (fun x (_ : x ∈ js) =>
          (joinRow_outer_ne : joinRow D true x r ≠ []))
        refine ⟨some m :: t', ⟨some m, mem_joinRow_some.2 ⟨hm, onTrue_iff.2 href⟩, t', ht', rfl⟩, ?_⟩
        simp only [notNullConds, List.any_append, Bool.or_eq_true]
        left
        obtain ⟨c, hc⟩ := List.exists_mem_of_ne_nil _ hj.2
        simp only [List.any_map, List.any_eq_true]
        exact ⟨c, hc, by simpa using refers_right_ne_null hj.1 href hc⟩
      · obtain ⟨m, hm⟩ := List.exists_mem_of_ne_nil _
          (joinRow_outer_ne : joinRow D true j r ≠ [])
        refine ⟨m :: t', ⟨m, hm, t', ht', rfl⟩, ?_⟩
        simp only [notNullConds, List.any_append, Bool.or_eq_true]
        exact Or.inr hany

theorem notNullConds_isEmpty {hs : List Join} (hwf : ∀ j ∈ hs, j.WellFormed) (hne : hs ≠ [])
    {D : Env} {o : Bool} {r : Row} {t : List (Option Row)} (ht : t ∈ joinTuples D o r hs) :
    (notNullConds hs t).isEmpty = false := by
  cases hs with
  | nil => exact absurd rfl hne
  | cons j js =>
    simp only [joinTuples, List.mem_flatMap, List.mem_map] at ht
    obtain ⟨m, -, t', -, rfl⟩ := ht
    have := (hwf j (by simp)).2
    cases hrc : j.rightColumns with
    | nil => exact absurd hrc this
    | cons c cs => simp [notNullConds, hrc]

theorem ne_nil_iff_mem {α : Type} {l : List α} : l ≠ [] ↔ ∃ x, x ∈ l :=
  ⟨List.exists_mem_of_ne_nil l, fun ⟨_, h⟩ => List.ne_nil_of_mem h⟩

theorem exists_mem_and_const {α : Type} {l : List α} {p : Prop} :
    (∃ x ∈ l, p) ↔ (∃ x, x ∈ l) ∧ p := by
  constructor
  · rintro ⟨x, h, hp⟩; exact ⟨⟨x, h⟩, hp⟩
  · rintro ⟨⟨x, h⟩, hp⟩; exact ⟨x, h, hp⟩

/-- Some joined tuple of the row survives iff the row satisfies the join specification. -/
theorem exists_tuple_iff {D : Env} {t : TableId} {js : List Join} {outer : Bool} {r : Row}
    (hne : js ≠ []) (hwf : ∀ j ∈ js, j.WellFormed) :
    (∃ tup ∈ joinTuples D outer r (js.filter (useJoin D t)),
      joinCond D outer r (js.filter (useJoin D t)) (js.filter fun x => !useJoin D t x) tup = true) ↔
    JoinOK D js outer r := by
  have hsplit : ∀ j, j ∈ js ↔ j ∈ js.filter (useJoin D t) ∨ j ∈ js.filter fun x => !useJoin D t x := by
    intro j
    simp only [List.mem_filter]
    cases useJoin D t j <;> simp
  have hwf' : ∀ j ∈ js.filter (useJoin D t), j.WellFormed := fun j hj => hwf j (List.mem_filter.1 hj).1
  have hsum : js.filter (useJoin D t) ≠ [] ∨ (js.filter fun x => !useJoin D t x) ≠ [] := by
    obtain ⟨j, hj⟩ := List.exists_mem_of_ne_nil _ hne
    rcases (hsplit j).1 hj with h | h
    · exact Or.inl (List.ne_nil_of_mem h)
    · exact Or.inr (List.ne_nil_of_mem h)
  cases outer with
  | false =>
    simp only [joinCond, JoinOK, Bool.false_eq_true, if_false]
    rw [exists_mem_and_const, exists_joinTuples]
    simp only [joinRow_inner_ne, List.all_map, List.all_eq_true, Function.comp, id]
    constructor
    · rintro ⟨h1, h2⟩ j hj
      rcases (hsplit j).1 hj with h | h
      · exact existsCond_iff.1 (h1 j h)
      · exact existsCond_iff.1 (h2 j h)
    · intro h
      exact ⟨fun j hj => existsCond_iff.2 (h j ((hsplit j).2 (Or.inl hj))),
        fun j hj => existsCond_iff.2 (h j ((hsplit j).2 (Or.inr hj)))⟩
  | true =>
    simp only [joinCond, JoinOK, if_true]
    constructor
    · rintro ⟨tup, htup, h⟩
      rw [Bool.or_eq_true] at h
      rcases h with h | h
      · exfalso
        rw [List.isEmpty_iff, List.append_eq_nil_iff] at h
        rcases hsum with h' | h'
        · have := notNullConds_isEmpty hwf' h' htup
          rw [h.2] at this; simp at this
        · simp at h; simp at h'
          obtain ⟨x, hx, hx'⟩ := h'
          simp [h.1 x hx] at hx'
      · rw [List.any_append, Bool.or_eq_true] at h
        rcases h with h | h
        · simp only [List.any_map, List.any_eq_true, Function.comp, id] at h
          obtain ⟨j, hj, h⟩ := h
          exact ⟨j, (hsplit j).2 (Or.inr hj), existsCond_iff.1 h⟩
        · obtain ⟨j, hj, h⟩ := (exists_outer hwf').1 ⟨tup, htup, h⟩
          exact ⟨j, (hsplit j).2 (Or.inl hj), existsCond_iff.1 h⟩
    · rintro ⟨j, hj, h⟩
      rcases (hsplit j).1 hj with hj | hj
      · obtain ⟨tup, htup, h⟩ := (exists_outer (r := r) (D := D) hwf').2 ⟨j, hj, existsCond_iff.2 h⟩
        exact ⟨tup, htup, by rw [List.any_append, h]; simp⟩
      · obtain ⟨tup, htup⟩ := exists_joinTuples.2 (fun x (_ : x ∈ js.filter (useJoin D t)) =>
          (joinRow_outer_ne : joinRow D true x r ≠ []))
        refine ⟨tup, htup, ?_⟩
        rw [List.any_append]
        simp only [Bool.or_eq_true, List.any_map, List.any_eq_true, Function.comp, id]
        exact Or.inr (Or.inl ⟨j, hj, existsCond_iff.2 h⟩)

theorem groupBy_replicate (key : Row → List Val) :
    ∀ (L : List (Row × Nat)) (f : Row × Nat → Nat) (seen : List (List Val)),
      (L.map fun p => key p.1).Nodup → (∀ p ∈ L, key p.1 ∉ seen) →
      groupBy key (L.flatMap fun p => List.replicate (f p) p.1) seen =
        (L.filter fun p => decide (f p ≠ 0)).map Prod.fst := by
  have skip : ∀ (k : Nat) (r : Row) (l : List Row) (seen : List (List Val)), key r ∈ seen →
      groupBy key (List.replicate k r ++ l) seen = groupBy key l seen := by
    intro k r l seen h
    induction k with
    | zero => rfl
    | succ k ih => rw [List.replicate_succ, List.cons_append, groupBy, if_pos h, ih]
  intro L
  induction L with
  | nil => intro f seen _ _; rfl
  | cons p L ih =>
    intro f seen hnd hseen
    rw [List.map_cons, List.nodup_cons] at hnd
    rw [List.flatMap_cons]
    cases hk : f p with
    | zero =>
      rw [List.replicate_zero, List.nil_append, ih f seen hnd.2 (fun q hq => hseen q (by simp [hq]))]
      simp [List.filter_cons, hk]
    | succ k =>
      rw [List.replicate_succ, List.cons_append, groupBy, if_neg (hseen p (by simp)),
        skip k _ _ _ (by simp), ih f _ hnd.2]
      · simp [List.filter_cons, hk]
      · intro q hq hmem
        rcases List.mem_cons.1 hmem with h | h
        · exact hnd.1 (h ▸ List.mem_map_of_mem (f := fun p : Row × Nat => key p.1) hq)
        · exact hseen q (by simp [hq]) h

open Classical in
/-- The rows a select with joins sees, whatever strategy each join uses. -/
theorem fromWhere_eq {D : Env} {t : TableId} {js : List Join} {outer : Bool}
    {cond : Nat → Row → Bool} (hne : js ≠ []) (hwf : ∀ j ∈ js, j.WellFormed)
    (hpk : D.pk t ≠ [] → ((D.rows t).map fun r => (D.pk t).map r.get).Nodup) :
    fromWhere D t (some js) outer cond =
      ((D.rows t).zipIdx.filter fun p => decide (JoinOK D js outer p.1) && cond p.2 p.1).map
        Prod.fst := by
  obtain ⟨j, js, rfl⟩ := List.exists_cons_of_ne_nil hne
  simp only [fromWhere]
  have key : ∀ (p : Row × Nat),
      (((joinTuples D outer p.1 ((j :: js).filter (useJoin D t))).filter fun tup =>
        joinCond D outer p.1 ((j :: js).filter (useJoin D t))
          ((j :: js).filter fun x => !useJoin D t x) tup && cond p.2 p.1).length ≠ 0) ↔
      (decide (JoinOK D (j :: js) outer p.1) && cond p.2 p.1) = true := by
    intro p
    rw [Bool.and_eq_true, decide_eq_true_iff, ← exists_tuple_iff (t := t) hne hwf, Ne,
      List.length_eq_zero_iff]
    rw [← Ne, ne_nil_iff_mem]
    simp only [List.mem_filter, Bool.and_eq_true]
    constructor
    · rintro ⟨x, h1, h2, h3⟩; exact ⟨⟨x, h1, h2⟩, h3⟩
    · rintro ⟨⟨x, h1, h2⟩, h3⟩; exact ⟨x, h1, h2, h3⟩
  simp only [List.map_const']
  by_cases hh : ((j :: js).filter (useJoin D t)).isEmpty = true
  · rw [if_pos hh]
    rw [List.isEmpty_iff] at hh
    rw [hh] at key ⊢
    simp only [joinTuples] at key ⊢
    revert key
    generalize (List.filter (fun x => !useJoin D t x) (j :: js)) = es
    intro key
    generalize (D.rows t).zipIdx = L
    induction L with
    | nil => rfl
    | cons p L ih =>
      rw [List.flatMap_cons, ih, List.filter_cons (xs := L)]
      have hk := key p
      cases hb : (joinCond D outer p.1 [] es [] && cond p.2 p.1) with
      | true =>
        have hk' : (decide (JoinOK D (j :: js) outer p.1) && cond p.2 p.1) = true := by
          rw [← hk, List.filter_cons, hb]; simp
        rw [List.filter_cons, hb, hk']; rfl
      | false =>
        have hk' : (decide (JoinOK D (j :: js) outer p.1) && cond p.2 p.1) = false := by
          rw [← Bool.not_eq_true, ← hk, List.filter_cons, hb]; simp
        rw [List.filter_cons, hb, hk']; rfl
  · rw [if_neg hh]
    have hpkne : D.pk t ≠ [] := by
      intro h
      apply hh
      rw [List.isEmpty_iff, List.filter_eq_nil_iff]
      intro x _
      simp [useJoin, h]
    rw [groupBy_replicate]
    · congr 1
      apply List.filter_congr
      intro p _
      rw [Bool.eq_iff_iff, decide_eq_true_iff]
      exact key p
    · have := hpk hpkne
      have h2 : (D.rows t).zipIdx.map (fun p : Row × Nat => (D.pk t).map p.1.get) =
          (D.rows t).map fun r => (D.pk t).map r.get := by
        conv_rhs => rw [← List.zipIdx_map_fst 0 (D.rows t)]
        rw [List.map_map]; rfl
      exact h2 ▸ this
    · simp

end Subsetter
