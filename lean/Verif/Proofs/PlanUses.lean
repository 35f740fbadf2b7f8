import Verif.Proofs.PlanTop

/- Tables whose rows are chosen by references of sampled rows use these sampled rows. -/
namespace Subsetter
open Spec

theorem simpSel_keeps {n : Nat} {s s' : Sel} (h : simpSel n s = .ok s') :
    (∀ j ∈ s.joins.getD [], j ∈ s'.joins.getD []) ∧ s'.limit = s.limit := by
  cases n with
  | zero => simp [simpSel] at h
  | succ n =>
    rw [simpSel] at h
    cases hw : s.where_ with
    | none => rw [hw] at h; cases h; exact ⟨fun j hj => hj, rfl⟩
    | some w =>
      rw [hw] at h
      dsimp only at h
      cases h1 : simpW n w with
      | error e => rw [h1] at h; cases h
      | ok w' =>
        rw [h1] at h
        cases h
        refine ⟨fun j hj => ?_, rfl⟩
        simp only [selFinish, Sel.joins_mk]
        cases hj' : s.joins with
        | none => rw [hj'] at hj; simp at hj
        | some l =>
          rw [hj'] at hj
          cases l with
          | nil => simp at hj
          | cons a l => simpa using hj

theorem simplify_single_refs {s : Sel} {st : Stmt} (h : (Stmt.union [s]).simplify = .ok st) {j : Join}
    (hj : j ∈ s.joins.getD []) : j.right ∈ st.refs := by
  unfold Stmt.simplify at h
  revert h
  generalize (Stmt.union [s]).size = n
  intro h
  cases n with
  | zero => simp [simpStmt] at h
  | succ n =>
    simp only [simpStmt] at h
    cases h1 : [s].mapM (simpSel n) with
    | error e => rw [h1] at h; cases h
    | ok all =>
      rw [h1] at h
      obtain ⟨s', h2, rfl⟩ := mapM_one h1
      have hk : j.right ∈ (Stmt.select s').refs := by
        rw [Stmt.refs, mem_selRefs]
        exact .inr (.inl ⟨j, (simpSel_keeps h2).1 j hj, rfl⟩)
      by_cases hf : (s'.where_.getD .true_).isFalse = true
      · simp only [List.filter_cons, hf, Bool.not_true, Bool.false_eq_true, if_false,
          List.filter_nil, h2] at h
        cases h
        exact hk
      · simp only [List.filter_cons, hf, Bool.not_false, if_true, List.filter_nil] at h
        cases h
        exact hk

theorem simplify_pair_refs {k : Key} {joins : List Join} {outer : Bool} {s2 : Sel} {st : Stmt}
    (hl : s2.limit.isSome = true)
    (h : (Stmt.union [relationSel k joins outer [], s2]).simplify = .ok st) {j : Join}
    (hj : j ∈ joins) : j.right ∈ st.refs := by
  unfold Stmt.simplify at h
  revert h
  generalize (Stmt.union [relationSel k joins outer [], s2]).size = n
  intro h
  cases n with
  | zero => simp [simpStmt] at h
  | succ n =>
    simp only [simpStmt] at h
    cases h1 : [relationSel k joins outer [], s2].mapM (simpSel n) with
    | error e => rw [h1] at h; cases h
    | ok all =>
      rw [h1] at h
      obtain ⟨s1', s2', h2, h3, rfl⟩ := mapM_two h1
      have hk : j.right ∈ s1'.refs := by
        rw [mem_selRefs]
        exact .inr (.inl ⟨j, (simpSel_keeps h2).1 j (by simpa [relationSel] using hj), rfl⟩)
      have hw : s1'.where_ = none := by
        cases n with
        | zero => simp [simpSel] at h2
        | succ n =>
          rw [simpSel] at h2
          simp only [relationSel, Sel.where_mk] at h2
          cases n with
          | zero => simp [simpW] at h2
          | succ n =>
            have e : simpW (n + 1) (.and []) = .ok .true_ := by
              rw [simpW]; rfl
            rw [e] at h2
            cases h2
            rfl
      have hf1 : (s1'.where_.getD .true_).isFalse = false := by rw [hw]; rfl
      by_cases hf : (s2'.where_.getD .true_).isFalse = true
      · simp only [List.filter_cons, hf, hf1, Bool.not_true, Bool.not_false, if_true, Bool.false_eq_true, if_false,
          List.filter_nil] at h
        cases h
        exact hk
      · simp only [List.filter_cons, hf, hf1, Bool.not_false, if_true, List.filter_nil] at h
        have hc : canMerge s1' [s1', s2'] = false := by
          have : s2'.limit.isNone = false := by
            rw [(simpSel_keeps h3).2]
            cases hs : s2.limit with
            | none => rw [hs] at hl; cases hl
            | some m => rfl
          simp [canMerge, this]
        rw [hc] at h
        simp only [Bool.false_eq_true, if_false] at h
        cases h
        simp only [Stmt.refs]
        exact mem_selRefss.2 ⟨s1', by simp, hk⟩

/-- A table after `a` that `a` refers to uses the sample of `a`, unless it is a target that is not limited. -/
theorem PlanShape.needs_back {cfg : PlannerConfig} {ign pass : List Key} {T T' : Tables} {found ord : List Key}
    {p : Plan} (hT : TablesOK T) (hp : PlanShape cfg ign pass T T' found ord p) {pre post : List Key} {a b : Key}
    (he : ord = pre ++ b :: post) (ha : a ∈ pre) (h : Ref T a b)
    (hx : ∀ x, dget cfg.targets b.str = some x → x.all = false ∧ x.amount ≠ none) : Needs p b a := by
  obtain ⟨t, q, ht, hq, hmem⟩ := hp.ordq pre b post he
  have hpl := hp.planned_of_mem hT (by simp [hp.mem_ord hT he]) hmem
  obtain ⟨st, rfl, hsh⟩ := planTable_shape hq
  have hRne := (hp.revsTo_ne hT he ht).2 ⟨a, ha, h⟩
  obtain ⟨fk, hfk⟩ := h
  have hrev : (⟨fk.dstColumns, a.1, a.2, fk.columns⟩ : ForeignKey) ∈ revsTo t (pre ++ [b]) :=
    (hp.mem_revsTo hT ht).2 ⟨a, fk, hfk, rfl, by simp [ha]⟩
  have hjoin : ∀ joins, (sortFks (revsTo t (pre ++ [b]))).mapM (fkJoin T' t) = .ok joins →
      ∃ j ∈ joins, j.right = a.id true := by
    intro joins hj
    obtain ⟨j, h1, h2⟩ := (joins_spec hj).2 _ hrev
    exact ⟨j, h1, h2.2.1⟩
  have hdone : a.id true ∈ st.refs := by
    generalize hx' : dget cfg.targets b.str = target at hsh
    cases hsh with
    | forward hF hR hj hw hs => exact absurd hR hRne
    | @backward joins st hF hR hC hj hs =>
      obtain ⟨j, h1, h2⟩ := hjoin joins hj
      rw [← h2]
      exact simplify_single_refs hs (by simpa [relationSel] using h1)
    | @target x st hF hR hw hs =>
      rcases hR with hR | hR
      · have := (hx x hx').1
        rw [hR] at this
        cases this
      · exact absurd hR hRne
    | @both x joins st hF hR ha hC hj hs =>
      obtain ⟨j, h1, h2⟩ := hjoin joins hj
      rw [← h2]
      refine simplify_pair_refs ?_ hs h1
      cases hn : x.amount with
      | none => exact absurd hn (hx x hx').2
      | some m => simp [targetSel, hn]
  exact ⟨_, hpl, a.id true, hdone, rfl, rfl⟩

end Subsetter
