import Verif.Proofs.SqlPlan
import Verif.Proofs.Blank

/- Queries of the planner consist of selects whose joins come from foreign keys and whose conditions come from the
configuration. -/
namespace Subsetter
open Spec

variable {k : Key} {J : Join → Prop} {P : Where → Prop}

theorem SelOf.simp (hP : Kept P) {x x' : Sel} (h : SelOf k J P x) {n : Nat} (hs : simpSel n x = .ok x') : SelOf k J P x' := by
  cases n with
  | zero => simp [simpSel] at hs
  | succ n =>
    simp only [simpSel] at hs
    cases hw : x.where_ with
    | none => rw [hw] at hs; cases hs; exact h
    | some w =>
      rw [hw] at hs
      simp only at hs
      cases h1 : simpW n w with
      | error e => rw [h1] at hs; cases hs
      | ok w' =>
        rw [h1] at hs; cases hs
        refine ⟨h.cols, h.from_, ?_, ?_⟩
        · intro j hj
          simp only [selFinish, Sel.joins] at hj
          refine h.joins j ?_
          obtain ⟨_, _, _, _, js, _, _⟩ := x
          simp only [Sel.joins] at hj ⊢
          rcases js with _ | _ | _ <;> exact hj
        · intro v hv
          simp only [selFinish, Sel.where_] at hv
          split at hv
          · cases hv
          · cases hv; exact hP.simp _ _ _ h1 (h.cond w hw)

theorem union_of (hP : Kept P) {xs : List Sel} {st : Stmt} (h : ∀ x ∈ xs, SelOf k J P x)
    (hs : (Stmt.union xs).simplify = .ok st) : StmtOf k J P st := by
  unfold Stmt.simplify at hs
  generalize (Stmt.union xs).size = n at hs
  cases n with
  | zero => simp [simpStmt] at hs
  | succ n =>
    simp only [simpStmt] at hs
    cases h1 : xs.mapM (simpSel n) with
    | error e => rw [h1] at hs; cases hs
    | ok all =>
      rw [h1] at hs
      simp only at hs
      have hall : ∀ s ∈ all.filter (fun s => !(s.where_.getD .true_).isFalse), SelOf k J P s := by
        intro s hs
        obtain ⟨a, ha, hab⟩ := forall₂_exists_right (mapM_ok_iff.1 h1) (List.mem_filter.1 hs).1
        exact (h a ha).simp hP hab
      revert hs hall
      generalize all.filter (fun s => !(s.where_.getD .true_).isFalse) = l
      intro hs hall
      rcases l with _ | ⟨s0, _ | ⟨s1, rest⟩⟩
      · cases xs with
        | nil => cases hs
        | cons s ss =>
          simp only at hs
          cases h2 : simpSel n s with
          | error e => rw [h2] at hs; cases hs
          | ok s' =>
            rw [h2] at hs; cases hs
            exact (h s (by simp)).simp hP h2
      · cases hs
        exact hall s0 (by simp)
      · simp only at hs
        by_cases hm : canMerge s0 (s0 :: s1 :: rest) = true
        · rw [if_pos hm] at hs
          cases h2 : simpSel n (mergedSel s0 (s0 :: s1 :: rest)) with
          | error e => rw [h2] at hs; cases hs
          | ok s' =>
            rw [h2] at hs; cases hs
            have h0 := hall s0 (by simp)
            refine SelOf.simp hP (x := mergedSel s0 (s0 :: s1 :: rest)) ⟨h0.cols, h0.from_, (fun j hj => by cases hj), ?_⟩ h2
            intro w hw
            simp only [mergedSel, Sel.where_mk, Option.some.injEq] at hw
            subst hw
            refine (hP.or_ _).2 fun c hc => ?_
            obtain ⟨s, hs, rfl⟩ := List.mem_map.1 hc
            cases hsw : s.where_ with
            | none => exact hP.true_
            | some w => exact (hall s hs).cond w hsw
        · rw [if_neg hm] at hs
          cases hs
          exact hall

theorem relationSel_of (hP : Kept P) {joins : List Join} {outer : Bool} {ws : List Where} (hj : ∀ j ∈ joins, J j)
    (h : ∀ w ∈ ws, P w) : SelOf k J P (relationSel k joins outer ws) := by
  refine ⟨rfl, rfl, hj, ?_⟩
  intro w hw
  simp only [relationSel, Sel.where_mk, Option.some.injEq] at hw
  subst hw
  exact (hP.and_ _).2 h

theorem targetSel_of (hP : Kept P) {x : TargetConfig} (h : ∀ w ∈ targetClauses x, P w) : SelOf k J P (targetSel k x) := by
  refine ⟨rfl, rfl, by simp [targetSel, Sel.joins], fun w hw => ?_⟩
  simp only [targetSel, Sel.where_mk, Option.some.injEq] at hw
  subst hw
  exact (hP.and_ _).2 h

theorem constraintClauses_of {m : TableMeta} {cs : List ColumnConstraint} {ws : List Where}
    (h : constraintClauses m cs = .ok ws) (hc : ∀ x ∈ cs, P (.op x.operator x.column x.value)) : ∀ w ∈ ws, P w := by
  induction cs generalizing ws with
  | nil => cases h; simp
  | cons c cs ih =>
    simp only [constraintClauses] at h
    split at h
    · cases h1 : constraintClauses m cs with
      | error e => rw [h1] at h; cases h
      | ok ws' =>
        rw [h1] at h
        cases h
        intro w hw
        rcases List.mem_cons.1 hw with rfl | hw
        · exact hc c (.head _)
        · exact ih h1 (fun x hx => hc x (.tail _ hx)) w hw
    · cases h

theorem PlanShape.of {cfg : PlannerConfig} {ign pass : List Key} {T0 T' : Tables} {found ord : List Key} {p : Plan}
    (hT : TablesOK T0) (hp : PlanShape cfg ign pass T0 T' found ord p) {J : Key → Join → Prop} {P : Key → Where → Prop}
    (hP : ∀ k, Kept (P k))
    (hfk : ∀ a fk b, HasFk T0 a fk b → ∀ j : Join,
      (j.right = ⟨b.1, b.2, true⟩ → j.leftColumns = fk.columns → j.rightColumns = fk.dstColumns → J a j) ∧
      (j.right = ⟨a.1, a.2, true⟩ → j.leftColumns = fk.dstColumns → j.rightColumns = fk.columns → J b j))
    (hcon : ∀ k ∈ ord, ∀ x ∈ (dget cfg.tableConstraints k.str).getD [], P k (.op x.operator x.column x.value))
    (htg : ∀ k ∈ ord, ∀ x, dget cfg.targets k.str = some x → ∀ w ∈ targetClauses x, P k w) :
    ∀ n q, (n, q) ∈ p.queries → ∃ k, parseTableName n = some k ∧ ∃ st, q = .statement st ∧ StmtOf k (J k) (P k) st := by
  intro n q hq
  have hn : n ∈ p.queries.map Prod.fst := List.mem_map_of_mem (f := Prod.fst) hq
  rw [hp.keys] at hn
  obtain ⟨k, hk, rfl⟩ := List.mem_map.1 hn
  refine ⟨k, parse_of_nodot (found_nodot hT (hp.inT hT hk)), ?_⟩
  have hpl := hp.planned_of_mem hT hk hq
  rcases List.mem_append.1 hk with h | h
  · have := hp.planned_unique hT hpl (hp.planned_of_mem hT hk (hp.passq k h))
    subst this
    exact ⟨_, rfl, rfl, rfl, (fun j hj => by cases hj), (fun w hw => by cases hw)⟩
  · obtain ⟨pre, post, he⟩ := List.append_of_mem h
    obtain ⟨t, q', ht, h2, h3⟩ := hp.ordq pre k post he
    have := hp.planned_unique hT hpl (hp.planned_of_mem hT hk h3)
    subst this
    obtain ⟨st, rfl, hsh⟩ := planTable_shape h2
    refine ⟨st, rfl, ?_⟩
    have hke := hp.key_eq' hT ht
    have hjF : ∀ {joins : List Join}, (sortFks (fksTo t (pre ++ [k]))).mapM (fkJoin T' t) = .ok joins → ∀ j ∈ joins, J k j := by
      intro joins hj j hjm
      obtain ⟨fk, g1, -, g2, g3, g4⟩ := (joins_spec hj).1 j hjm
      obtain ⟨g5, -⟩ := (hp.mem_fksTo hT ht).1 g1
      exact (hfk _ _ _ g5 j).1 g2 g3 g4
    have hjR : ∀ {joins : List Join}, (sortFks (revsTo t (pre ++ [k]))).mapM (fkJoin T' t) = .ok joins → ∀ j ∈ joins, J k j := by
      intro joins hj j hjm
      obtain ⟨fk, g1, -, g2, g3, g4⟩ := (joins_spec hj).1 j hjm
      obtain ⟨a, fk', g5, rfl, -⟩ := (hp.mem_revsTo hT ht).1 g1
      exact (hfk _ _ _ g5 j).2 g2 g3 g4
    generalize hx : dget cfg.targets k.str = target at hsh
    cases hsh with
    | forward hF hR hj hw hs =>
      rw [hke] at hs hw
      refine union_of (hP k) (fun x hx => ?_) hs
      rw [List.mem_singleton.1 hx]
      exact relationSel_of (hP k) (hjF hj) (constraintClauses_of hw (hcon k h))
    | backward hF hR hC hj hs =>
      rw [hke] at hs
      refine union_of (hP k) (fun x hx => ?_) hs
      rw [List.mem_singleton.1 hx]
      exact relationSel_of (hP k) (hjR hj) (by simp)
    | target hF hR hw hs =>
      rw [hke] at hs
      refine union_of (hP k) (fun y hy => ?_) hs
      rw [List.mem_singleton.1 hy]
      exact targetSel_of (hP k) (htg k h _ hx)
    | both hF hR ha hC hj hs =>
      rw [hke] at hs
      refine union_of (hP k) (fun y hy => ?_) hs
      simp only [List.mem_cons, List.not_mem_nil, or_false] at hy
      rcases hy with rfl | rfl
      · exact relationSel_of (hP k) (hjR hj) (by simp)
      · exact targetSel_of (hP k) (htg k h _ hx)

theorem kept_blind {E : Engine} {t : TableId} {h : List Str} : Kept (WBlind E t h) :=
  ⟨trivial, trivial, fun _ => wblinds_iff, fun _ => wblinds_iff, fun _ _ _ h => h⟩

/-- Clauses of a target do not read hidden columns. -/
theorem targetClauses_blind {E : Engine} {x : TargetConfig} {h : List Str}
    (hc : ∀ c, c ∈ dkeys x.like ∨ c ∈ dkeys x.in_ → c ∉ h)
    (hsql : ∀ text, x.sql = some text → ∀ r, E.sql text ⟨k.1, k.2, false⟩ (blank h r) = E.sql text ⟨k.1, k.2, false⟩ r) :
    ∀ w ∈ targetClauses x, WBlind E ⟨k.1, k.2, false⟩ h w := by
  intro w hw
  unfold targetClauses at hw
  split at hw
  · cases hw
  · simp only [List.mem_append, List.mem_flatMap, List.mem_map] at hw
    rcases hw with ((hw | hw) | ⟨p, hp, pat, hpat, rfl⟩) | ⟨p, hp, rfl⟩
    · cases hq : x.percent with
      | none => rw [hq] at hw; cases hw
      | some q =>
        rw [hq] at hw
        simp only [List.mem_singleton] at hw
        subst hw
        trivial
    · cases hq : x.sql with
      | none => rw [hq] at hw; cases hw
      | some q =>
        rw [hq] at hw
        simp only [List.mem_singleton] at hw
        subst hw
        exact hsql q hq
    · exact hc p.1 (.inl (List.mem_map_of_mem (f := Prod.fst) hp))
    · intro c hcm
      simp only [List.mem_singleton] at hcm
      subst hcm
      exact hc p.1 (.inr (List.mem_map_of_mem (f := Prod.fst) hp))

end Subsetter
