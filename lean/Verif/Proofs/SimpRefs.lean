import Verif.Model.Exec
import Verif.Proofs.Simplify

/- Simplification introduces no references to tables. -/
namespace Subsetter

theorem mem_refss {ws : List Where} {x : TableId} : x ∈ Where.refss ws ↔ ∃ w ∈ ws, x ∈ w.refs := by
  induction ws with
  | nil => simp [Where.refss]
  | cons w ws ih => simp [Where.refss, ih]

theorem mem_selRefss {ss : List Sel} {x : TableId} : x ∈ Sel.refss ss ↔ ∃ s ∈ ss, x ∈ s.refs := by
  induction ss with
  | nil => simp [Sel.refss]
  | cons w ws ih => simp [Sel.refss, ih]

theorem mem_selRefs {s : Sel} {x : TableId} : x ∈ s.refs ↔
    x = s.from_ ∨ (∃ j ∈ s.joins.getD [], j.right = x) ∨ ∃ w, s.where_ = some w ∧ x ∈ w.refs := by
  obtain ⟨c, f, w, l, j, o, g⟩ := s
  cases w <;> simp [Sel.refs]

theorem andFinish_refs {cs : List Where} {x : TableId} (h : x ∈ (andFinish cs).refs) :
    x ∈ Where.refss cs := by
  have key : ∀ w ∈ (cs.filter fun c => !c.isTrue).flatMap Where.andParts, x ∈ w.refs →
      x ∈ Where.refss cs := by
    intro w hw hx
    obtain ⟨c, hc, hwc⟩ := List.mem_flatMap.1 hw
    refine mem_refss.2 ⟨c, (List.mem_filter.1 hc).1, ?_⟩
    cases c <;> simp only [Where.andParts, List.mem_singleton] at hwc <;>
      first | (subst hwc; exact hx) | (simp only [Where.refs]; exact mem_refss.2 ⟨w, hwc, hx⟩)
  unfold andFinish at h
  revert key h
  generalize (cs.filter fun c => !c.isTrue).flatMap Where.andParts = l
  intro h key
  simp only at h
  split at h
  · simp [Where.refs] at h
  · split at h
    · simp [Where.refs] at h
    · exact key _ (by simp) h
    · simp only [Where.refs] at h
      obtain ⟨w, hw, hx⟩ := mem_refss.1 h
      exact key w hw hx

theorem orFinish_refs {cs : List Where} {x : TableId} (h : x ∈ (orFinish cs).refs) :
    x ∈ Where.refss cs := by
  have key : ∀ w ∈ (cs.filter fun c => !c.isFalse).flatMap Where.orParts, x ∈ w.refs →
      x ∈ Where.refss cs := by
    intro w hw hx
    obtain ⟨c, hc, hwc⟩ := List.mem_flatMap.1 hw
    refine mem_refss.2 ⟨c, (List.mem_filter.1 hc).1, ?_⟩
    cases c <;> simp only [Where.orParts, List.mem_singleton] at hwc <;>
      first | (subst hwc; exact hx) | (simp only [Where.refs]; exact mem_refss.2 ⟨w, hwc, hx⟩)
  unfold orFinish at h
  revert key h
  generalize (cs.filter fun c => !c.isFalse).flatMap Where.orParts = l
  intro h key
  simp only at h
  split at h
  · simp [Where.refs] at h
  · split at h
    · simp [Where.refs] at h
    · exact key _ (by simp) h
    · simp only [Where.refs] at h
      obtain ⟨w, hw, hx⟩ := mem_refss.1 h
      exact key w hw hx

theorem selFinish_refs {s : Sel} {w w' : Where} {x : TableId} (hw : s.where_ = some w)
    (hs : x ∈ w'.refs → x ∈ w.refs) (h : x ∈ (selFinish s w').refs) : x ∈ s.refs := by
  rw [mem_selRefs] at h ⊢
  simp only [selFinish, Sel.from_mk, Sel.joins_mk, Sel.where_mk] at h
  rcases h with h | ⟨j, h1, h2⟩ | ⟨v, h1, h2⟩
  · exact .inl h
  · refine .inr (.inl ⟨j, ?_, h2⟩)
    revert h1
    rcases s.joins with _ | ⟨_ | _⟩ <;> simp
  · refine .inr (.inr ⟨w, hw, hs ?_⟩)
    split at h1 <;> simp_all

theorem simp_refs : ∀ n : Nat,
    (∀ w w', simpW n w = .ok w' → ∀ x ∈ w'.refs, x ∈ w.refs) ∧
    (∀ s s', simpSel n s = .ok s' → ∀ x ∈ s'.refs, x ∈ s.refs) ∧
    (∀ st st', simpStmt n st = .ok st' → ∀ x ∈ st'.refs, x ∈ st.refs) := by
  intro n
  induction n with
  | zero => refine ⟨?_, ?_, ?_⟩ <;> intro a b h <;> simp [simpW, simpSel, simpStmt] at h
  | succ n ih =>
    obtain ⟨ihW, ihS, ihT⟩ := ih
    have hmap : ∀ (cs cs' : List Where), cs.mapM (simpW n) = .ok cs' →
        ∀ x ∈ Where.refss cs', x ∈ Where.refss cs := by
      intro cs cs' h x hx
      obtain ⟨w, hw, hxw⟩ := mem_refss.1 hx
      obtain ⟨a, ha, hab⟩ := forall₂_exists_right (mapM_ok_iff.1 h) hw
      exact mem_refss.2 ⟨a, ha, ihW _ _ hab x hxw⟩
    refine ⟨fun w w' h x hx => ?_, fun s s' h x hx => ?_, fun st st' h x hx => ?_⟩
    · cases w with
      | false_ => simp only [simpW] at h; cases h; exact hx
      | true_ => simp only [simpW] at h; cases h; exact hx
      | op o c v => simp only [simpW] at h; cases h; exact hx
      | inVals cs vs b => simp only [simpW] at h; cases h; exact hx
      | inStmt cs st b =>
        simp only [simpW] at h
        cases h1 : simpStmt n st with
        | error e => rw [h1] at h; cases h
        | ok st' =>
          rw [h1] at h; cases h
          simp only [Where.refs] at hx ⊢
          exact ihT _ _ h1 x hx
      | and cs =>
        simp only [simpW] at h
        cases h1 : cs.mapM (simpW n) with
        | error e => rw [h1] at h; cases h
        | ok cs' =>
          rw [h1] at h; cases h
          simp only [Where.refs]
          exact hmap _ _ h1 x (andFinish_refs hx)
      | or cs =>
        simp only [simpW] at h
        cases h1 : cs.mapM (simpW n) with
        | error e => rw [h1] at h; cases h
        | ok cs' =>
          rw [h1] at h; cases h
          simp only [Where.refs]
          exact hmap _ _ h1 x (orFinish_refs hx)
      | random thr g =>
        simp only [simpW] at h; cases h
        exfalso
        unfold randomSimplify at hx
        split at hx
        · simp [Where.refs] at hx
        · split at hx <;> simp [Where.refs] at hx
      | sql s => simp only [simpW] at h; cases h; exact hx
    · simp only [simpSel] at h
      cases hw : s.where_ with
      | none => rw [hw] at h; cases h; exact hx
      | some w =>
        rw [hw] at h
        simp only at h
        cases h1 : simpW n w with
        | error e => rw [h1] at h; cases h
        | ok w' =>
          rw [h1] at h; cases h
          exact selFinish_refs hw (ihW _ _ h1 x) hx
    · cases st with
      | select s =>
        simp only [simpStmt] at h
        cases h1 : simpSel n s with
        | error e => rw [h1] at h; cases h
        | ok s' =>
          rw [h1] at h; cases h
          simp only [Stmt.refs] at hx ⊢
          exact ihS _ _ h1 x hx
      | union ss =>
        simp only [simpStmt] at h
        simp only [Stmt.refs]
        cases h1 : ss.mapM (simpSel n) with
        | error e => rw [h1] at h; cases h
        | ok all =>
          rw [h1] at h
          simp only at h
          have hall : ∀ s ∈ all.filter (fun s => !(s.where_.getD .true_).isFalse), x ∈ s.refs →
              x ∈ Sel.refss ss := by
            intro s hs hx
            obtain ⟨a, ha, hab⟩ := forall₂_exists_right (mapM_ok_iff.1 h1) (List.mem_filter.1 hs).1
            exact mem_selRefss.2 ⟨a, ha, ihS _ _ hab x hx⟩
          revert h hall
          generalize all.filter (fun s => !(s.where_.getD .true_).isFalse) = l
          intro h hall
          rcases l with _ | ⟨s0, _ | ⟨s1, rest⟩⟩
          · cases ss with
            | nil => cases h
            | cons s ss =>
              simp only at h
              cases h2 : simpSel n s with
              | error e => rw [h2] at h; cases h
              | ok s' =>
                rw [h2] at h; cases h
                simp only [Stmt.refs] at hx
                exact mem_selRefss.2 ⟨s, by simp, ihS _ _ h2 x hx⟩
          · cases h
            simp only [Stmt.refs] at hx
            exact hall s0 (by simp) hx
          · simp only at h
            by_cases hm : canMerge s0 (s0 :: s1 :: rest) = true
            · rw [if_pos hm] at h
              cases h2 : simpSel n (mergedSel s0 (s0 :: s1 :: rest)) with
              | error e => rw [h2] at h; cases h
              | ok s' =>
                rw [h2] at h; cases h
                simp only [Stmt.refs] at hx
                have h3 := ihS _ _ h2 x hx
                rw [mem_selRefs] at h3
                simp only [mergedSel, Sel.from_mk, Sel.joins_mk, Sel.where_mk, Option.getD_none,
                  List.not_mem_nil, false_and, exists_false, false_or, Option.some.injEq,
                  exists_eq_left', Where.refs] at h3
                rcases h3 with h3 | h3
                · exact hall s0 (by simp) (mem_selRefs.2 (.inl h3))
                · obtain ⟨w, hw, hxw⟩ := mem_refss.1 h3
                  obtain ⟨s, hs, rfl⟩ := List.mem_map.1 hw
                  refine hall s hs (mem_selRefs.2 (.inr (.inr ?_)))
                  cases hsw : s.where_ with
                  | none => rw [hsw] at hxw; simp [Where.refs] at hxw
                  | some w => rw [hsw] at hxw; exact ⟨w, rfl, hxw⟩
            · rw [if_neg hm] at h
              cases h
              simp only [Stmt.refs] at hx
              obtain ⟨s, hs, hxs⟩ := mem_selRefss.1 hx
              exact hall s hs hxs

end Subsetter
