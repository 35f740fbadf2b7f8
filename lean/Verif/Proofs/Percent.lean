import Verif.Spec.Percent
import Verif.Proofs.PlanLoop
import Verif.Proofs.PlanFileWrite
import Mathlib.Algebra.BigOperators.Fin
import Mathlib.Data.Fintype.BigOperators
import Mathlib.Data.Fintype.Perm

/- Thresholds of simplified statements; counting of draws. -/
namespace Subsetter
open Spec

/-- Strictly between 0 and 1. -/
def Inside (x : Rat) : Prop := 0 < x ∧ x < 1

theorem mem_thresholdsWs {ws : List Where} {x : Rat} : x ∈ thresholdsWs ws ↔ ∃ w ∈ ws, x ∈ thresholdsW w := by
  induction ws with
  | nil => simp [thresholdsWs]
  | cons w ws ih => simp [thresholdsWs, ih]

theorem mem_thresholdsSels {ss : List Sel} {x : Rat} : x ∈ thresholdsSels ss ↔ ∃ s ∈ ss, x ∈ thresholdsSel s := by
  induction ss with
  | nil => simp [thresholdsSels]
  | cons w ws ih => simp [thresholdsSels, ih]

theorem mem_thresholdsSel {s : Sel} {x : Rat} : x ∈ thresholdsSel s ↔ ∃ w, s.where_ = some w ∧ x ∈ thresholdsW w := by
  obtain ⟨c, f, w, l, j, o, g⟩ := s
  cases w <;> simp [thresholdsSel]

theorem andFinish_thresholds {cs : List Where} {x : Rat} (h : x ∈ thresholdsW (andFinish cs)) :
    x ∈ thresholdsWs cs := by
  have key : ∀ w ∈ (cs.filter fun c => !c.isTrue).flatMap Where.andParts, x ∈ thresholdsW w →
      x ∈ thresholdsWs cs := by
    intro w hw hx
    obtain ⟨c, hc, hwc⟩ := List.mem_flatMap.1 hw
    refine mem_thresholdsWs.2 ⟨c, (List.mem_filter.1 hc).1, ?_⟩
    cases c <;> simp only [Where.andParts, List.mem_singleton] at hwc <;>
      first | (subst hwc; exact hx) | (simp only [thresholdsW]; exact mem_thresholdsWs.2 ⟨w, hwc, hx⟩)
  unfold andFinish at h
  revert key h
  generalize (cs.filter fun c => !c.isTrue).flatMap Where.andParts = l
  intro h key
  simp only at h
  split at h
  · simp [thresholdsW] at h
  · split at h
    · simp [thresholdsW] at h
    · exact key _ (by simp) h
    · simp only [thresholdsW] at h
      obtain ⟨w, hw, hx⟩ := mem_thresholdsWs.1 h
      exact key w hw hx

theorem orFinish_thresholds {cs : List Where} {x : Rat} (h : x ∈ thresholdsW (orFinish cs)) :
    x ∈ thresholdsWs cs := by
  have key : ∀ w ∈ (cs.filter fun c => !c.isFalse).flatMap Where.orParts, x ∈ thresholdsW w →
      x ∈ thresholdsWs cs := by
    intro w hw hx
    obtain ⟨c, hc, hwc⟩ := List.mem_flatMap.1 hw
    refine mem_thresholdsWs.2 ⟨c, (List.mem_filter.1 hc).1, ?_⟩
    cases c <;> simp only [Where.orParts, List.mem_singleton] at hwc <;>
      first | (subst hwc; exact hx) | (simp only [thresholdsW]; exact mem_thresholdsWs.2 ⟨w, hwc, hx⟩)
  unfold orFinish at h
  revert key h
  generalize (cs.filter fun c => !c.isFalse).flatMap Where.orParts = l
  intro h key
  simp only at h
  split at h
  · simp [thresholdsW] at h
  · split at h
    · simp [thresholdsW] at h
    · exact key _ (by simp) h
    · simp only [thresholdsW] at h
      obtain ⟨w, hw, hx⟩ := mem_thresholdsWs.1 h
      exact key w hw hx

theorem simp_thresholds : ∀ n : Nat,
    (∀ w w', simpW n w = .ok w' → ∀ x ∈ thresholdsW w', Inside x) ∧
    (∀ s s', simpSel n s = .ok s' → ∀ x ∈ thresholdsSel s', Inside x) ∧
    (∀ st st', simpStmt n st = .ok st' → ∀ x ∈ thresholdsStmt st', Inside x) := by
  intro n
  induction n with
  | zero => refine ⟨?_, ?_, ?_⟩ <;> intro a b h <;> simp [simpW, simpSel, simpStmt] at h
  | succ n ih =>
    obtain ⟨ihW, ihS, ihT⟩ := ih
    have hmap : ∀ (cs cs' : List Where), cs.mapM (simpW n) = .ok cs' → ∀ x ∈ thresholdsWs cs', Inside x := by
      intro cs cs' h x hx
      obtain ⟨w, hw, hxw⟩ := mem_thresholdsWs.1 hx
      obtain ⟨a, ha, hab⟩ := forall₂_exists_right (mapM_ok_iff.1 h) hw
      exact ihW _ _ hab x hxw
    refine ⟨fun w w' h x hx => ?_, fun s s' h x hx => ?_, fun st st' h x hx => ?_⟩
    · cases w with
      | inStmt cs st b =>
        simp only [simpW] at h
        cases h1 : simpStmt n st with
        | error e => rw [h1] at h; cases h
        | ok st' =>
          rw [h1] at h; cases h
          simp only [thresholdsW] at hx
          exact ihT _ _ h1 x hx
      | and cs =>
        simp only [simpW] at h
        cases h1 : cs.mapM (simpW n) with
        | error e => rw [h1] at h; cases h
        | ok cs' => rw [h1] at h; cases h; exact hmap _ _ h1 x (andFinish_thresholds hx)
      | or cs =>
        simp only [simpW] at h
        cases h1 : cs.mapM (simpW n) with
        | error e => rw [h1] at h; cases h
        | ok cs' => rw [h1] at h; cases h; exact hmap _ _ h1 x (orFinish_thresholds hx)
      | random thr g =>
        simp only [simpW] at h; cases h
        unfold randomSimplify at hx
        split at hx
        · simp [thresholdsW] at hx
        · rename_i h1
          split at hx
          · simp [thresholdsW] at hx
          · rename_i h2
            simp only [thresholdsW, List.mem_singleton] at hx
            subst hx
            exact ⟨not_le.1 h1, not_le.1 h2⟩
      | _ => simp only [simpW] at h; cases h; simp [thresholdsW] at hx
    · simp only [simpSel] at h
      cases hw : s.where_ with
      | none =>
        rw [hw] at h; cases h
        obtain ⟨w, h1, -⟩ := mem_thresholdsSel.1 hx
        rw [hw] at h1; cases h1
      | some w =>
        rw [hw] at h
        simp only at h
        cases h1 : simpW n w with
        | error e => rw [h1] at h; cases h
        | ok w' =>
          rw [h1] at h; cases h
          obtain ⟨v, h2, h3⟩ := mem_thresholdsSel.1 hx
          simp only [selFinish, Sel.where_mk] at h2
          split at h2
          · cases h2
          · cases h2; exact ihW _ _ h1 x h3
    · cases st with
      | select s =>
        simp only [simpStmt] at h
        cases h1 : simpSel n s with
        | error e => rw [h1] at h; cases h
        | ok s' =>
          rw [h1] at h; cases h
          simp only [thresholdsStmt] at hx
          exact ihS _ _ h1 x hx
      | union ss =>
        simp only [simpStmt] at h
        cases h1 : ss.mapM (simpSel n) with
        | error e => rw [h1] at h; cases h
        | ok all =>
          rw [h1] at h
          simp only at h
          have hall : ∀ s ∈ all.filter (fun s => !(s.where_.getD .true_).isFalse), x ∈ thresholdsSel s → Inside x := by
            intro s hs hx
            obtain ⟨a, ha, hab⟩ := forall₂_exists_right (mapM_ok_iff.1 h1) (List.mem_filter.1 hs).1
            exact ihS _ _ hab x hx
          revert h hall
          generalize all.filter (fun s => !(s.where_.getD .true_).isFalse) = l
          intro h hall
          rcases l with _ | ⟨s0, _ | ⟨s1, rest⟩⟩
          · cases ss with
            | nil => cases h
            | cons s ss =>
              simp only at h
              cases h2 : simpSel n s with
              | error e => rw [h2] at h; cases h
              | ok s' =>
                rw [h2] at h; cases h
                simp only [thresholdsStmt] at hx
                exact ihS _ _ h2 x hx
          · cases h
            simp only [thresholdsStmt] at hx
            exact hall s0 (by simp) hx
          · simp only at h
            by_cases hm : canMerge s0 (s0 :: s1 :: rest) = true
            · rw [if_pos hm] at h
              cases h2 : simpSel n (mergedSel s0 (s0 :: s1 :: rest)) with
              | error e => rw [h2] at h; cases h
              | ok s' =>
                rw [h2] at h; cases h
                simp only [thresholdsStmt] at hx
                exact ihS _ _ h2 x hx
            · rw [if_neg hm] at h
              cases h
              simp only [thresholdsStmt] at hx
              obtain ⟨s, hs, hxs⟩ := mem_thresholdsSels.1 hx
              exact hall s hs hxs

theorem tableShape_thresholds {T : Tables} {C : Dict Str (List ColumnConstraint)} {t : TableMeta} {processed : List Key}
    {x : Option TargetConfig} {st : Stmt} (h : TableShape T C t processed x st) : ∀ y ∈ thresholdsStmt st, Inside y := by
  cases h with
  | forward hF hR hj hw hs => exact (simp_thresholds _).2.2 _ _ hs
  | backward hF hR hC hj hs => exact (simp_thresholds _).2.2 _ _ hs
  | target hF hR hw hs => exact (simp_thresholds _).2.2 _ _ hs
  | both hF hR ha hC hj hs => exact (simp_thresholds _).2.2 _ _ hs

theorem PlanShape.thresholds {cfg : PlannerConfig} {ign pass : List Key} {T T' : Tables} {found ord : List Key}
    {p : Plan} (hT : TablesOK T) (hp : PlanShape cfg ign pass T T' found ord p) {n : Str} {q : TableQuery}
    (hq : (n, q) ∈ p.queries) : ∀ y ∈ Spec.thresholds q, Inside y := by
  have hn : n ∈ p.queries.map Prod.fst := List.mem_map_of_mem (f := Prod.fst) hq
  rw [hp.keys] at hn
  obtain ⟨k, hk, rfl⟩ := List.mem_map.1 hn
  have hpl := hp.planned_of_mem hT hk hq
  rcases List.mem_append.1 hk with h | h
  · have := hp.planned_unique hT hpl (hp.planned_of_mem hT hk (hp.passq k h))
    subst this
    intro y hy
    simp [Spec.thresholds, passthroughQuery, thresholdsStmt, thresholdsSel] at hy
  · obtain ⟨pre, post, he⟩ := List.append_of_mem h
    obtain ⟨t, q', ht, h2, h3⟩ := hp.ordq pre k post he
    have := hp.planned_unique hT hpl (hp.planned_of_mem hT hk h3)
    subst this
    obtain ⟨st, rfl, hsh⟩ := planTable_shape h2
    exact tableShape_thresholds hsh

/-! ### Counting -/

/-- Among all outcomes of `n` draws, those where draw `i` is among `G`. -/
theorem card_draw {N n : Nat} (G : Finset (Fin N)) (i : Fin n) :
    (Finset.univ.filter fun f : Fin n → Fin N => f i ∈ G).card = G.card * N ^ (n - 1) := by
  have h : (Finset.univ.filter fun f : Fin n → Fin N => f i ∈ G) =
      Fintype.piFinset fun j => if j = i then G else Finset.univ := by
    ext f
    simp only [Finset.mem_filter, Finset.mem_univ, true_and, Fintype.mem_piFinset]
    constructor
    · intro h j
      split
      · rename_i e; exact e ▸ h
      · simp
    · intro h
      simpa using h i
  rw [h, Fintype.card_piFinset, ← Finset.mul_prod_erase _ _ (Finset.mem_univ i)]
  rw [if_pos rfl, Finset.prod_congr rfl (g := fun _ => N)]
  · rw [Finset.prod_const, Finset.card_erase_of_mem (Finset.mem_univ i), Finset.card_univ, Fintype.card_fin]
  · intro j hj
    rw [if_neg (Finset.ne_of_mem_erase hj), Finset.card_univ, Fintype.card_fin]

/-- Rows kept on all outcomes together. -/
theorem sum_draws {N n : Nat} (G : Finset (Fin N)) :
    ∑ f : Fin n → Fin N, (Finset.univ.filter fun i : Fin n => f i ∈ G).card = n * (G.card * N ^ (n - 1)) := by
  simp only [Finset.card_filter]
  rw [Finset.sum_comm]
  simp only [← Finset.card_filter]
  rw [Finset.sum_congr rfl fun i _ => card_draw G i]
  simp

/-- Rows of some kind kept on all outcomes together. -/
theorem sum_draws_of {N n : Nat} (G : Finset (Fin N)) (P : Fin n → Prop) [DecidablePred P] :
    ∑ f : Fin n → Fin N, (Finset.univ.filter fun i : Fin n => P i ∧ f i ∈ G).card =
      (Finset.univ.filter P).card * (G.card * N ^ (n - 1)) := by
  simp only [← Finset.filter_filter]
  simp only [Finset.card_filter (fun i => _ ∈ G)]
  rw [Finset.sum_comm]
  simp only [← Finset.card_filter]
  rw [Finset.sum_congr rfl fun i _ => card_draw G i]
  simp

/-- Permutations that send `j` to `i`. -/
theorem card_perm {n : Nat} (i j : Fin n) :
    (Finset.univ.filter fun g : Equiv.Perm (Fin n) => g j = i).card * n = n.factorial := by
  have h1 : ∀ i', (Finset.univ.filter fun g : Equiv.Perm (Fin n) => g j = i').card =
      (Finset.univ.filter fun g : Equiv.Perm (Fin n) => g j = i).card := by
    intro i'
    refine Finset.card_bij' (fun g _ => (Equiv.swap i' i) * g) (fun g _ => (Equiv.swap i' i) * g) ?_ ?_ ?_ ?_
    · intro g hg
      simp only [Finset.mem_filter, Finset.mem_univ, true_and, Equiv.Perm.mul_apply] at hg ⊢
      rw [hg]; simp
    · intro g hg
      simp only [Finset.mem_filter, Finset.mem_univ, true_and, Equiv.Perm.mul_apply] at hg ⊢
      rw [hg]; simp
    · intro g _; ext; simp
    · intro g _; ext; simp
  have h2 : ∑ i', (Finset.univ.filter fun g : Equiv.Perm (Fin n) => g j = i').card = n.factorial := by
    have := Finset.card_eq_sum_card_fiberwise (s := (Finset.univ : Finset (Equiv.Perm (Fin n)))) (t := Finset.univ)
      (f := fun g => g j) (fun _ _ => Finset.mem_coe.2 (Finset.mem_univ _))
    rw [← this, Finset.card_univ, Fintype.card_perm, Fintype.card_fin]
  rw [Finset.sum_congr rfl fun i' _ => h1 i'] at h2
  rw [← h2]
  simp [mul_comm]

/-- Permutations that send one of the first `a` positions to `i`. -/
theorem card_perm_take {n a : Nat} (ha : a ≤ n) (i : Fin n) :
    (Finset.univ.filter fun g : Equiv.Perm (Fin n) => ∃ j : Fin n, (j : Nat) < a ∧ g j = i).card * n = a * n.factorial := by
  have h : (Finset.univ.filter fun g : Equiv.Perm (Fin n) => ∃ j : Fin n, (j : Nat) < a ∧ g j = i) =
      (Finset.univ.filter fun j : Fin n => (j : Nat) < a).biUnion fun j =>
        Finset.univ.filter fun g : Equiv.Perm (Fin n) => g j = i := by
    ext g; simp
  rw [h, Finset.card_biUnion, Finset.sum_mul, Finset.sum_congr rfl fun j _ => card_perm i j]
  · rw [Finset.sum_const, smul_eq_mul]
    congr 1
    have : (Finset.univ.filter fun j : Fin n => (j : Nat) < a) = (Finset.univ : Finset (Fin a)).map (Fin.castLEEmb ha) := by
      ext j
      simp only [Finset.mem_filter, Finset.mem_univ, true_and, Finset.mem_map, Fin.castLEEmb_apply]
      constructor
      · intro h; exact ⟨⟨j, h⟩, rfl⟩
      · rintro ⟨x, rfl⟩; exact x.2
    rw [this, Finset.card_map, Finset.card_univ, Fintype.card_fin]
  · intro j _ j' _ hne
    rw [Function.onFun, Finset.disjoint_left]
    intro g h1 h2
    simp only [Finset.mem_filter, Finset.mem_univ, true_and] at h1 h2
    exact hne (g.injective (h1.trans h2.symm))

end Subsetter
