import Verif.Spec.Config
import Verif.Proofs.PyDict

/- Lemmas on merging of configuration files. -/
namespace Subsetter
open Spec

theorem valueAt_nil (y : Yaml) : valueAt y [] = some y := by cases y <;> rfl

theorem valueAt_map {d : Items} {k : Str} {p : List Str} :
    valueAt (.map d) (k :: p) = (dget d k).bind fun v => valueAt v p := by
  rw [valueAt]
  cases dget d k <;> rfl

theorem valueAt_not_map {y : Yaml} (h : ¬ IsMap y) {k : Str} {p : List Str} : valueAt y (k :: p) = none := by
  cases y with
  | map d => exact absurd ⟨d, rfl⟩ h
  | leaf s => rfl
  | seq l => rfl

theorem merge_not_map {a b : Yaml} (h : ¬ IsMap b) : dictMerge a b = b := by
  cases b with
  | map d => exact absurd ⟨d, rfl⟩ h
  | leaf s => rw [dictMerge]; intro r e; cases e
  | seq l => rw [dictMerge]; intro r e; cases e

theorem merge_into_not_map {a b : Yaml} (h : ¬ IsMap a) : dictMerge a b = b := by
  cases b with
  | leaf s => exact merge_not_map (by rintro ⟨d, e⟩; cases e)
  | seq l => exact merge_not_map (by rintro ⟨d, e⟩; cases e)
  | map r =>
    cases a with
    | map d => exact absurd ⟨d, rfl⟩ h
    | leaf s => rw [dictMerge]; intro r e; cases e
    | seq l => rw [dictMerge]; intro r e; cases e

theorem merge_map (l r : Items) : dictMerge (.map l) (.map r) = .map (mergeItems l r) := by rw [dictMerge]

theorem mergeItems_get : ∀ {r l : Items} {k : Str}, (dkeys r).Nodup →
    dget (mergeItems l r) k =
      match dget r k with
      | none => dget l k
      | some v => some (match dget l k with
        | some old => dictMerge old v
        | none => v)
  | [], l, k, _ => by rw [mergeItems]; rfl
  | (k', v') :: r, l, k, h => by
    unfold dkeys at h
    rw [List.map_cons, List.nodup_cons] at h
    rw [mergeItems, mergeItems_get h.2]
    have hit : ∀ x, dget (mergeItem l (k', v')) x = if k' = x then
        some (match dget l k' with | some old => dictMerge old v' | none => v') else dget l x := by
      intro x
      rw [mergeItem]
      cases hl : dget l k' with
      | none => dsimp only; rw [dget_dset]
      | some old => dsimp only; rw [dget_dset]
    rw [hit k]
    by_cases hk : k' = k
    · subst hk
      have : dget r k' = none := dget_none_iff.2 h.1
      rw [this]
      simp only [if_true, dget]
    · rw [if_neg hk]
      simp only [dget, if_neg hk]

theorem keysOnce_map {d : Items} (h : KeysOnce (.map d)) : (dkeys d).Nodup := h [] d (valueAt_nil _)

theorem keysOnce_get {d : Items} (h : KeysOnce (.map d)) {k : Str} {v : Yaml} (hk : dget d k = some v) : KeysOnce v := by
  intro p e hp
  exact h (k :: p) e (by rw [valueAt_map, hk]; exact hp)

/-- Merging items that are already there changes nothing. -/
theorem mergeItems_absorb : ∀ {r l : Items}, (∀ x ∈ r, ∃ old, dget l x.1 = some old ∧ dictMerge old x.2 = old) →
    mergeItems l r = l
  | [], l, _ => by rw [mergeItems]
  | (k, v) :: r, l, h => by
    obtain ⟨old, h1, h2⟩ := h (k, v) (by simp)
    have : mergeItem l (k, v) = l := by
      rw [mergeItem, h1]
      dsimp only at h2 ⊢
      rw [h2]
      clear h h2
      induction l with
      | nil => cases h1
      | cons x l ih =>
        obtain ⟨k', v'⟩ := x
        simp only [dget] at h1
        simp only [dset]
        split at h1
        · rename_i e
          cases h1
          rw [if_pos e, e]
        · rename_i e
          rw [if_neg e, ih h1]
    rw [mergeItems, this]
    exact mergeItems_absorb fun x hx => h x (by simp [hx])

end Subsetter
