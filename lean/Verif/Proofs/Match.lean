import Verif.Spec.Match

namespace Subsetter
open Spec

theorem number_iff {v : PVal} {x : Rat} : Number v x ↔ v.number = some x := by
  cases v <;> simp [Number, PVal.number, eq_comm]

theorem pyEq_iff {v w : PVal} : pyEq v w = true ↔ Equal v w := by
  unfold pyEq
  constructor
  · intro h
    cases h1 : v.number with
    | none => rw [h1] at h; simp at h; subst h; exact .same
    | some a =>
      cases h2 : w.number with
      | none => rw [h1, h2] at h; simp at h; subst h; exact .same
      | some b =>
        rw [h1, h2] at h
        simp at h
        subst h
        exact .numbers (number_iff.2 h1) (number_iff.2 h2)
  · intro h
    cases h with
    | numbers h1 h2 => rw [number_iff.1 h1, number_iff.1 h2]; simp
    | same => split <;> simp_all

theorem strLt_iff {s t : Str} : strLt s t = true ↔ List.Lex (· < ·) s t := by
  induction s generalizing t with
  | nil => cases t <;> simp [strLt]
  | cons c s ih =>
    cases t with
    | nil => simp [strLt]
    | cons d t =>
      simp only [strLt]
      split
      · subst_vars; simp [ih]
      · rename_i h
        simp only [decide_eq_true_eq]
        exact ⟨.rel, fun g => by
          cases g with
          | rel g => exact g
          | cons g => exact absurd rfl h⟩

theorem strIn_iff {s t : Str} : strIn s t = true ↔ s <:+: t := by
  induction t with
  | nil => simp [strIn]
  | cons d t ih => simp [strIn, ih, List.infix_cons_iff]

theorem comparable_lt {v w : PVal} : Comparable v w ↔ (pyLt v w).isSome := by
  unfold pyLt
  constructor
  · intro h
    cases h with
    | numbers h1 h2 => rw [number_iff.1 h1, number_iff.1 h2]; rfl
    | strings s t => rfl
  · intro h
    cases h1 : v.number with
    | some a =>
      cases h2 : w.number with
      | some b => exact .numbers (number_iff.2 h1) (number_iff.2 h2)
      | none => rw [h1, h2] at h; cases v <;> simp_all [PVal.number]
    | none =>
      rw [h1] at h
      cases v <;> cases w <;> simp_all [PVal.number]
      exact .strings _ _

theorem comparable_le {v w : PVal} : Comparable v w ↔ (pyLe v w).isSome := by
  rw [comparable_lt]
  unfold pyLt pyLe
  cases v.number <;> cases w.number <;> simp <;> cases v <;> cases w <;> simp

theorem comparable_symm {v w : PVal} (h : Comparable v w) : Comparable w v := by
  cases h with
  | numbers h1 h2 => exact .numbers h2 h1
  | strings s t => exact .strings t s

theorem pyLt_iff {v w : PVal} : pyLt v w = some true ↔ Less v w := by
  unfold pyLt
  constructor
  · intro h
    cases h1 : v.number with
    | some a =>
      cases h2 : w.number with
      | some b =>
        rw [h1, h2] at h
        simp at h
        exact .numbers (number_iff.2 h1) (number_iff.2 h2) h
      | none => rw [h1, h2] at h; cases v <;> simp_all [PVal.number]
    | none =>
      rw [h1] at h
      cases v <;> cases w <;> simp_all [PVal.number]
      exact .strings (strLt_iff.1 h)
  · intro h
    cases h with
    | numbers h1 h2 h3 => rw [number_iff.1 h1, number_iff.1 h2]; simp [h3]
    | strings h => simp [PVal.number, strLt_iff.2 h]

theorem pyLe_eq (v w : PVal) : pyLe v w = (pyLt w v).map (!·) := by
  unfold pyLt pyLe
  cases h1 : v.number <;> cases h2 : w.number <;> simp
  · cases v <;> cases w <;> simp
  · cases v <;> cases w <;> simp_all [PVal.number]
  · cases v <;> cases w <;> simp_all [PVal.number]
  · rw [Bool.eq_iff_iff]; simp

theorem less_eq_greater {v w : PVal} (h : Comparable v w) : Less v w ∨ Equal v w ∨ Less w v := by
  cases h with
  | @numbers v w x y h1 h2 =>
    rcases lt_trichotomy x y with h | rfl | h
    · exact .inl (.numbers h1 h2 h)
    · exact .inr (.inl (.numbers h1 h2))
    · exact .inr (.inr (.numbers h2 h1 h))
  | strings s t =>
    rcases trichotomous_of (List.Lex ((· < ·) : Char → Char → Prop)) s t with h | rfl | h
    · exact .inl (.strings h)
    · exact .inr (.inl .same)
    · exact .inr (.inr (.strings h))

end Subsetter
