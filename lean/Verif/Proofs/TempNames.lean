import Verif.Model.TempNames
import Verif.Proofs.PyDict
import Mathlib.Data.List.Nodup
import Mathlib.Data.Nat.Digits.Defs

/- Generated names: unique decomposition at underscores. -/
namespace Subsetter

/-! ### Strings -/

theorem natStr_inj {a b : Nat} (h : natStr a = natStr b) : a = b := by
  have h1 := Nat.ofDigitChars_toDigits (b := 10) (n := a) (by decide) (by decide)
  have h2 := Nat.ofDigitChars_toDigits (b := 10) (n := b) (by decide) (by decide)
  unfold natStr at h
  rw [h, h2] at h1
  exact h1.symm

theorem natStr_digit {n : Nat} {c : Char} (h : c ∈ natStr n) : c.isDigit = true :=
  Nat.isDigit_of_mem_toDigits (by decide) (by decide) h

theorem natStr_no_sep (n : Nat) : '_' ∉ natStr n := fun h => by
  have := natStr_digit h; revert this; decide

theorem sep_split {a a' b b' : Str} (ha : '_' ∉ a) (ha' : '_' ∉ a')
    (h : a ++ '_' :: b = a' ++ '_' :: b') : a = a' ∧ b = b' := by
  induction a generalizing a' with
  | nil =>
    cases a' with
    | nil => simpa using h
    | cons c cs =>
      simp only [List.nil_append, List.cons_append, List.cons.injEq] at h
      exact absurd (by rw [h.1]; exact .head _) ha'
  | cons c cs ih =>
    cases a' with
    | nil =>
      simp only [List.nil_append, List.cons_append, List.cons.injEq] at h
      exact absurd (by rw [← h.1]; exact .head _) ha
    | cons c' cs' =>
      simp only [List.cons_append, List.cons.injEq] at h
      simp only [List.mem_cons, not_or] at ha ha'
      obtain ⟨h1, h2⟩ := ih ha.2 ha'.2 h.2
      exact ⟨by rw [h.1, h1], h2⟩

/-- The name with its number; what `generateName` returns. -/
def numbered (n : Str) (c : Nat) : Str :=
  if c = 0 then namePrefix ++ n else namePrefix ++ n ++ '_' :: natStr c

theorem numbered_inj {n n' : Str} {c c' : Nat} (hn : '_' ∉ n) (hn' : '_' ∉ n')
    (h : numbered n c = numbered n' c') : n = n' ∧ c = c' := by
  unfold numbered at h
  split at h <;> split at h
  · rename_i h1 h2
    exact ⟨List.append_cancel_left h, h1.trans h2.symm⟩
  · rw [List.append_assoc] at h
    have := List.append_cancel_left h
    exact absurd (by rw [this]; simp) hn
  · rw [List.append_assoc] at h
    have := List.append_cancel_left h
    exact absurd (by rw [← this]; simp) hn'
  · rw [List.append_assoc, List.append_assoc] at h
    obtain ⟨h1, h2⟩ := sep_split hn hn' (List.append_cancel_left h)
    exact ⟨h1, natStr_inj h2⟩

theorem friendlyName_no_sep {alnum : Char → Bool} (hs : alnum '_' = false) (name : Str) :
    '_' ∉ friendlyName alnum name := by
  unfold friendlyName
  dsimp only
  split
  · decide
  · intro h
    have := List.mem_of_mem_take h
    rw [List.mem_filter, hs] at this
    exact absurd this.2 (by simp)

/-- Every name generated later is numbered at least as high as the counter. -/
theorem generateNames_mem {alnum : Char → Bool} {x : Str} : ∀ {names : List Str} {counts : Dict Str Nat},
    x ∈ generateNames alnum counts names →
    ∃ name c, name ∈ names ∧ (dget counts (friendlyName alnum name)).getD 0 ≤ c ∧
      x = numbered (friendlyName alnum name) c
  | [], counts, h => by cases h
  | name :: names, counts, h => by
    simp only [generateNames, generateName, List.mem_cons] at h
    rcases h with h | h
    · exact ⟨name, _, .head _, Nat.le_refl _, h⟩
    · obtain ⟨n, c, h1, h2, h3⟩ := generateNames_mem h
      refine ⟨n, c, .tail _ h1, ?_, h3⟩
      rw [dget_dset] at h2
      split at h2
      · rename_i e
        rw [← e]
        simp only [Option.getD_some] at h2
        omega
      · exact h2

theorem generateNames_nodup {alnum : Char → Bool} (hs : alnum '_' = false) :
    ∀ (names : List Str) (counts : Dict Str Nat), (generateNames alnum counts names).Nodup
  | [], counts => List.nodup_nil
  | name :: names, counts => by
    simp only [generateNames, generateName, List.nodup_cons]
    refine ⟨fun h => ?_, generateNames_nodup hs names _⟩
    obtain ⟨n, c, -, h2, h3⟩ := generateNames_mem h
    obtain ⟨h4, h5⟩ := numbered_inj (friendlyName_no_sep hs name) (friendlyName_no_sep hs n)
      (show numbered (friendlyName alnum name) ((dget counts (friendlyName alnum name)).getD 0) =
        numbered (friendlyName alnum n) c from h3)
    rw [dget_dset, if_pos h4, Option.getD_some] at h2
    omega

theorem indexName_split {alnum : Char → Bool} (hs : alnum '_' = false) {names : List Str}
    {counts : Dict Str Nat} {x : Str} (hx : x ∈ generateNames alnum counts names) :
    ∃ n c, '_' ∉ n ∧ x = numbered n c := by
  obtain ⟨n, c, -, -, h⟩ := generateNames_mem hx
  exact ⟨_, c, friendlyName_no_sep hs n, h⟩

end Subsetter
