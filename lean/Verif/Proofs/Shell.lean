import Verif.Spec.Shell

/-
Lemmas about files read by commands.
-/
namespace Subsetter.Proofs
open Subsetter Spec

variable {σ : Type} {M : Machine σ} {a : Args} {sh : Shell}

theorem configPaths : ConfigPaths a (configFiles a) := by
  unfold configFiles
  split
  · exact .default (by assumption)
  · exact .given (by assumption)

theorem configPaths_unique {l : List Str} (h : ConfigPaths a l) : l = configFiles a := by
  unfold configFiles
  cases h with
  | default h => rw [if_pos h]
  | given h => rw [if_neg h]

/-- What standard input holds. -/
def left (sh : Shell) : Bool → Doc
  | false => sh.stdin
  | true => atEnd

/-- Whether standard input has been read. -/
def usedAfter (used : Bool) (l : List Str) : Bool := used || decide (str! "-" ∈ l)

theorem readConfigs_of {used : Bool} {l : List Str} {ys : List Yaml} (h : Opened sh used l ys) :
    readConfigs sh.files l (left sh used) = some (ys, left sh (usedAfter used l)) := by
  induction h with
  | nil => simp [readConfigs, usedAfter]
  | @file used path paths y ys h1 h2 _ ih =>
    unfold readConfigs readPath
    rw [if_neg h1, h2]
    dsimp only
    rw [ih]
    dsimp only
    have : usedAfter used (path :: paths) = usedAfter used paths := by
      simp [usedAfter, List.mem_cons, Ne.symm h1]
    rw [this]
  | @stdin paths y ys h1 _ ih =>
    unfold readConfigs readPath
    rw [if_pos rfl, show left sh false = some y from h1]
    dsimp only
    rw [show atEnd = left sh true from rfl, ih]
    simp [usedAfter]
  | @empty paths ys _ ih =>
    unfold readConfigs readPath
    rw [if_pos rfl, show left sh true = some (.leaf .null) from rfl]
    dsimp only
    rw [show atEnd = left sh true from rfl, ih]
    simp [usedAfter]

theorem opened_of {used : Bool} {l : List Str} {ys : List Yaml} {d : Doc}
    (h : readConfigs sh.files l (left sh used) = some (ys, d)) :
    Opened sh used l ys ∧ d = left sh (usedAfter used l) := by
  suffices Opened sh used l ys by
    refine ⟨this, ?_⟩
    rw [readConfigs_of this] at h
    cases h
    rfl
  induction l generalizing used ys d with
  | nil => cases h; exact .nil
  | cons path l ih =>
    unfold readConfigs readPath at h
    by_cases hp : path = str! "-"
    · subst hp
      rw [if_pos rfl] at h
      cases used with
      | false =>
        cases e : left sh false with
        | none => rw [e] at h; cases h
        | some y =>
          rw [e] at h
          dsimp only at h
          cases e' : readConfigs sh.files l atEnd with
          | none => rw [e'] at h; cases h
          | some r =>
            rw [e'] at h
            cases h
            exact .stdin e (ih (used := true) e')
      | true =>
        rw [show left sh true = some (.leaf .null) from rfl] at h
        dsimp only at h
        cases e' : readConfigs sh.files l atEnd with
        | none => rw [e'] at h; cases h
        | some r =>
          rw [e'] at h
          cases h
          exact .empty (ih (used := true) e')
    · rw [if_neg hp] at h
      cases e : sh.files path with
      | none => rw [e] at h; cases h
      | some dd =>
        rw [e] at h
        cases dd with
        | none => cases h
        | some y =>
          dsimp only at h
          cases e' : readConfigs sh.files l (left sh used) with
          | none => rw [e'] at h; cases h
          | some r =>
            rw [e'] at h
            cases h
            exact .file hp e (ih e')

theorem opened_unique {used : Bool} {l : List Str} {ys ys' : List Yaml} (h : Opened sh used l ys) (h' : Opened sh used l ys') :
    ys' = ys := by
  have := readConfigs_of h
  rw [readConfigs_of h'] at this
  cases this
  rfl

/-- Reading the configuration. -/
theorem read_of {ys : List Yaml} (h : ConfigRead a sh ys) :
    readConfigs sh.files (configFiles a) sh.stdin = some (ys, left sh (decide (str! "-" ∈ configFiles a))) := by
  obtain ⟨l, h1, h2⟩ := h
  cases configPaths_unique h1
  have := readConfigs_of h2
  simpa [usedAfter, left] using this

theorem of_read {ys : List Yaml} {d : Doc} (h : readConfigs sh.files (configFiles a) sh.stdin = some (ys, d)) :
    ConfigRead a sh ys ∧ d = left sh (decide (str! "-" ∈ configFiles a)) := by
  obtain ⟨h1, h2⟩ := opened_of (used := false) h
  exact ⟨⟨_, configPaths, h1⟩, by simpa [usedAfter] using h2⟩

end Subsetter.Proofs
