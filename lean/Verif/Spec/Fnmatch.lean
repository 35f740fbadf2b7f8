import Verif.Model.Str
import Mathlib.Data.Char

/-
Patterns and what they match, as documented for `fnmatch`.
-/
namespace Subsetter.Spec
open Subsetter

/-- Members of a set of characters. -/
inductive Member where
  | one (c : Char)
  | range (lo hi : Char)

/-- Pieces of a pattern. -/
inductive Piece where
  | char (c : Char)
  | any
  | star
  | oneOf (ms : List Member)
  | noneOf (ms : List Member)

/-- How a member is written. -/
def Member.text : Member → Str
  | .one c => [c]
  | .range lo hi => [lo, '-', hi]

/-- How a pattern is written. -/
def Piece.text : Piece → Str
  | .char c => [c]
  | .any => ['?']
  | .star => ['*']
  | .oneOf ms => '[' :: ms.flatMap Member.text ++ [']']
  | .noneOf ms => '[' :: '!' :: ms.flatMap Member.text ++ [']']

def Plainly (c : Char) : Prop := c ≠ ']' ∧ c ≠ '-' ∧ c ≠ '!'

/-- The characters of a member have no special meaning in a set. -/
def Member.OK : Member → Prop
  | .one c => Plainly c
  | .range lo hi => Plainly lo ∧ Plainly hi

/-- Characters of a pattern have no special meaning; sets are not empty. -/
def Piece.OK : Piece → Prop
  | .char c => c ≠ '*' ∧ c ≠ '?' ∧ c ≠ '['
  | .any => True
  | .star => True
  | .oneOf ms => ms ≠ [] ∧ ∀ m ∈ ms, m.OK
  | .noneOf ms => ms ≠ [] ∧ ∀ m ∈ ms, m.OK

/-- The same for pieces without sets, where `[` is a character too. -/
def Piece.Open : Piece → Prop
  | .char c => c ≠ '*' ∧ c ≠ '?'
  | .any => True
  | .star => True
  | .oneOf _ => False
  | .noneOf _ => False

/-- No `[` is closed. -/
def NoSet (s : Str) : Prop := ∀ a b, s = a ++ '[' :: b → ']' ∉ b

def Member.Has : Member → Char → Prop
  | .one d, c => c = d
  | .range lo hi, c => lo ≤ c ∧ c ≤ hi

/-- The strings a piece stands for. -/
def Piece.Means : Piece → Str → Prop
  | .char c, s => s = [c]
  | .any, s => ∃ c, s = [c]
  | .star, _ => True
  | .oneOf ms, s => ∃ c, s = [c] ∧ ∃ m ∈ ms, m.Has c
  | .noneOf ms, s => ∃ c, s = [c] ∧ ∀ m ∈ ms, ¬ m.Has c

/-- A pattern stands for the strings made of one string for each piece. -/
inductive Means : List Piece → Str → Prop
  | nil : Means [] []
  | cons {p : Piece} {ps : List Piece} {s t : Str} : p.Means s → Means ps t → Means (p :: ps) (s ++ t)

end Subsetter.Spec
