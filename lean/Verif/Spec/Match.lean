import Verif.Model.Match

/-
Vocabulary for the conditions of multiplexers.
-/
namespace Subsetter.Spec
open Subsetter

/-- The value is the number `x`; `True` and `False` are 1 and 0. -/
def Number : PVal → Rat → Prop
  | .bool b, x => x = if b = true then 1 else 0
  | .int i, x => x = i
  | .num q, x => x = q
  | _, _ => False

/-- The values can be ordered: two numbers or two strings. -/
inductive Comparable : PVal → PVal → Prop
  | numbers {v w : PVal} {x y : Rat} : Number v x → Number w y → Comparable v w
  | strings (s t : Str) : Comparable (.str s) (.str t)

/-- `v` comes before `w`: the smaller number, or the string before in the order of characters. -/
inductive Less : PVal → PVal → Prop
  | numbers {v w : PVal} {x y : Rat} : Number v x → Number w y → x < y → Less v w
  | strings {s t : Str} : List.Lex (· < ·) s t → Less (.str s) (.str t)

/-- The same number, or the same value that is no number. -/
inductive Equal : PVal → PVal → Prop
  | numbers {v w : PVal} {x : Rat} : Number v x → Number w x → Equal v w
  | same {v : PVal} : Equal v v

/-- A condition that suits a value: the comparison makes sense for it. -/
inductive Suits : Condition → PVal → Prop
  | identity {op : CondOp} {cv : CondVal} {v : PVal} : op = .is ∨ op = .isNot ∨ op = .eq ∨ op = .ne → Suits ⟨op, cv⟩ v
  | list {op : CondOp} {ws : List PVal} {v : PVal} : op = .in_ ∨ op = .notIn → Suits ⟨op, .many ws⟩ v
  | text {op : CondOp} {s t : Str} : op = .in_ ∨ op = .notIn ∨ op = .matches → Suits ⟨op, .one (.str t)⟩ (.str s)
  | order {op : CondOp} {v w : PVal} : op = .lt ∨ op = .gt ∨ op = .le ∨ op = .ge → Comparable v w → Suits ⟨op, .one w⟩ v

/-- What is known of identity: there is one `None`, identical objects are equal, and a value of a row is not the list
of a condition. -/
structure IsIdentity (same : PVal → CondVal → Bool) : Prop where
  null : same .none (.one .none) = true
  equal : ∀ v w, same v (.one w) = true → v = w
  list : ∀ v ws, same v (.many ws) = false

end Subsetter.Spec
