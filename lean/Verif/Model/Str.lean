import Mathlib.Data.List.Lex
import Mathlib.Order.Defs.LinearOrder
import Mathlib.Data.Char

/-
Python strings and qualified table names.
-/
namespace Subsetter

/-- A Python `str` is the list of its characters (ordered lexicographically by code point, like
Python's comparison).  `common.py:23`. -/
abbrev Str := List Char

open Lean in
/-- `str! "abc"` is the list of the characters of the literal. -/
macro "str! " s:str : term => do
  let cs := s.getString.toList.map fun c => (Syntax.mkCharLit c : TSyntax `term)
  `(([ $(cs.toArray),* ] : List Char))

/-- `f"{schema}.{name}"`.  `metadata.py:55`. -/
def render (schema name : Str) : Str := schema ++ '.' :: name

/-- `s.split(".", 1)` when there is a dot (`none` models the one-element result).
`common.py:24`. -/
def splitDot : Str → Option (Str × Str)
  | [] => none
  | c :: cs =>
    if c = '.' then some ([], cs)
    else
      match splitDot cs with
      | none => none
      | some (a, b) => some (c :: a, b)

/-- `parse_table_name` (`common.py:23-27`); `none` models the `ValueError`. -/
def parseTableName (s : Str) : Option (Str × Str) := splitDot s

end Subsetter
