import Verif.Model.Filters
import Verif.Model.Fnmatch
import Verif.Model.Sql

/-
Model of `MultiplexCondition` (`/repo/subsetter/filters.py:556-587`) on Python values.
-/
namespace Subsetter

/-- Values of columns and conditions as far as comparisons distinguish them.  `num` stands for `float` (not NaN, not
infinite) and `Decimal`, which Python compares exactly with each other and with `int`; `other` for values of types that
are equal to no number, no string and not to `None`, and that cannot be ordered with them (dates, bytes, lists).
`filters.py:560,563`. -/
inductive PVal where
  | none
  | bool (b : Bool)
  | int (i : Int)
  | num (q : Rat)
  | str (s : Str)
  | other (n : Nat)
  deriving DecidableEq, Repr

/-- `op` of a condition (`filters.py:557-559`). -/
inductive CondOp where
  | is | isNot | in_ | notIn | eq | ne | lt | gt | le | ge | matches
  deriving DecidableEq, Repr

/-- `value` of a condition (`filters.py:560`): a scalar or a list of scalars. -/
inductive CondVal where
  | one (v : PVal)
  | many (vs : List PVal)
  deriving DecidableEq, Repr

/-- `op` and `value` of a `MultiplexCondition`.  `filters.py:556-560`. -/
structure Condition where
  op : CondOp
  value : CondVal
  deriving DecidableEq, Repr

/-- `TypeError` of a comparison.  `filters.py:570-586`. -/
def typeError : FilterErr := .outside 0

/-- The number a value is for comparisons; `bool` is a subclass of `int`.
`filters.py:573-584`. -/
def PVal.number : PVal → Option Rat
  | .bool b => some (if b then 1 else 0)
  | .int i => some i
  | .num q => some q
  | _ => Option.none

/-- `value == other` for scalars.  `filters.py:573-576`. -/
def pyEq (v w : PVal) : Bool :=
  match v.number, w.number with
  | some a, some b => decide (a = b)
  | _, _ => decide (v = w)

/-- `s < t` for strings: by code points.  `filters.py:577-584`. -/
def strLt : Str → Str → Bool
  | _, [] => false
  | [], _ :: _ => true
  | c :: s, d :: t => if c = d then strLt s t else decide (c < d)

/-- `value < other` for scalars; `none`: `TypeError`.  `filters.py:577-580`. -/
def pyLt (v w : PVal) : Option Bool :=
  match v.number, w.number with
  | some a, some b => some (decide (a < b))
  | _, _ =>
    match v, w with
    | .str s, .str t => some (strLt s t)
    | _, _ => Option.none

/-- `value <= other` for scalars; `none`: `TypeError`.  `filters.py:581-584`. -/
def pyLe (v w : PVal) : Option Bool :=
  match v.number, w.number with
  | some a, some b => some (decide (a ≤ b))
  | _, _ =>
    match v, w with
    | .str s, .str t => some (!strLt t s)
    | _, _ => Option.none

/-- `s in t` for strings.  `filters.py:569-572`. -/
def strIn (s : Str) : Str → Bool
  | [] => s.isEmpty
  | d :: t => s.isPrefixOf (d :: t) || strIn s t

/-- `value in self.value` (`filters.py:570`); for a list Python compares by identity or equality, which is equality for
these values. -/
def pyIn (v : PVal) : CondVal → Option Bool
  | .many ws => some (ws.any (pyEq v))
  | .one (.str t) =>
    match v with
    | .str s => some (strIn s t)
    | _ => Option.none
  | .one _ => Option.none

/-- An ordering of `value` and `self.value`; a list cannot be ordered with the values modelled.
`filters.py:577-584`. -/
def ordered (f : PVal → PVal → Option Bool) (v : PVal) : CondVal → Option Bool
  | .one w => f v w
  | .many _ => Option.none

/-- `value == self.value`.  `filters.py:573-576`. -/
def equals (v : PVal) : CondVal → Bool
  | .one w => pyEq v w
  | .many _ => false

/-- The result of a comparison that may raise `TypeError`.  `filters.py:569-584`. -/
def answer : Option Bool → Except FilterErr Bool
  | some b => .ok b
  | none => .error typeError

/-- `MultiplexCondition.match` (`filters.py:563-587`).  `same` tells whether two objects are identical.
`fnmatch` of anything but two strings raises `TypeError`. -/
def Condition.match (same : PVal → CondVal → Bool) (c : Condition) (v : PVal) : Except FilterErr Bool :=
  match c.op with
  | .is => .ok (same v c.value)
  | .isNot => .ok (!same v c.value)
  | .in_ => answer (pyIn v c.value)
  | .notIn => answer ((pyIn v c.value).map (!·))
  | .eq => .ok (equals v c.value)
  | .ne => .ok (!equals v c.value)
  | .lt => answer (ordered pyLt v c.value)
  | .gt => answer (ordered (fun v w => pyLt w v) v c.value)
  | .le => answer (ordered pyLe v c.value)
  | .ge => answer (ordered (fun v w => pyLe w v) v c.value)
  | .matches =>
    match v, c.value with
    | .str s, .one (.str pat) => .ok (fnmatch s pat)
    | _, _ => .error typeError

/-- Values of the model of SQL as values of Python.  `filters.py:636-638`. -/
def PVal.ofVal : Val → PVal
  | .null => .none
  | .int i => .int i
  | .str s => .str s
  | .other n => .other n

/-- An outside world with the comparisons of `match`; `conds` are the conditions of all multiplexers by number.
`filters.py:563-587,637-639`. -/
def withConditions {σ : Type} (W : Outside σ Val) (same : PVal → CondVal → Bool) (conds : List Condition) : Outside σ Val :=
  { W with
    holds := fun n v =>
      match conds[n]? with
      | some c => c.match same (.ofVal v)
      | none => .ok false }

end Subsetter
