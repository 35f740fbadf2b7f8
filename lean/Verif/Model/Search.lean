import Verif.Model.Py

/-
Model of `pydantic_search` (`/repo/subsetter/common.py:224-253`).
-/
namespace Subsetter

/-- An object the search looks into; references to other objects are given by `id`.
`common.py:224-253`. -/
inductive Obj where
  | model (fields : List Nat)
  | list (elems : List Nat)
  | dict (values : List Nat)
  deriving DecidableEq, Repr

/-- What is pushed when the object is taken from the stack (`common.py:242-253`). -/
def Obj.children : Obj → List Nat
  | .model fs => fs
  | .list es => es
  | .dict vs => vs

/-- `isinstance(data, BaseModel)` (`common.py:242`). -/
def Obj.isModel : Obj → Bool
  | .model _ => true
  | _ => false

/-- Models, lists and dicts by `id`; other objects are not listed.  `common.py:224-253`. -/
abbrev Heap := Dict Nat Obj

/-- Exceptions of the search.  `common.py:224-253`. -/
inductive SearchErr where
  | fuel
  | missing
  deriving DecidableEq, Repr

/-- `_push` (`common.py:233-237`); the head of the list is the top of the stack. -/
def pushObj (heap : Heap) (st : List Nat × List Nat) (x : Nat) : List Nat × List Nat :=
  if (dget heap x).isSome then
    if x ∈ st.1 then st else (setAdd st.1 x, x :: st.2)
  else st

/-- The `while` loop (`common.py:240-253`): the models yielded. -/
def searchLoop (heap : Heap) : Nat → List Nat × List Nat → Except SearchErr (List Nat)
  | _, (_, []) => .ok []
  | 0, (_, _ :: _) => .error .fuel
  | n + 1, (vis, x :: stack) =>
    match dget heap x with
    | none => .error .missing
    | some o =>
      match searchLoop heap n (o.children.foldl (pushObj heap) (vis, stack)) with
      | .error e => .error e
      | .ok ys => .ok (if o.isModel then x :: ys else ys)

/-- `pydantic_search(root)`.  `common.py:224-253`. -/
def search (heap : Heap) (root : Nat) : Except SearchErr (List Nat) :=
  searchLoop heap heap.length (pushObj heap ([], []) root)

end Subsetter
