import Verif.Spec.Run

/-
Vocabulary for sequences.
-/
namespace Subsetter.Spec
open Subsetter

/-- The next value of the sequence is larger than every integer in column `c`: rows can be added with it. -/
def Ahead (q : Sequence) (rows : List Row) (c : Str) : Prop := ∀ r ∈ rows, ∀ v : Int, r.get c = .int v → v < q.next

/-- What `currval` gives in a session, if anything, is a value the sequence has given. -/
def Given (cur : Option Int) (q : Sequence) : Prop := ∀ v, cur = some v → q.called = true ∧ v ≤ q.last

end Subsetter.Spec
