import Verif.Model.Random
import Verif.Spec.Filters

/-
What the values produced by filters look like.
-/
namespace Subsetter.Spec
open Subsetter

/-- The characters of an alphabet. -/
def InAlphabet (custom : Option Str) : Alphabet → Char → Prop
  | .alnum, c => ('a' ≤ c ∧ c ≤ 'z') ∨ ('A' ≤ c ∧ c ≤ 'Z') ∨ ('0' ≤ c ∧ c ≤ '9')
  | .hex, c => ('0' ≤ c ∧ c ≤ '9') ∨ ('a' ≤ c ∧ c ≤ 'f')
  | .hexLower, c => ('0' ≤ c ∧ c ≤ '9') ∨ ('a' ≤ c ∧ c ≤ 'f')
  | .hexUpper, c => ('0' ≤ c ∧ c ≤ '9') ∨ ('A' ≤ c ∧ c ≤ 'F')
  | .digit, c => '0' ≤ c ∧ c ≤ '9'
  | .alpha, c => ('a' ≤ c ∧ c ≤ 'z') ∨ ('A' ≤ c ∧ c ≤ 'Z')
  | .alphaLower, c => 'a' ≤ c ∧ c ≤ 'z'
  | .alphaUpper, c => 'A' ≤ c ∧ c ≤ 'Z'
  | .custom, c => ∃ s, custom = some s ∧ c ∈ s

/-- The values a filter may write into its column `c`; nothing is said of floats, uuids, Faker, `zero` and plugins. -/
def Produces (c : Str) : SimpleCfg Val → Val → Prop
  | .null _, v => v = .null
  | .constant cs vs, v => ∃ i : Nat, cs[i]? = some c ∧ vs[i]? = some v
  | .randomInt _ low high, v => ∃ i, v = .int i ∧ low ≤ i ∧ i ≤ high
  | .randomString _ n a custom, v => ∃ x, v = .str x ∧ (x.length : Int) = max n 0 ∧ ∀ d ∈ x, InAlphabet custom a d
  | _, _ => True

/-- Filters that cannot fail. -/
def Harmless : SimpleCfg Val → Prop
  | .null _ | .omit _ | .constant _ _ | .randomString _ _ _ _ => True
  | .randomInt _ low high => low ≤ high
  | _ => False

end Subsetter.Spec
