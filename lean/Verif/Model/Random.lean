import Verif.Model.Filters
import Verif.Model.PlanModel

/-
Model of the random generators used by filters (`/repo/subsetter/filters.py:203-327`) on top of the primitive
operations of Python's `random.Random`.
-/
namespace Subsetter

/-- Primitive operations of a generator with states `σ`.  `filters.py:232,327`. -/
structure Rng (σ : Type) where
  /-- `_randbelow(n)`, and the index `floor(random() * n)` used by `choices` -/
  below : Nat → σ → Nat × σ
  below_lt : ∀ n s, 0 < n → (below n s).1 < n

/-- `ValueError` of an empty range.  `filters.py:232`. -/
def emptyRange : FilterErr := .outside 1

/-- `Random.randint(low, high)`, i.e. `randrange(low, high + 1)` (`filters.py:232`): `ValueError` for an empty range. -/
def randint {σ : Type} (R : Rng σ) (low high : Int) (s : σ) : Except FilterErr (Int × σ) :=
  let width := high + 1 - low
  if 0 < width then
    let (n, s') := R.below width.toNat s
    .ok (low + n, s')
  else .error emptyRange

/-- `Random.choices(population, k=k)` (`filters.py:327`) for a population that is not empty: one element per step of
`itertools.repeat(None, k)`, which has none for a negative `k`. -/
def choices {σ : Type} (R : Rng σ) (population : Str) : Nat → σ → Str × σ
  | 0, s => ([], s)
  | k + 1, s =>
    let (n, s') := R.below population.length s
    let (rest, s'') := choices R population k s'
    (population.getD n 'x' :: rest, s'')

/-- The outside world with these generators; other generators (floats, uuid, Faker) as in `W`.
`filters.py:217-232,312-327`. -/
def withRandom {σ : Type} (W : Outside σ Val) (R : Rng σ) : Outside σ Val :=
  { W with
    gen := fun g s =>
      match g with
      | .randomInt low high =>
        match randint R low high s with
        | .error e => .error e
        | .ok (i, s') => .ok (.int i, s')
      | .randomString length alphabet =>
        let (x, s') := choices R alphabet length.toNat s
        .ok (.str x, s')
      | _ => W.gen g s }

end Subsetter
