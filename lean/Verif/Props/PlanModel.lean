import Verif.Proofs.SimplifyTotal
import Verif.Proofs.JoinSem

/-
Properties C20-C22: simplification and join strategies of `plan_model.py`.
-/
namespace Subsetter.Props
open Subsetter Spec

/-! ### Instance used for examples and counterexamples -/

/-- An engine for concrete evaluations: `=` is equality, other operators and raw SQL are NULL,
every `random()` is 0 and `ORDER BY random()` keeps the order. -/
def exEngine : Engine where
  op := fun o a b => match o with | .eq => eq3 a b | _ => none
  sql := fun _ _ _ => none
  query := fun _ => []
  below := fun thr _ _ _ => decide (0 < thr)
  below_zero := fun _ _ _ _ h => decide_eq_false (not_lt.2 h)
  below_one := fun _ _ _ _ h => decide_eq_true (lt_of_lt_of_le (by decide) h)
  shuffle := fun _ _ l => l
  shuffle_perm := fun _ _ _ => List.Perm.refl _

/-- Source table `s.u`. -/
def exU : TableId := ⟨str! "s", str! "u", false⟩
/-- Sampled table `s.o`. -/
def exO : TableId := ⟨str! "s", str! "o", true⟩

/-- `s.u` has rows with id 1, 2, 3; the sampled `s.o` has two rows with uid 1 and one with NULL. -/
def exEnv : Env where
  rows := fun t =>
    if t = exU then
      [[(str! "id", .int 1)], [(str! "id", .int 2)], [(str! "id", .int 3)]]
    else if t = exO then
      [[(str! "id", .int 7), (str! "uid", .int 1)], [(str! "id", .int 8), (str! "uid", .int 1)],
       [(str! "id", .int 9), (str! "uid", .null)]]
    else []
  pk := fun _ => [str! "id"]

def exJoin : Join := ⟨exO, [str! "id"], [str! "uid"], true⟩

/-- Users with an order, and user 3: the statement the planner makes for a target with a reverse
relationship (`planner.py:425-434`). -/
def exUnion : Stmt := .union
  [.mk none exU (some (.or [.op .eq (str! "id") (.int 3), .false_])) none none false 0,
   .mk none exU none none (some [exJoin]) true 0]

/-! ### C20 -/

/-- C20, restricted to conditions in which no IN-subquery is a union that merging would change
(`MergeSafe`): see `c20_subquery_counterexample` for why the restriction is needed. -/
theorem c20_condition_simplify_same_partial {w w' : Where} (hs : w.MergeSafe)
    (h : w.simplify = .ok w') (E : Engine) (D : Env) (t : TableId) (i : Nat) (r : Row) :
    Where.eval E D t i r w' = Where.eval E D t i r w :=
  ((simp_correct w.size).1 w w' h hs).2 E D t i r

/-- C20, totality: `simplify` terminates on every condition and its only possible failure is the
`IndexError` of an empty union in a subquery; without one it succeeds. -/
theorem c20_condition_simplify_total (w : Where) :
    ((∃ w', w.simplify = .ok w') ∨ w.simplify = .error .index) ∧
    (w.NoEmptyUnion → ∃ w', w.simplify = .ok w') := by
  have h1 := (simp_total w.size).1 w (le_refl _)
  refine ⟨?_, fun hn => ?_⟩
  · rcases h1 with ⟨w', h, -⟩ | h
    · exact Or.inl ⟨w', h⟩
    · exact Or.inr h
  · rcases h1 with ⟨w', h, -⟩ | h
    · exact ⟨w', h⟩
    · exact absurd h ((simp_noIndex w.size).1 w hn).1

/-- The simplified condition is never larger. -/
theorem c20_condition_simplify_smaller {w w' : Where} (h : w.simplify = .ok w') :
    w'.size ≤ w.size := by
  rcases (simp_total w.size).1 w (le_refl _) with ⟨w'', h', hs⟩ | h'
  · rw [Where.simplify] at h; rw [h] at h'; cases h'; exact hs
  · rw [Where.simplify] at h; rw [h] at h'; cases h'

/-- Non-trivial instance: nesting, constants and thresholds all disappear. -/
def exCond : Where :=
  .and [.true_, .or [.false_, .and [.op .eq (str! "id") (.int 1), .random 1 0]],
    .and [.sql (str! "x > 1"), .or [.random 0 1, .inVals [str! "id"] [[.int 4]] true]]]

example : exCond.MergeSafe ∧ exCond.NoEmptyUnion := by
  simp [exCond, Where.MergeSafe, Where.MergeSafes, Where.NoEmptyUnion, Where.NoEmptyUnions]

example : ∃ w', exCond.simplify = .ok w' ∧ w'.size = 4 ∧ exCond.size = 12 := by
  refine ⟨.and [.op .eq (str! "id") (.int 1), .sql (str! "x > 1"),
    .inVals [str! "id"] [[.int 4]] true], ?_, by decide, by decide⟩
  rfl

/-- The restriction of `c20_condition_simplify_same_partial` is needed: the subquery below returns
the ids 3 and 1, its simplified form all ids, so the condition changes on row 2. -/
theorem c20_subquery_counterexample :
    ∃ w', (Where.inStmt [str! "id"] exUnion false).simplify = .ok w' ∧
      Where.eval exEngine exEnv exU 0 [(str! "id", .int 2)] (.inStmt [str! "id"] exUnion false)
        = some false ∧
      Where.eval exEngine exEnv exU 0 [(str! "id", .int 2)] w' = some true := by
  refine ⟨.inStmt [str! "id"] (.select (.mk none exU none none none false 0)) false, rfl, ?_, ?_⟩
  · decide
  · decide

/-! ### C21 -/

/-- C21, restricted to statements in which merging a union loses no joins (`MergeSafe`): the
simplified statement selects the same set of rows. -/
theorem c21_statement_simplify_same_rows_partial {s s' : Stmt} (hs : s.MergeSafe)
    (h : s.simplify = .ok s') (E : Engine) (D : Env) (r : Row) :
    r ∈ s'.eval E D ↔ r ∈ s.eval E D :=
  ((simp_correct s.size).2.2 s s' h hs).2 E D r

/-- C21 for a single select: the very same rows in the same order. -/
theorem c21_select_simplify_same_list_partial {s s' : Sel} (hs : s.MergeSafe)
    (h : s.simplify = .ok s') (E : Engine) (D : Env) :
    s'.eval E D = s.eval E D :=
  ((simp_correct s.size).2.1 s s' h hs).eval E D

/-- C21, totality: `simplify` terminates on every statement, only an empty union makes it fail. -/
theorem c21_statement_simplify_total (s : Stmt) :
    ((∃ s', s.simplify = .ok s') ∨ s.simplify = .error .index) ∧
    (s.NoEmptyUnion → ∃ s', s.simplify = .ok s') := by
  have h1 := (simp_total s.size).2.2 s (le_refl _)
  refine ⟨?_, fun hn => ?_⟩
  · rcases h1 with ⟨w', h, -⟩ | h
    · exact Or.inl ⟨w', h⟩
    · exact Or.inr h
  · rcases h1 with ⟨w', h, -⟩ | h
    · exact ⟨w', h⟩
    · exact absurd h ((simp_noIndex s.size).2.2 s hn).1

/-- Non-trivial instance: a union of three members, one of them empty, is merged. -/
def exUnionFree : Stmt := .union
  [.mk none exU (some (.op .eq (str! "id") (.int 3))) none none false 0,
   .mk none exU (some .false_) none none false 0,
   .mk none exU (some (.op .eq (str! "id") (.int 1))) none none false 0]

example : exUnionFree.MergeSafe ∧ exUnionFree.NoEmptyUnion := by
  simp [exUnionFree, Stmt.MergeSafe, Sel.MergeSafes, Sel.MergeSafe, Where.MergeSafe, Sel.JoinFree,
    Stmt.NoEmptyUnion, Sel.NoEmptyUnions, Sel.NoEmptyUnion, Where.NoEmptyUnion]

example : exUnionFree.simplify = .ok (.select (.mk none exU (some (.or
    [.op .eq (str! "id") (.int 3), .op .eq (str! "id") (.int 1)])) none none false 0)) := rfl

/-- The restriction is needed (`plan_model.py:370-382` forgets `joins`): the planner's statement
for a target with a reverse relationship is simplified to the whole table. -/
theorem c21_union_merge_drops_joins :
    exUnion.simplify = .ok (.select (.mk none exU none none none false 0)) ∧
    [(str! "id", Val.int 2)] ∉ exUnion.eval exEngine exEnv ∧
    [(str! "id", Val.int 2)] ∈
      (Stmt.select (.mk none exU none none none false 0)).eval exEngine exEnv := by
  refine ⟨rfl, by decide, by decide⟩

/-- Only the set of rows is preserved: UNION removes duplicates, the merged select keeps them. -/
theorem c21_union_merge_keeps_duplicates :
    ∃ (s s' : Stmt) (D : Env), s.MergeSafe ∧ s.simplify = .ok s' ∧
      (s.eval exEngine D).length = 1 ∧ (s'.eval exEngine D).length = 2 := by
  refine ⟨.union [.mk none exU none none none false 0, .mk none exU none none none false 0],
    .select (.mk none exU none none none false 0),
    ⟨fun _ => [[(str! "a", .int 1)], [(str! "a", .int 1)]], fun _ => []⟩, ?_, rfl, by decide,
    by decide⟩
  simp [Stmt.MergeSafe, Sel.MergeSafes, Sel.MergeSafe, Sel.JoinFree]

/-- An empty union cannot be simplified (`self.statements[0]` is an `IndexError`). -/
theorem c21_empty_union_fails : (Stmt.union []).simplify = .error .index := rfl

/-! ### C22 -/

open Classical in
/-- C22: a select with joins returns exactly the rows of its table that refer to a row of every
joined table (inner) or of some joined table (outer) and satisfy the condition, each once and in
table order, whichever strategy is used for each join. -/
theorem c22_join_rows {D : Env} (E : Engine) {cols : Option (List Str)} {t : TableId} {w : Where}
    {js : List Join} {outer : Bool} {tag : Nat} (hne : js ≠ []) (hwf : ∀ j ∈ js, j.WellFormed)
    (hpk : D.pk t ≠ [] → ((D.rows t).map fun r => (D.pk t).map r.get).Nodup) :
    Sel.eval E D (.mk cols t (some w) none (some js) outer tag) =
      ((D.rows t).zipIdx.filter fun p =>
        decide (JoinOK D js outer p.1 ∧ Where.eval E D t p.2 p.1 w = some true)).map
        fun p => project cols p.1 := by
  rw [Sel.eval, fromWhere_eq hne hwf hpk, applyLimit, List.map_map]
  congr 1
  apply List.filter_congr
  intro p _
  rw [Bool.eq_iff_iff]
  simp

/-- C22: the `half_unique` marks have no influence on the result, with or without condition, limit
and column list. -/
theorem c22_half_unique_irrelevant {D : Env} (E : Engine) {cols : Option (List Str)} {t : TableId}
    {w : Option Where} {limit : Option Nat} {js : List Join} {outer : Bool} {tag : Nat}
    (mark : Join → Bool) (hwf : ∀ j ∈ js, j.WellFormed)
    (hpk : D.pk t ≠ [] → ((D.rows t).map fun r => (D.pk t).map r.get).Nodup) :
    Sel.eval E D (.mk cols t w limit (some (js.map fun j => { j with halfUnique := mark j })) outer
      tag) = Sel.eval E D (.mk cols t w limit (some js) outer tag) := by
  have key : ∀ cond, fromWhere D t (some (js.map fun j => { j with halfUnique := mark j })) outer
      cond = fromWhere D t (some js) outer cond := by
    intro cond
    rcases js with _ | ⟨j, js⟩
    · rfl
    · classical
      have hwf' : ∀ x ∈ (j :: js).map (fun j => { j with halfUnique := mark j }),
          x.WellFormed := by
        intro x hx
        obtain ⟨y, hy, rfl⟩ := List.mem_map.1 hx
        exact hwf y hy
      rw [fromWhere_eq (by simp) hwf' hpk, fromWhere_eq (by simp) hwf hpk]
      congr 1
      apply List.filter_congr
      intro p _
      have : JoinOK D ((j :: js).map fun j => { j with halfUnique := mark j }) outer p.1 ↔
          JoinOK D (j :: js) outer p.1 := by
        cases outer <;> simp [JoinOK]
      rw [Bool.eq_iff_iff, Bool.and_eq_true, Bool.and_eq_true, decide_eq_true_iff,
        decide_eq_true_iff]
      exact and_congr_left' this
  cases w with
  | none => rw [Sel.eval, Sel.eval, key]
  | some w => rw [Sel.eval, Sel.eval, key]

/-- Non-trivial instance: user 1 has two sampled orders and is returned once by both strategies;
the order with NULL matches nobody. -/
example : exEnv.pk exU ≠ [] ∧ ((exEnv.rows exU).map fun r => (exEnv.pk exU).map r.get).Nodup ∧
    exJoin.WellFormed := by
  refine ⟨by decide, by decide, rfl, by decide⟩

example : Sel.eval exEngine exEnv (.mk none exU none none (some [exJoin]) true 0) =
      [[(str! "id", .int 1)]] ∧
    Sel.eval exEngine exEnv (.mk none exU none none (some [{ exJoin with halfUnique := false }])
      true 0) = [[(str! "id", .int 1)]] := by decide

/-- The primary key hypothesis is needed: with repeated keys GROUP BY merges rows. -/
theorem c22_needs_primary_key :
    let D : Env := ⟨fun _ => [[(str! "id", .int 1), (str! "x", .int 1)],
      [(str! "id", .int 1), (str! "x", .int 2)]], fun _ => [str! "id"]⟩
    let j : Join := ⟨exO, [str! "id"], [str! "id"], true⟩
    (Sel.eval exEngine D (.mk none exU none none (some [j]) false 0)).length = 1 ∧
    (Sel.eval exEngine D (.mk none exU none none (some [{ j with halfUnique := false }])
      false 0)).length = 2 := by decide

end Subsetter.Props
