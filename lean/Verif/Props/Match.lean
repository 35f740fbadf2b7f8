import Verif.Proofs.Match
import Verif.Props.Filters
import Verif.Props.Fnmatch

/-
Property C68: the conditions of multiplexers.
-/
namespace Subsetter.Props
open Subsetter Spec

variable {same : PVal → CondVal → Bool}

/-- C68. When each condition holds. -/
theorem c68_meaning (v w : PVal) (ws : List PVal) (s t : Str) :
    (Condition.match same ⟨.eq, .one w⟩ v = .ok true ↔ Equal v w) ∧
    (Condition.match same ⟨.lt, .one w⟩ v = .ok true ↔ Less v w) ∧
    (Condition.match same ⟨.gt, .one w⟩ v = .ok true ↔ Less w v) ∧
    (Condition.match same ⟨.le, .one w⟩ v = .ok true ↔ Less v w ∨ Comparable v w ∧ Equal v w) ∧
    (Condition.match same ⟨.ge, .one w⟩ v = .ok true ↔ Less w v ∨ Comparable v w ∧ Equal v w) ∧
    (Condition.match same ⟨.in_, .many ws⟩ v = .ok true ↔ ∃ w ∈ ws, Equal v w) ∧
    (Condition.match same ⟨.in_, .one (.str t)⟩ (.str s) = .ok true ↔ s <:+: t) ∧
    (Condition.match same ⟨.matches, .one (.str t)⟩ (.str s) = .ok true ↔ fnmatch s t = true) := by
  have hle : ∀ v w : PVal, pyLe v w = some true ↔ Less v w ∨ Comparable v w ∧ Equal v w := by
    intro v w
    constructor
    · intro h
      have hc : Comparable v w := comparable_le.2 (by rw [h]; rfl)
      rcases less_eq_greater hc with h1 | h1 | h1
      · exact .inl h1
      · exact .inr ⟨hc, h1⟩
      · rw [pyLe_eq, pyLt_iff.2 h1] at h; cases h
    · intro h
      have hc : Comparable w v := by
        rcases h with h | h
        · exact comparable_symm (comparable_lt.2 (by rw [pyLt_iff.2 h]; rfl))
        · exact comparable_symm h.1
      rw [pyLe_eq]
      cases h1 : pyLt w v with
      | none => rw [comparable_lt, h1] at hc; cases hc
      | some b =>
        cases b with
        | false => rfl
        | true =>
          exfalso
          have h2 := pyLt_iff.1 h1
          cases h2 with
          | @numbers _ _ x y h2 h3 h4 =>
            rcases h with h | ⟨-, h⟩
            · cases h with
              | numbers h5 h6 h7 =>
                have e1 := (number_iff.1 h2).symm.trans (number_iff.1 h6)
                have e2 := (number_iff.1 h3).symm.trans (number_iff.1 h5)
                cases e1; cases e2
                exact absurd h7 (not_lt.2 h4.le)
              | strings _ => exact absurd h2 (by simp [Number])
            · cases h with
              | numbers h5 h6 =>
                have e1 := (number_iff.1 h2).symm.trans (number_iff.1 h6)
                have e2 := (number_iff.1 h3).symm.trans (number_iff.1 h5)
                cases e1; cases e2
                exact absurd h4 (lt_irrefl _)
              | same =>
                have e1 := (number_iff.1 h2).symm.trans (number_iff.1 h3)
                cases e1
                exact absurd h4 (lt_irrefl _)
          | @strings s t h4 =>
            rcases h with h | ⟨-, h⟩
            · cases h with
              | numbers h5 h6 h7 => exact absurd h5 (by simp [Number])
              | strings h5 => exact absurd h5 (asymm_of (List.Lex ((· < ·) : Char → Char → Prop)) h4)
            · cases h with
              | numbers h5 _ => exact absurd h5 (by simp [Number])
              | same => exact absurd h4 (irrefl_of (List.Lex ((· < ·) : Char → Char → Prop)) _)
  have ans : ∀ r : Option Bool, answer r = .ok true ↔ r = some true := by
    rintro (_ | b) <;> simp [answer]
  refine ⟨?_, ?_, ?_, ?_, ?_, ?_, ?_, ?_⟩
  · simp [Condition.match, equals, pyEq_iff]
  · simpa [Condition.match, ordered, pyLt_iff] using ans (pyLt v w)
  · simpa [Condition.match, ordered, pyLt_iff] using ans (pyLt w v)
  · simpa [Condition.match, ordered, hle] using ans (pyLe v w)
  · have : Comparable v w ∧ Equal v w ↔ Comparable w v ∧ Equal w v := by
      constructor <;> rintro ⟨h1, h2⟩ <;> refine ⟨comparable_symm h1, ?_⟩
      all_goals
        cases h2 with
        | numbers h3 h4 => exact .numbers h4 h3
        | same => exact .same
    rw [this, ← hle w v]
    simpa [Condition.match, ordered] using ans (pyLe w v)
  · simp [Condition.match, pyIn, pyEq_iff, answer]
  · simp [Condition.match, pyIn, strIn_iff, answer]
  · simp [Condition.match]

/-- C68. `is None` and `= None` hold for NULL only; on anything else `is` holds at most for equal values. -/
theorem c68_null (h : IsIdentity same) (v w : PVal) :
    (Condition.match same ⟨.is, .one .none⟩ v = .ok true ↔ v = .none) ∧
    (Condition.match same ⟨.eq, .one .none⟩ v = .ok true ↔ v = .none) ∧
    (Condition.match same ⟨.is, .one w⟩ v = .ok true → Condition.match same ⟨.eq, .one w⟩ v = .ok true) := by
  refine ⟨?_, ?_, ?_⟩
  · simp only [Condition.match, Except.ok.injEq]
    exact ⟨h.equal v .none, fun e => e ▸ h.null⟩
  · rw [(c68_meaning v .none [] [] []).1]
    constructor
    · intro h
      cases h with
      | numbers _ h2 => exact absurd h2 (by simp [Number])
      | same => rfl
    · rintro rfl; exact .same
  · intro h1
    simp only [Condition.match, Except.ok.injEq] at h1
    rw [(c68_meaning v w [] [] []).1, h.equal v w h1]
    exact .same

/-- C68. Opposite conditions: one holds if and only if the other does not, and they fail for the same values. -/
theorem c68_opposite (v : PVal) (cv : CondVal) {op op' : CondOp}
    (h : (op, op') ∈ [(CondOp.is, CondOp.isNot), (.in_, .notIn), (.eq, .ne), (.lt, .ge), (.gt, .le)]) :
    Condition.match same ⟨op', cv⟩ v = (Condition.match same ⟨op, cv⟩ v).map (!·) := by
  simp only [List.mem_cons, Prod.mk.injEq, List.not_mem_nil, or_false] at h
  rcases h with ⟨rfl, rfl⟩ | ⟨rfl, rfl⟩ | ⟨rfl, rfl⟩ | ⟨rfl, rfl⟩ | ⟨rfl, rfl⟩
  · rfl
  · simp only [Condition.match]
    cases pyIn v cv <;> rfl
  · rfl
  · cases cv with
    | many ws => rfl
    | one w =>
      simp only [Condition.match, ordered, pyLe_eq]
      cases pyLt v w <;> rfl
  · cases cv with
    | many ws => rfl
    | one w =>
      simp only [Condition.match, ordered, pyLe_eq]
      cases pyLt w v <;> rfl

/-- C68. A comparison fails exactly for the values it does not suit.  Missing: that a condition that suits no value is
rejected before sampling, see `c68_late`. -/
theorem c68_fails_partial (c : Condition) (v : PVal) : (∃ e, c.match same v = .error e) ↔ ¬ Suits c v := by
  have ans : ∀ r : Option Bool, (∃ e, answer r = .error e) ↔ r = none := by
    rintro (_ | b) <;> simp [answer]
  have hin : ∀ op, op = CondOp.in_ ∨ op = CondOp.notIn → ∀ cv, pyIn v cv = none ↔ ¬ Suits ⟨op, cv⟩ v := by
    intro op hop cv
    cases cv with
    | many ws => simp only [pyIn, reduceCtorEq, false_iff, not_not]; exact .list hop
    | one w =>
      constructor
      · intro h hs
        cases hs with
        | identity h => rcases hop with rfl | rfl <;> simp at h
        | text h => simp [pyIn] at h
        | order h => rcases hop with rfl | rfl <;> simp at h
      · intro h
        cases w with
        | str t =>
          cases v with
          | str s => exact absurd (.text (by rcases hop with rfl | rfl <;> simp)) h
          | _ => rfl
        | _ => rfl
  have hord : ∀ op, op = CondOp.lt ∨ op = .gt ∨ op = .le ∨ op = .ge → ∀ f : PVal → PVal → Option Bool,
      (∀ v w, Comparable v w ↔ (f v w).isSome) → ∀ cv, ordered f v cv = none ↔ ¬ Suits ⟨op, cv⟩ v := by
    intro op hop f hf cv
    cases cv with
    | many ws =>
      simp only [ordered, true_iff]
      intro hs
      cases hs with
      | identity h => rcases hop with rfl | rfl | rfl | rfl <;> simp at h
      | list h => rcases hop with rfl | rfl | rfl | rfl <;> simp at h
    | one w =>
      simp only [ordered]
      constructor
      · intro h hs
        cases hs with
        | identity h => rcases hop with rfl | rfl | rfl | rfl <;> simp at h
        | text h => rcases hop with rfl | rfl | rfl | rfl <;> simp at h
        | order _ h1 => rw [hf, h] at h1; cases h1
      · intro h
        cases h1 : f v w with
        | none => rfl
        | some b => exact absurd (.order hop ((hf v w).2 (by rw [h1]; rfl))) h
  obtain ⟨op, cv⟩ := c
  have hid : (op = .is ∨ op = .isNot ∨ op = .eq ∨ op = .ne) → ((∃ e, (Condition.match same ⟨op, cv⟩ v) = .error e) ↔ ¬ Suits ⟨op, cv⟩ v) := by
    intro h
    have h2 : ¬ ∃ e, (Condition.match same ⟨op, cv⟩ v) = .error e := by
      rcases h with rfl | rfl | rfl | rfl <;> simp [Condition.match]
    exact ⟨fun h3 => absurd h3 h2, fun h3 => absurd (.identity h) h3⟩
  cases op with
  | is => exact hid (by simp)
  | isNot => exact hid (by simp)
  | eq => exact hid (by simp)
  | ne => exact hid (by simp)
  | in_ => exact (ans _).trans (hin .in_ (by simp) cv)
  | notIn =>
    refine (ans _).trans (Iff.trans ?_ (hin .notIn (by simp) cv))
    cases pyIn v cv <;> simp
  | lt => exact (ans _).trans (hord .lt (by simp) pyLt (fun v w => comparable_lt) cv)
  | gt => exact (ans _).trans (hord .gt (by simp) (fun v w => pyLt w v)
      (fun v w => ⟨fun h => comparable_lt.1 (comparable_symm h), fun h => comparable_symm (comparable_lt.2 h)⟩) cv)
  | le => exact (ans _).trans (hord .le (by simp) pyLe (fun v w => comparable_le) cv)
  | ge => exact (ans _).trans (hord .ge (by simp) (fun v w => pyLe w v)
      (fun v w => ⟨fun h => comparable_le.1 (comparable_symm h), fun h => comparable_symm (comparable_le.2 h)⟩) cv)
  | «matches» =>
    constructor
    · intro ⟨e, h⟩ hs
      cases hs with
      | identity h1 => rcases h1 with h1 | h1 | h1 | h1 <;> cases h1
      | list h1 => rcases h1 with h1 | h1 <;> cases h1
      | text _ => simp [Condition.match] at h
      | order h1 => rcases h1 with h1 | h1 | h1 | h1 <;> cases h1
    · intro h
      simp only [Condition.match]
      split
      · exact absurd (.text (by simp)) h
      · exact ⟨_, rfl⟩

/-- C68. Orderings and patterns fail for NULL: such a condition can only be used on columns without NULL, or after a
condition that takes NULL away. -/
theorem c68_null_fails {op : CondOp} (h : op ∈ [CondOp.lt, .gt, .le, .ge, .matches]) (cv : CondVal) :
    ∃ e, Condition.match same ⟨op, cv⟩ .none = .error e := by
  rw [c68_fails_partial]
  intro hs
  cases hs with
  | identity h1 => rcases h1 with rfl | rfl | rfl | rfl <;> simp at h
  | list h1 => rcases h1 with rfl | rfl <;> simp at h
  | order _ h1 =>
    cases h1 with
    | numbers h2 _ => exact h2

/-- C68. A multiplexer whose conditions suit the value of its column applies the filter of the first condition that
holds; it fails only if that filter does. -/
theorem c68_first {σ : Type} {W : Outside σ Val} {conds : List Condition} {cols : List Str} {column : Str}
    {cs : List (Nat × SimpleCfg Val)} {view : View Val}
    (h : constructView (withConditions W same conds) cols (.multiplex column cs) = .ok view) (hnd : cols.Nodup)
    {r : List Val} (hl : r.length = cols.length) (s : σ) :
    ∃ x, valueOf cols r column = some x ∧
    ((∀ q ∈ cs, ∃ c, conds[q.1]? = some c ∧ Suits c (.ofVal x)) →
      (view.run (withConditions W same conds) r s = .ok (r, s) ∧
        ∀ q ∈ cs, ∃ c, conds[q.1]? = some c ∧ c.match same (.ofVal x) = .ok false) ∨
      ∃ before n g after c w, cs = before ++ (n, g) :: after ∧ conds[n]? = some c ∧ c.match same (.ofVal x) = .ok true ∧
        (∀ q ∈ before, ∃ c, conds[q.1]? = some c ∧ c.match same (.ofVal x) = .ok false) ∧
        constructView (withConditions W same conds) cols (.simple g) = .ok w ∧
        view.run (withConditions W same conds) r s = w.run (withConditions W same conds) r s) := by
  obtain ⟨-, x, h1, h2, h3⟩ := c43_first_match h hnd hl s
  refine ⟨x, h1, fun hs => ?_⟩
  have holds : ∀ {n : Nat} {c : Condition}, conds[n]? = some c →
      (withConditions W same conds).holds n x = c.match same (.ofVal x) := by
    intro n c hc
    simp only [withConditions, hc]
  have split : ∀ l : List (Nat × SimpleCfg Val), (∀ q ∈ l, ∃ c, conds[q.1]? = some c ∧ Suits c (.ofVal x)) →
      (∀ q ∈ l, ∃ c, conds[q.1]? = some c ∧ c.match same (.ofVal x) = .ok false) ∨
      ∃ before n g after c, l = before ++ (n, g) :: after ∧ conds[n]? = some c ∧ c.match same (.ofVal x) = .ok true ∧
        ∀ q ∈ before, ∃ c, conds[q.1]? = some c ∧ c.match same (.ofVal x) = .ok false := by
    intro l hl
    induction l with
    | nil => left; simp
    | cons q l ih =>
      obtain ⟨n, g⟩ := q
      obtain ⟨c, hc, hsu⟩ := hl (n, g) (.head _)
      cases hm : c.match same (.ofVal x) with
      | error e => exact absurd hsu ((c68_fails_partial c _).1 ⟨e, hm⟩)
      | ok b =>
        cases b with
        | true => exact .inr ⟨[], n, g, l, c, rfl, hc, hm, by simp⟩
        | false =>
          rcases ih fun q hq => hl q (.tail _ hq) with g1 | ⟨before, n', g', after, c', rfl, g2, g3, g4⟩
          · left
            intro q hq
            rcases List.mem_cons.1 hq with rfl | hq
            · exact ⟨c, hc, hm⟩
            · exact g1 q hq
          · refine .inr ⟨(n, g) :: before, n', g', after, c', rfl, g2, g3, fun q hq => ?_⟩
            rcases List.mem_cons.1 hq with rfl | hq
            · exact ⟨c, hc, hm⟩
            · exact g4 q hq
  rcases split cs hs with g | ⟨before, n, g, after, c, rfl, g2, g3, g4⟩
  · refine .inl ⟨h2 fun q hq => ?_, g⟩
    obtain ⟨c, hc, hm⟩ := g q hq
    rw [holds hc, hm]
  · obtain ⟨w, g5, -, g6⟩ := h3 before n g after rfl (fun q hq => by
      obtain ⟨c, hc, hm⟩ := g4 q hq
      rw [holds hc, hm]) (by rw [holds g2, g3])
    exact .inr ⟨before, n, g, after, c, w, rfl, g2, g3, g4, g5, g6⟩

/-! ### Examples -/

/-- Identity in CPython may be finer than equality; here only `None` is identical to itself. -/
def oxSame : PVal → CondVal → Bool
  | .none, .one .none => true
  | _, _ => false

example : IsIdentity oxSame := by
  refine ⟨rfl, fun v w h => ?_, fun v ws => by cases v <;> rfl⟩
  unfold oxSame at h
  split at h
  · rename_i h1; cases h1; rfl
  · cases h

example : Condition.match oxSame ⟨.in_, .many [.int 1, .none]⟩ (.num 1) = .ok true ∧
    Condition.match oxSame ⟨.lt, .one (.num (3 / 2))⟩ (.int 1) = .ok true ∧
    Condition.match oxSame ⟨.matches, .one (.str (str! "*@x.org"))⟩ (.str (str! "a@x.org")) = .ok true ∧
    Condition.match oxSame ⟨.lt, .one (.str (str! "b"))⟩ (.str (str! "abc")) = .ok true := by decide +kernel

/-- C68 is false as far as misconfigured conditions go: a string given for `in` is searched, so that parts of it match;
`is` need not hold for equal values. -/
theorem c68_surprises : Condition.match oxSame ⟨.in_, .one (.str (str! "admin"))⟩ (.str (str! "min")) = .ok true ∧
    Condition.match oxSame ⟨.is, .one (.int 1000)⟩ (.int 1000) = .ok false := by decide +kernel

/-- Run of a plan with a multiplexer on `s.u`, with `truncate`. -/
def oxRun (c : Condition) : Option RunErr × List Row :=
  let C : RunConfig := { remap := dxRemap, truncate := true, filters := [(str! "s.u", [.multiplex (str! "id") [(0, .null [str! "id"])]])] }
  let R := sample C { rxSetting rxDst with world := withConditions exWorldV oxSame [c] } exPlan rxBefore 0
  (R.err, R.final (str! "m", str! "u"))

/-- C68 is false in its last part: `in` with a number is accepted and fails at the first row, after the destination was
emptied. -/
theorem c68_late : (rxBefore (str! "m", str! "u")).isEmpty = false ∧ (oxRun ⟨.in_, .one (.int 5)⟩).2 = [] ∧
    (oxRun ⟨.in_, .one (.int 5)⟩).1.isSome = true ∧ (oxRun ⟨.in_, .many [.int 5]⟩).1 = none ∧
    (oxRun ⟨.in_, .many [.int 5]⟩).2 = [[(str! "id", .int 1)]] := by decide +kernel

end Subsetter.Props
