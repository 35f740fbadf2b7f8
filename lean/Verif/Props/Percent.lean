import Verif.Proofs.Percent
import Verif.Props.Planner
import Mathlib.Algebra.Order.Floor.Ring
import Mathlib.Data.Rat.Floor
import Mathlib.Tactic.FieldSimp
import Mathlib.Tactic.Positivity

/-
Property C70: what `percent` and `amount` select.
-/
namespace Subsetter.Props
open Subsetter Spec

variable {cfg : PlannerConfig} {T : Tables} {p : Plan} {Ts : Tables} {src : Key → List Row} {k : Key} {x : TargetConfig}

/-- Thresholds in planned queries are strictly between 0 and 1: there `random() < threshold` is not decided beforehand. -/
theorem c70_thresholds (hI : Input cfg T) (h : planInternal cfg T = .ok p) {n : Str} {q : TableQuery} (hq : (n, q) ∈ p.queries) :
    ∀ y ∈ thresholds q, 0 < y ∧ y < 1 := by
  obtain ⟨ign, pass, T₁, T₂, found, ord, hp⟩ := planning hI h
  exact hp.shape.thresholds hp.ok hq

/-- C70. A target that no table planned before refers to is sampled as its options say. -/
theorem c70_target_rows (hI : Input cfg T) (h : planInternal cfg T = .ok p) {E : Engine} {S : Key → List Row} (hpk : PkOK Ts src)
    (hS : IsSample E Ts src p S) (hx : dget cfg.targets k.str = some x) (hk : ∃ q, Planned p k q)
    (hf : ¬ ∃ a, Earlier p a k ∧ UsedRef cfg T a k) : S k = targetRows E src k x := by
  obtain ⟨ign, pass, T₁, T₂, found, ord, hp⟩ := planning hI h
  have hin := hp.planned_iff.1 hk
  have hko : k ∈ ord := by
    obtain ⟨k', hk', e⟩ := hp.shape.order.targets_mem k.str (dget_isSome_iff.1 (by rw [hx]; rfl))
    have := str_inj (hp.nodot (List.mem_append.2 (.inr hk'))) (hp.nodot hin) e
    exact this ▸ hk'
  obtain ⟨pre, post, he⟩ := List.append_of_mem hko
  have hf' := fun h => hf ((hp.refBack_iff he).1 h)
  rcases hp.shape.rows_cases hp.ok hpk hS he with ⟨-, h1, -⟩ | ⟨-, -, h1, -⟩ | ⟨-, x', h1, -, h3⟩ |
    ⟨-, x', h1, h2, -, h3, -⟩
  · exact absurd (dget_isSome_iff.1 (by rw [hx]; rfl)) h1
  · exact absurd (dget_isSome_iff.1 (by rw [hx]; rfl)) h1
  · rw [hx] at h1; cases h1; exact h3
  · exact absurd h3 hf'

theorem zipIdx_count {α : Type} (l : List α) (P : Nat → α → Bool) :
    (l.zipIdx.filter fun y => P y.2 y.1).length = (Finset.univ.filter fun i : Fin l.length => P i (l.get i) = true).card := by
  have h : ∀ (l : List α) (m : Nat), ((l.zipIdx m).filter fun y => P y.2 y.1).length =
      (Finset.univ.filter fun i : Fin l.length => P (i + m) (l.get i) = true).card := by
    intro l
    induction l with
    | nil => intro m; rfl
    | cons a l ih =>
      intro m
      rw [List.zipIdx_cons, List.filter_cons]
      have e := ih (m + 1)
      have e2 : (Finset.univ.filter fun i : Fin (a :: l).length => P (i + m) ((a :: l).get i) = true).card =
          (if P m a = true then 1 else 0) + (Finset.univ.filter fun i : Fin l.length => P (i + (m + 1)) (l.get i) = true).card := by
        have := Fin.card_filter_univ_succ (n := l.length) fun i : Fin (l.length + 1) => P (i + m) ((a :: l).get i) = true
        refine Eq.trans this ?_
        simp only [Fin.val_zero, Nat.zero_add, Fin.val_succ, List.get_cons_zero, Nat.add_right_comm _ 1 m, Nat.add_assoc]
        split <;> simp [Nat.add_comm]
      rw [e2, ← e]
      dsimp only
      split <;> simp [Nat.add_comm]
  exact h l 0

theorem accepts_iff {E : Engine} {i : Nat} {r : Row} : TargetAccepts E k x i r ↔
    (∀ q, x.percent = some q → E.below (q / 100) ⟨k.1, k.2, false⟩ 0 i = true) ∧ Eligible E k x r :=
  ⟨fun h => ⟨h.percent, h.sql, h.like, h.in_⟩, fun h => ⟨h.1, h.2.sql, h.2.like, h.2.in_⟩⟩

/-- The rows sampled for a target with a percentage, given the draws. -/
theorem percent_rows {N : Nat} {draw : Source N} {q : Rat} (h0 : 0 < q) (h1 : q < 100) (hall : x.all = false)
    (ham : x.amount = none) (hq : x.percent = some q) {f : Fin (src k).length → Fin N} {E : Engine} (hE : Compares draw f E k)
    {Q : Row → Prop} [DecidablePred Q] (hQ : ∀ r ∈ src k, Eligible E k x r ↔ Q r) :
    (targetRows E src k x).length =
      (Finset.univ.filter fun i => Q ((src k).get i) ∧ f i ∈ Finset.univ.filter fun j => draw j < q / 100).card := by
  classical
  unfold targetRows
  simp only [hall, ham, Bool.false_eq_true, false_or, List.length_map]
  rw [zipIdx_count (src k) fun i r => decide (TargetAccepts E k x i r)]
  congr 1
  ext i
  simp only [Finset.mem_filter, Finset.mem_univ, true_and, decide_eq_true_eq, accepts_iff, hq, Option.some.injEq, forall_eq',
    hQ _ (List.get_mem (src k) i)]
  rw [hE i (q / 100) (by positivity) (by rw [div_lt_one (by norm_num)]; exact h1), decide_eq_true_eq, and_comm]

theorem filter_count {α : Type} (l : List α) (Q : α → Prop) [DecidablePred Q] :
    (Finset.univ.filter fun i : Fin l.length => Q (l.get i)).card = (l.filter fun r => decide (Q r)).length := by
  have e := zipIdx_count l fun _ r => decide (Q r)
  simp only [decide_eq_true_eq] at e
  rw [← e]
  have : ∀ (l : List α) m, ((l.zipIdx m).filter fun y => decide (Q y.1)).length = (l.filter fun r => decide (Q r)).length := by
    intro l
    induction l with
    | nil => intro m; rfl
    | cons a l ih =>
      intro m
      rw [List.zipIdx_cons, List.filter_cons, List.filter_cons]
      have := ih (m + 1)
      dsimp only
      split <;> simp [this]
  exact this l 0

/-- C70. Over all outcomes of the draws together, `percent` selects each row that meets the other options as often as a
single draw is below the threshold. -/
theorem c70_percent_total (hI : Input cfg T) (h : planInternal cfg T = .ok p) (hpk : PkOK Ts src)
    {q : Rat} (hx : dget cfg.targets k.str = some x) (hall : x.all = false) (ham : x.amount = none) (hq : x.percent = some q)
    (h0 : 0 < q) (h1 : q < 100) (hk : ∃ q, Planned p k q)
    (hf : ¬ ∃ a, Earlier p a k ∧ UsedRef cfg T a k) {N : Nat} {draw : Source N}
    {E : (Fin (src k).length → Fin N) → Engine} (hE : ∀ f, Compares draw f (E f) k)
    {Q : Row → Prop} [DecidablePred Q] (hQ : ∀ f, ∀ r ∈ src k, Eligible (E f) k x r ↔ Q r)
    {S : (Fin (src k).length → Fin N) → Key → List Row} (hS : ∀ f, IsSample (E f) Ts src p (S f)) :
    ∑ f, (S f k).length = ((src k).filter fun r => decide (Q r)).length *
      ((Finset.univ.filter fun j => draw j < q / 100).card * N ^ ((src k).length - 1)) := by
  rw [← filter_count, ← sum_draws_of]
  refine Finset.sum_congr rfl fun f _ => ?_
  rw [c70_target_rows hI h hpk (hS f) hx hk hf, percent_rows h0 h1 hall ham hq (hE f) (hQ f)]

theorem card_lt {N m : Nat} (hm : m ≤ N) : (Finset.univ.filter fun j : Fin N => (j : Nat) < m).card = m := by
  have : (Finset.univ.filter fun j : Fin N => (j : Nat) < m) = (Finset.univ : Finset (Fin m)).map (Fin.castLEEmb hm) := by
    ext j
    simp only [Finset.mem_filter, Finset.mem_univ, true_and, Finset.mem_map, Fin.castLEEmb_apply]
    constructor
    · intro h; exact ⟨⟨j, h⟩, rfl⟩
    · rintro ⟨x, rfl⟩; exact x.2
  rw [this, Finset.card_map, Finset.card_univ, Fintype.card_fin]

/-- C70. Where `random()` is evenly spread from 0 to 1 (PostgreSQL, MySQL), `percent: q` selects `q` percent of the rows
that meet the other options on average, up to the resolution `1 / N` of `random()`.  Missing: SQLite. -/
theorem c70_percent_partial (hI : Input cfg T) (h : planInternal cfg T = .ok p) (hpk : PkOK Ts src)
    {q : Rat} (hx : dget cfg.targets k.str = some x) (hall : x.all = false) (ham : x.amount = none) (hq : x.percent = some q)
    (h0 : 0 < q) (h1 : q < 100) (hk : ∃ q, Planned p k q)
    (hf : ¬ ∃ a, Earlier p a k ∧ UsedRef cfg T a k) {N : Nat} (hN : 0 < N)
    {E : (Fin (src k).length → Fin N) → Engine} (hE : ∀ f, Compares (unitSource N) f (E f) k)
    {Q : Row → Prop} [DecidablePred Q] (hQ : ∀ f, ∀ r ∈ src k, Eligible (E f) k x r ↔ Q r)
    {S : (Fin (src k).length → Fin N) → Key → List Row} (hS : ∀ f, IsSample (E f) Ts src p (S f)) :
    ((src k).filter fun r => decide (Q r)).length * (q / 100) ≤ (∑ f, (S f k).length : Nat) / (N : Rat) ^ (src k).length ∧
    (∑ f, (S f k).length : Nat) / (N : Rat) ^ (src k).length ≤ ((src k).filter fun r => decide (Q r)).length * (q / 100 + 1 / N) := by
  have hNR : (0 : Rat) < N := by exact_mod_cast hN
  have hc : (Finset.univ.filter fun j => unitSource N j < q / 100).card = ⌈N * (q / 100)⌉₊ := by
    rw [← card_lt (N := N) (m := ⌈N * (q / 100)⌉₊)]
    · congr 1
      ext j
      rw [Finset.mem_filter, Finset.mem_filter]
      refine and_congr_right fun _ => ?_
      unfold unitSource
      rw [div_lt_iff₀ hNR, Nat.lt_ceil, mul_comm]
    · rw [Nat.ceil_le]
      have : q / 100 < 1 := by rw [div_lt_one (by norm_num)]; exact h1
      nlinarith
  rw [c70_percent_total hI h hpk hx hall ham hq h0 h1 hk hf hE hQ hS, hc]
  have hle : ((src k).filter fun r => decide (Q r)).length ≤ (src k).length := List.length_filter_le _ _
  generalize ((src k).filter fun r => decide (Q r)).length = w at hle ⊢
  rcases Nat.eq_zero_or_pos (src k).length with hz | hz
  · rw [hz] at hle ⊢
    rw [Nat.le_zero.1 hle]; simp
  · generalize (src k).length = n at hz ⊢
    obtain ⟨m, rfl⟩ := Nat.exists_eq_add_of_le' hz
    have hpos : (0 : Rat) < (N : Rat) ^ m := pow_pos hNR m
    have e : (((w * (⌈(N : Rat) * (q / 100)⌉₊ * N ^ (m + 1 - 1)) : Nat) : Rat)) / (N : Rat) ^ (m + 1) =
        (w : Rat) * ((⌈(N : Rat) * (q / 100)⌉₊ : Rat) / N) := by
      rw [Nat.add_sub_cancel, pow_succ]
      push_cast
      field_simp
    have hm : (0 : Rat) ≤ (w : Rat) := by positivity
    rw [e]
    refine ⟨mul_le_mul_of_nonneg_left ?_ hm, mul_le_mul_of_nonneg_left ?_ hm⟩
    · rw [le_div_iff₀ hNR, mul_comm]
      exact Nat.le_ceil _
    · rw [div_le_iff₀ hNR]
      have := (Nat.ceil_lt_add_one (show 0 ≤ (N : Rat) * (q / 100) by positivity)).le
      have e3 : (q / 100 + 1 / N) * (N : Rat) = N * (q / 100) + 1 := by field_simp
      rw [e3]; exact this

theorem sqlite_count {N M : Nat} (hM : M + 1 ≤ N) {thr : Rat} (h0 : 0 < thr) (h1 : thr < 1) :
    (Finset.univ.filter fun j : Fin N => ((j : Nat) : Rat) - (M : Rat) < thr).card = M + 1 := by
  rw [← card_lt hM]
  congr 1
  ext j
  rw [Finset.mem_filter, Finset.mem_filter]
  refine and_congr_right fun _ => ?_
  constructor
  · intro hj
    have : ((j : Nat) : Rat) < ((M + 1 : Nat) : Rat) := by push_cast; linarith
    exact_mod_cast this
  · intro hj
    have : ((j : Nat) : Rat) ≤ M := by exact_mod_cast Nat.le_of_lt_succ hj
    linarith

/-- C70 is false on SQLite: whatever the percentage, a row is selected for `2 ^ 63 + 1` of `2 ^ 64` draws, i.e. half of
the rows that meet the other options are on average. -/
theorem c70_sqlite (hI : Input cfg T) (h : planInternal cfg T = .ok p) (hpk : PkOK Ts src)
    {q : Rat} (hx : dget cfg.targets k.str = some x) (hall : x.all = false) (ham : x.amount = none) (hq : x.percent = some q)
    (h0 : 0 < q) (h1 : q < 100) (hk : ∃ q, Planned p k q)
    (hf : ¬ ∃ a, Earlier p a k ∧ UsedRef cfg T a k)
    {E : (Fin (src k).length → Fin (2 ^ 64)) → Engine} (hE : ∀ f, Compares sqliteSource f (E f) k)
    {Q : Row → Prop} [DecidablePred Q] (hQ : ∀ f, ∀ r ∈ src k, Eligible (E f) k x r ↔ Q r)
    {S : (Fin (src k).length → Fin (2 ^ 64)) → Key → List Row} (hS : ∀ f, IsSample (E f) Ts src p (S f)) :
    ∑ f, (S f k).length = ((src k).filter fun r => decide (Q r)).length * ((2 ^ 63 + 1) * (2 ^ 64) ^ ((src k).length - 1)) := by
  rw [c70_percent_total hI h hpk hx hall ham hq h0 h1 hk hf hE hQ hS]
  have hc := sqlite_count (N := 2 ^ 64) (M := 2 ^ 63) (by norm_num) (thr := q / 100) (by positivity)
    (by rw [div_lt_one (by norm_num)]; exact h1)
  rw [Nat.cast_pow, Nat.cast_ofNat] at hc
  rw [show (Finset.univ.filter fun j => sqliteSource j < q / 100).card = 2 ^ 63 + 1 from hc]

/-- The rows `amount` is taken from. -/
theorem amount_rows {E : Engine} {a : Nat} (ham : x.amount = some a) (hq : x.percent = none) {Q : Row → Prop} [DecidablePred Q]
    (hQ : ∀ r ∈ src k, x.all = true ∨ Eligible E k x r ↔ Q r) :
    targetRows E src k x = (E.shuffle ⟨k.1, k.2, false⟩ 0 ((src k).filter fun r => decide (Q r))).take a := by
  classical
  unfold targetRows
  rw [ham]
  dsimp only
  congr 2
  have hacc : ∀ i, ∀ r ∈ src k, (x.all = true ∨ TargetAccepts E k x i r ↔ Q r) := by
    intro i r hr
    rw [← hQ r hr, accepts_iff, hq]
    simp
  have : ∀ (l : List Row) (m : Nat), (∀ r ∈ l, r ∈ src k) →
      ((l.zipIdx m).filter fun y => decide (x.all = true ∨ TargetAccepts E k x y.2 y.1)).map Prod.fst = l.filter fun r => decide (Q r) := by
    intro l
    induction l with
    | nil => intro m _; rfl
    | cons r l ih =>
      intro m hl
      have e := ih (m + 1) fun r hr => hl r (List.mem_cons_of_mem _ hr)
      have e2 := hacc m r (hl r List.mem_cons_self)
      rw [List.zipIdx_cons, List.filter_cons, List.filter_cons]
      simp only [e2]
      split
      · rw [List.map_cons, e]
      · exact e
  exact this (src k) 0 fun _ h => h

/-- C70. `amount` selects as many rows as asked for, if there are as many that meet the other options. -/
theorem c70_amount (hI : Input cfg T) (h : planInternal cfg T = .ok p) {E : Engine} {S : Key → List Row} (hpk : PkOK Ts src)
    (hS : IsSample E Ts src p S) {a : Nat} (hx : dget cfg.targets k.str = some x) (ham : x.amount = some a) (hq : x.percent = none)
    (hk : ∃ q, Planned p k q) (hf : ¬ ∃ a, Earlier p a k ∧ UsedRef cfg T a k) {Q : Row → Prop} [DecidablePred Q]
    (hQ : ∀ r ∈ src k, x.all = true ∨ Eligible E k x r ↔ Q r) :
    (S k).length = min a ((src k).filter fun r => decide (Q r)).length := by
  rw [c70_target_rows hI h hpk hS hx hk hf, amount_rows ham hq hQ]
  simp [(E.shuffle_perm _ _ _).length_eq]

/-- C70. Whatever the percentage or amount, only rows that meet the other options are selected. -/
theorem c70_eligible (hI : Input cfg T) (h : planInternal cfg T = .ok p) {E : Engine} {S : Key → List Row} (hpk : PkOK Ts src)
    (hS : IsSample E Ts src p S) (hx : dget cfg.targets k.str = some x) (hall : x.all = false)
    (hk : ∃ q, Planned p k q) (hf : ¬ ∃ a, Earlier p a k ∧ UsedRef cfg T a k) {r : Row} (hr : r ∈ S k) :
    r ∈ src k ∧ Eligible E k x r := by
  classical
  rw [c70_target_rows hI h hpk hS hx hk hf] at hr
  unfold targetRows at hr
  have key : r ∈ (((src k).zipIdx.filter fun p => decide (x.all = true ∨ TargetAccepts E k x p.2 p.1)).map Prod.fst) := by
    cases ham : x.amount with
    | none => rw [ham] at hr; exact hr
    | some a => rw [ham] at hr; exact (E.shuffle_perm _ _ _).mem_iff.1 (List.mem_of_mem_take hr)
  obtain ⟨⟨r', i⟩, hm, rfl⟩ := List.mem_map.1 key
  obtain ⟨hm, hd⟩ := List.mem_filter.1 hm
  refine ⟨List.fst_mem_of_mem_zipIdx hm, ?_⟩
  rcases of_decide_eq_true hd with h' | h'
  · rw [hall] at h'; cases h'
  · exact (accepts_iff.1 h').2

/-- C70. Over all orders `ORDER BY random()` may give, each row that meets the other options is selected equally often. -/
theorem c70_amount_fair (hI : Input cfg T) (h : planInternal cfg T = .ok p) (hpk : PkOK Ts src)
    {a : Nat} (hx : dget cfg.targets k.str = some x) (ham : x.amount = some a) (hq : x.percent = none)
    (hk : ∃ q, Planned p k q) (hf : ¬ ∃ a, Earlier p a k ∧ UsedRef cfg T a k) (hnd : (src k).Nodup)
    {Q : Row → Prop} [DecidablePred Q] {l : List Row} (hl : l = (src k).filter fun r => decide (Q r))
    {E : Equiv.Perm (Fin l.length) → Engine} (hE : ∀ g, Orders g (E g) k)
    (hQ : ∀ g, ∀ r ∈ src k, x.all = true ∨ Eligible (E g) k x r ↔ Q r)
    {S : Equiv.Perm (Fin l.length) → Key → List Row} (hS : ∀ g, IsSample (E g) Ts src p (S g))
    {r : Row} (hr : r ∈ src k) (hrQ : Q r) :
    (Finset.univ.filter fun g => r ∈ S g k).card * l.length = min a l.length * l.length.factorial := by
  have hndl : l.Nodup := hl ▸ hnd.filter _
  obtain ⟨i, rfl⟩ := List.mem_iff_get.1 (show r ∈ l from hl ▸ List.mem_filter.2 ⟨hr, decide_eq_true hrQ⟩)
  rw [← card_perm_take (Nat.min_le_right a l.length) i]
  congr 2
  ext g
  simp only [Finset.mem_filter, Finset.mem_univ, true_and]
  rw [c70_target_rows hI h hpk (hS g) hx hk hf, amount_rows ham hq (hQ g), ← hl, hE g l rfl, List.mem_iff_getElem]
  constructor
  · rintro ⟨j, hj, e⟩
    simp only [List.length_take, List.length_ofFn, lt_min_iff] at hj
    refine ⟨⟨j, hj.2⟩, lt_min hj.1 hj.2, ?_⟩
    simp only [List.getElem_take, List.getElem_ofFn] at e
    exact hndl.injective_get e
  · rintro ⟨j, hj, rfl⟩
    refine ⟨j, by simp only [List.length_take, List.length_ofFn]; exact hj, ?_⟩
    simp [List.getElem_take, List.getElem_ofFn]

/-! ### Examples -/

/-- An engine that compares given draws with thresholds between 0 and 1. -/
def drawEngine {N n : Nat} (draw : Source N) (f : Fin n → Fin N) : Engine :=
  { exEngine with
    below := fun thr _ _ i => if thr ≤ 0 then false else if 1 ≤ thr then true else
      if h : i < n then decide (draw (f ⟨i, h⟩) < thr) else true
    below_zero := fun thr _ _ _ h => by simp only [if_pos h]
    below_one := fun thr _ _ _ h => by
      rw [if_neg (not_le.2 (lt_of_lt_of_le (by decide) h)), if_pos h] }

theorem drawEngine_compares {N n : Nat} (draw : Source N) (f : Fin n → Fin N) (k : Key) : Compares draw f (drawEngine draw f) k := by
  intro i thr h0 h1
  show (if thr ≤ 0 then false else if 1 ≤ thr then true else if h : (i : Nat) < n then decide (draw (f ⟨i, h⟩) < thr) else true) = _
  rw [if_neg (not_le.2 h0), if_neg (not_le.2 h1), dif_pos i.2]

/-- One percent of the users. -/
def hxCfg : PlannerConfig := { targets := [(str! "s.u", { percent := some 1 })] }

/-- The users sampled for given draws. -/
def hxRun {N : Nat} (draw : Source N) (f : Fin 2 → Fin N) : Option (Option (List (Key × List Row))) :=
  match planInternal hxCfg exTables with
  | .error _ => none
  | .ok p => match execPlan (drawEngine draw f) exTables [] exSrc true p [str! "s.u"] with
    | .error _ => some none
    | .ok out => some (some out)

/-- With draws 0.005 and 0.5 the first user is sampled. -/
example : hxRun (unitSource 1000) ![5, 500] = some (some [((str! "s", str! "u"), [[(str! "id", .int 1)]])]) := by decide +kernel

/-- On SQLite with draws -7 and 7 as well, and with draws -7 and -8 both. -/
theorem hx_sqlite : hxRun sqliteSource ![2 ^ 63 - 7, 2 ^ 63 + 7] = some (some [((str! "s", str! "u"), [[(str! "id", .int 1)]])]) ∧
    hxRun sqliteSource ![2 ^ 63 - 7, 2 ^ 63 - 8] = some (some [((str! "s", str! "u"), [[(str! "id", .int 1)], [(str! "id", .int 2)]])]) := by
  decide +kernel

/-- The hypotheses of the theorems hold of the example. -/
example {p : Plan} (h : planInternal hxCfg exTables = .ok p) (hk : ∃ q, Planned p (str! "s", str! "u") q)
    (hf : ¬ ∃ a, Earlier p a (str! "s", str! "u") ∧ UsedRef hxCfg exTables a (str! "s", str! "u"))
    {S : (Fin 2 → Fin (2 ^ 64)) → Key → List Row} (hS : ∀ f, IsSample (drawEngine sqliteSource f) exTables exSrc p (S f)) :
    ∑ f, (S f (str! "s", str! "u")).length = 2 * ((2 ^ 63 + 1) * (2 ^ 64) ^ 1) :=
  c70_sqlite (k := (str! "s", str! "u")) ⟨exTables_ok, (by intro x h; cases h), by decide⟩ h exTables_pk (q := 1) rfl rfl rfl rfl
    (by norm_num) (by norm_num) hk hf (fun f => drawEngine_compares _ _ _) (Q := fun _ => True)
    (fun f r _ => ⟨fun _ => trivial, fun _ => ⟨(fun _ h => (nomatch h)), (fun _ _ h => (nomatch h)), (fun _ _ h => (nomatch h))⟩⟩) hS

/-- One percent of the user with id 2. -/
def hxCfgIn : PlannerConfig := { targets := [(str! "s.u", { percent := some 1, in_ := [(str! "id", [.int 2])] })] }

/-- The hypotheses hold with another option too: of two users one can be selected. -/
example {p : Plan} (h : planInternal hxCfgIn exTables = .ok p) (hk : ∃ q, Planned p (str! "s", str! "u") q)
    (hf : ¬ ∃ a, Earlier p a (str! "s", str! "u") ∧ UsedRef hxCfgIn exTables a (str! "s", str! "u"))
    {S : (Fin 2 → Fin 1000) → Key → List Row} (hS : ∀ f, IsSample (drawEngine (unitSource 1000) f) exTables exSrc p (S f)) :
    ((1 : Nat) : Rat) * (1 / 100) ≤ (∑ f, (S f (str! "s", str! "u")).length : Nat) / ((1000 : Nat) : Rat) ^ 2 ∧
    (∑ f, (S f (str! "s", str! "u")).length : Nat) / ((1000 : Nat) : Rat) ^ 2 ≤ ((1 : Nat) : Rat) * (1 / 100 + 1 / (1000 : Nat)) :=
  c70_percent_partial (k := (str! "s", str! "u")) ⟨exTables_ok, (by intro x h; cases h), by decide⟩ h exTables_pk (q := 1) rfl rfl rfl rfl
    (by norm_num) (by norm_num) hk hf (by norm_num) (fun f => drawEngine_compares _ _ _) (Q := fun r => r.get (str! "id") = .int 2)
    (fun f r _ => ⟨fun h => List.mem_singleton.1 (h.in_ _ _ List.mem_cons_self).2,
      fun e => ⟨(fun _ h => (nomatch h)), (fun _ _ h => (nomatch h)), fun c vs h => by
        cases List.mem_singleton.1 h
        exact ⟨(by rw [e]; exact fun h => (nomatch h)), by rw [e]; exact List.mem_cons_self⟩⟩⟩) hS

end Subsetter.Props
