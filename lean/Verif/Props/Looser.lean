import Verif.Proofs.Looser
import Verif.Props.Planner

/-
C90: loosening a configuration loses no rows.
-/
namespace Subsetter.Props
open Spec

/-- C90, for changes of options of targets and of constraints, and sources that grow: if every table
feeding table `k`, and `k` itself, is treated at least as generously, no row of `k` is lost.
Missing: further targets, and limits for targets that had none, see `c90_target_added` and
`c90_limit_added`. -/
theorem c90_loosened_partial {cfg : PlannerConfig} {targets : Dict Str TargetConfig} {cs : Dict Str (List ColumnConstraint)}
    (hkeys : dkeys targets = dkeys cfg.targets) {T : Tables} (hI : Input cfg T) {p p' : Plan} (h : planInternal cfg T = .ok p)
    (h' : planInternal { cfg with targets := targets, tableConstraints := cs } T = .ok p')
    {E E' : Engine} {Ts Ts' : Tables} {src src' S S' : Key → List Row} (hpk : PkOK Ts src) (hpk' : PkOK Ts' src')
    (hS : IsSample E Ts src p S) (hS' : IsSample E' Ts' src' p' S') {k : Key} (hk : ∃ q, Planned p k q)
    (hl : ∀ a, Relation.ReflTransGen (Feeds cfg T p) a k →
      Looser cfg { cfg with targets := targets, tableConstraints := cs } E E' src src' a) :
    ∀ r ∈ S k, r ∈ S' k :=
  looser_subset hkeys hI h h' hpk hpk' hS hS' hk hl

/-- The tables sampled and their order stay the same. -/
theorem c90_same_tables {cfg : PlannerConfig} {targets : Dict Str TargetConfig} {cs : Dict Str (List ColumnConstraint)}
    (hkeys : dkeys targets = dkeys cfg.targets) {T : Tables} (hI : Input cfg T) {p p' : Plan} (h : planInternal cfg T = .ok p)
    (h' : planInternal { cfg with targets := targets, tableConstraints := cs } T = .ok p') :
    p'.queries.map Prod.fst = p.queries.map Prod.fst ∧ p'.passthrough = p.passthrough :=
  planInternal_keys_same hkeys hI h h'

/-- Options that loosen a target whatever the database: none changed, `all` without an amount, or a larger amount. -/
def Loosened (x x' : TargetConfig) : Prop :=
  x' = x ∨ (x'.all = true ∧ x'.amount = none) ∨ ∃ n n', x.amount = some n ∧ n ≤ n' ∧ x' = { x with amount := some n' }

/-- Setting `all`, raising amounts and dropping constraints loses no row of any table, as long as the
database draws the same rows. -/
theorem c90_more {cfg : PlannerConfig} {targets : Dict Str TargetConfig} {cs : Dict Str (List ColumnConstraint)}
    (hkeys : dkeys targets = dkeys cfg.targets)
    (ht : ∀ n x x', dget cfg.targets n = some x → dget targets n = some x' → Loosened x x')
    (hc : ∀ n, ∀ c ∈ (dget cs n).getD [], c ∈ (dget cfg.tableConstraints n).getD [])
    {T : Tables} (hI : Input cfg T) {p p' : Plan} (h : planInternal cfg T = .ok p)
    (h' : planInternal { cfg with targets := targets, tableConstraints := cs } T = .ok p')
    {E : Engine} {Ts : Tables} {src S S' : Key → List Row} (hpk : PkOK Ts src)
    (hS : IsSample E Ts src p S) (hS' : IsSample E Ts src p' S') {k : Key} (hk : ∃ q, Planned p k q) :
    ∀ r ∈ S k, r ∈ S' k := by
  refine c90_loosened_partial hkeys hI h h' hpk hpk hS hS' hk fun a _ => ⟨fun _ hr => hr, fun r hm c hcs => hm c (hc _ c hcs), ?_⟩
  intro x x' hx hx'
  rcases ht _ x x' hx hx' with rfl | ⟨h1, h2⟩ | ⟨n, n', h1, h2, rfl⟩
  · exact ⟨fun _ hr => hr, id, .inr⟩
  · refine ⟨fun r hr => ?_, fun _ => ⟨h2, .inl h1⟩, fun _ => .inl h2⟩
    rw [PlanShape.targetRows_all h1 h2]
    exact PlanShape.targetRows_subset hr
  · refine ⟨fun r hr => ?_, fun hu => ?_, .inr⟩
    · have e : TargetAccepts E a { x with amount := some n' } = TargetAccepts E a x :=
        funext fun i => funext fun r => propext ⟨fun ⟨a, b, c, d⟩ => ⟨a, b, c, d⟩, fun ⟨a, b, c, d⟩ => ⟨a, b, c, d⟩⟩
      unfold targetRows at hr ⊢
      rw [e]
      simp only [h1] at hr ⊢
      exact (List.take_sublist_take_left h2).subset hr
    · rw [hu.1] at h1; cases h1

/-- What is done with tables that do not feed table `k` does not affect it. -/
theorem c90_unaffected {cfg : PlannerConfig} {targets : Dict Str TargetConfig} {cs : Dict Str (List ColumnConstraint)}
    (hkeys : dkeys targets = dkeys cfg.targets) {T : Tables} (hI : Input cfg T) {p p' : Plan} (h : planInternal cfg T = .ok p)
    (h' : planInternal { cfg with targets := targets, tableConstraints := cs } T = .ok p')
    {E : Engine} {Ts : Tables} {src src' S S' : Key → List Row} (hpk : PkOK Ts src) (hpk' : PkOK Ts src')
    (hS : IsSample E Ts src p S) (hS' : IsSample E Ts src' p' S') {k : Key} (hk : ∃ q, Planned p k q)
    (hl : ∀ a, Relation.ReflTransGen (Feeds cfg T p) a k → src' a = src a ∧
      dget targets (a.1 ++ '.' :: a.2) = dget cfg.targets (a.1 ++ '.' :: a.2) ∧
      dget cs (a.1 ++ '.' :: a.2) = dget cfg.tableConstraints (a.1 ++ '.' :: a.2)) :
    ∀ r, r ∈ S k ↔ r ∈ S' k := by
  obtain ⟨hq, hps⟩ := c90_same_tables hkeys hI h h'
  have hrows : ∀ {a : Key} {x : TargetConfig}, src' a = src a → targetRows E src' a x = targetRows E src a x := by
    intro a x e
    unfold targetRows
    rw [e]
  intro r
  constructor
  · refine c90_loosened_partial hkeys hI h h' hpk hpk' hS hS' hk (fun a ha => ?_) r
    obtain ⟨h1, h2, h3⟩ := hl a ha
    refine ⟨fun r hr => by rw [h1]; exact hr, fun r hm => by rw [show (({ cfg with targets := targets, tableConstraints := cs } : PlannerConfig).tableConstraints) = cs from rfl, h3]; exact hm, ?_⟩
    intro x x' hx hx'
    have hx' : dget targets (a.1 ++ '.' :: a.2) = some x' := hx'
    rw [h2, hx] at hx'; cases hx'
    exact ⟨fun r hr => by rw [hrows h1]; exact hr, id, .inr⟩
  · have hI' : Input { cfg with targets := targets, tableConstraints := cs } T := ⟨hI.tables, hI.extra, by
      show [] ∉ dkeys targets
      rw [hkeys]; exact hI.named⟩
    refine c90_loosened_partial (cfg := { cfg with targets := targets, tableConstraints := cs }) (targets := cfg.targets)
      (cs := cfg.tableConstraints) hkeys.symm hI' h' h hpk' hpk hS' hS ?_ (fun a ha => ?_) r
    · obtain ⟨q, n, hm, hn⟩ := hk
      have : n ∈ p'.queries.map Prod.fst := by rw [hq]; exact List.mem_map.2 ⟨_, hm, rfl⟩
      obtain ⟨⟨n', q'⟩, hm', rfl⟩ := List.mem_map.1 this
      exact ⟨q', _, hm', hn⟩
    · have ha : Relation.ReflTransGen (Feeds cfg T p) a k := by
        refine Relation.ReflTransGen.mono (fun x y hf => ?_) _ _ ha
        obtain ⟨⟨l₁, l₂, e1, e2, e3⟩, hf⟩ := hf
        exact ⟨⟨l₁, l₂, by rw [← hq]; exact e1, e2, by rw [← hps]; exact e3⟩, hf⟩
      obtain ⟨h1, h2, h3⟩ := hl a ha
      refine ⟨fun r hr => by rw [← h1]; exact hr, fun r hm => ?_, ?_⟩
      · have hm : MeetsConstraints E ((dget cs (a.1 ++ '.' :: a.2)).getD []) r := hm
        rw [h3] at hm; exact hm
      · intro x x' hx hx'
        have hx : dget targets (a.1 ++ '.' :: a.2) = some x := hx
        rw [h2] at hx
        have hx' : dget cfg.targets (a.1 ++ '.' :: a.2) = some x' := hx'
        rw [hx] at hx'; cases hx'
        exact ⟨fun r hr => by rw [← hrows h1]; exact hr, id, .inr⟩

/-- If every target has `all` and no amount, rows added to the source push none out of the sample. -/
theorem c90_grown_source {cfg : PlannerConfig} (hall : ∀ n x, dget cfg.targets n = some x → x.all = true ∧ x.amount = none)
    {T : Tables} (hI : Input cfg T) {p : Plan} (h : planInternal cfg T = .ok p)
    {E : Engine} {Ts : Tables} {src src' S S' : Key → List Row} (hpk : PkOK Ts src) (hpk' : PkOK Ts src')
    (hgrow : ∀ a, ∀ r ∈ src a, r ∈ src' a)
    (hS : IsSample E Ts src p S) (hS' : IsSample E Ts src' p S') {k : Key} (hk : ∃ q, Planned p k q) :
    ∀ r ∈ S k, r ∈ S' k := by
  refine c90_loosened_partial (targets := cfg.targets) (cs := cfg.tableConstraints) rfl hI h h hpk hpk' hS hS' hk
    fun a _ => ⟨hgrow a, fun _ hm => hm, ?_⟩
  intro x x' hx hx'
  have hx' : dget cfg.targets (a.1 ++ '.' :: a.2) = some x' := hx'
  rw [hx] at hx'; cases hx'
  obtain ⟨h1, h2⟩ := hall _ x hx
  refine ⟨fun r hr => ?_, id, .inr⟩
  rw [PlanShape.targetRows_all h1 h2] at hr ⊢
  exact hgrow a r hr

/-! ### Examples -/

def loCfg : PlannerConfig := { targets := [(str! "s.o", { amount := some 1 }), (str! "s.u", { amount := some 1 })] }
def loTargets : Dict Str TargetConfig := [(str! "s.o", { all := true }), (str! "s.u", { amount := some 2 })]

/-- One order and one user, -/
theorem c90_example_before : planExec loCfg exTables exSrc [str! "s.o", str! "s.u"] = .ok (.ok
    [((str! "s", str! "o"), [[(str! "id", .int 7), (str! "uid", .int 1)]]),
     ((str! "s", str! "u"), [[(str! "id", .int 1)]])]) := by decide +kernel

/-- and with more generous options both orders and both users. -/
theorem c90_example_after : planExec { loCfg with targets := loTargets, tableConstraints := [] } exTables exSrc [str! "s.o", str! "s.u"] = .ok (.ok
    [((str! "s", str! "o"), [[(str! "id", .int 7), (str! "uid", .int 1)], [(str! "id", .int 8), (str! "uid", .int 2)]]),
     ((str! "s", str! "u"), [[(str! "id", .int 1)], [(str! "id", .int 2)]])]) := by decide +kernel

theorem loLoosened : dkeys loTargets = dkeys loCfg.targets ∧
    ∀ n x x', dget loCfg.targets n = some x → dget loTargets n = some x' → Loosened x x' := by
  refine ⟨by decide, fun n x x' hx hx' => ?_⟩
  simp only [loCfg, loTargets, dget] at hx hx'
  by_cases h1 : (str! "s.o") = n
  · simp only [h1, if_true, Option.some.injEq] at hx hx'
    subst hx hx'
    exact .inr (.inl ⟨rfl, rfl⟩)
  · by_cases h2 : (str! "s.u") = n
    · simp only [h1, h2, if_true, if_false, Option.some.injEq] at hx hx'
      subst hx hx'
      exact .inr (.inr ⟨1, 2, rfl, by decide, rfl⟩)
    · simp only [h1, h2, if_false] at hx
      cases hx

/-- The example meets the premises of `c90_more`. -/
theorem c90_example_applies {p p' : Plan} {E : Engine} {S S' : Key → List Row} (h : planInternal loCfg exTables = .ok p)
    (h' : planInternal { loCfg with targets := loTargets, tableConstraints := [] } exTables = .ok p')
    (hS : IsSample E exTables exSrc p S) (hS' : IsSample E exTables exSrc p' S') {k : Key} (hk : ∃ q, Planned p k q) :
    ∀ r ∈ S k, r ∈ S' k :=
  c90_more loLoosened.1 loLoosened.2 (fun n c hc => by simp [dget] at hc) ⟨exTables_ok, (fun _ h => nomatch h), by decide⟩ h h'
    exTables_pk hS hS' hk

/-- The full claim is false: a filter accepting user 2 is given an amount larger than the table, and user 1 is lost. -/
theorem c90_limit_added :
    planExec { targets := [(str! "s.o", { in_ := [(str! "uid", [.int 2])] }), (str! "s.u", { in_ := [(str! "id", [.int 2])] })] } exTables exSrc [str! "s.u"] =
      .ok (.ok [((str! "s", str! "u"), [[(str! "id", .int 1)], [(str! "id", .int 2)]])]) ∧
    planExec { targets := [(str! "s.o", { in_ := [(str! "uid", [.int 2])] }), (str! "s.u", { in_ := [(str! "id", [.int 2])], amount := some 9 })] } exTables exSrc [str! "s.u"] =
      .ok (.ok [((str! "s", str! "u"), [[(str! "id", .int 2)]])]) := by decide +kernel

/-- The full claim is false: with orders as a further target, an order of a sampled user is lost. -/
theorem c90_target_added :
    planExec { targets := [(str! "s.u", { all := true })] } exTables exSrc [str! "s.o"] =
      .ok (.ok [((str! "s", str! "o"), [[(str! "id", .int 7), (str! "uid", .int 1)], [(str! "id", .int 8), (str! "uid", .int 2)]])]) ∧
    planExec { targets := [(str! "s.u", { all := true }), (str! "s.o", { amount := some 1 })] } exTables exSrc [str! "s.o"] =
      .ok (.ok [((str! "s", str! "o"), [[(str! "id", .int 7), (str! "uid", .int 1)]])]) := by decide +kernel

/-- The full claim is false: `all` together with an amount drops users that sampled orders refer to. -/
theorem c90_all_added :
    planExec { targets := [(str! "s.o", { in_ := [(str! "uid", [.int 2])] }), (str! "s.u", { amount := some 1 })] } exTables exSrc [str! "s.u"] =
      .ok (.ok [((str! "s", str! "u"), [[(str! "id", .int 2)], [(str! "id", .int 1)]])]) ∧
    planExec { targets := [(str! "s.o", { in_ := [(str! "uid", [.int 2])] }), (str! "s.u", { all := true, amount := some 1 })] } exTables exSrc [str! "s.u"] =
      .ok (.ok [((str! "s", str! "u"), [[(str! "id", .int 1)]])]) := by decide +kernel

end Subsetter.Props
