import Verif.Proofs.Reproducible
import Verif.Props.CanPlan

/-
Property C89: a plan does not depend on the order in which the database and the configuration list things that have no
order.
-/
namespace Subsetter.Props
open Subsetter Spec

/-- C89. Tables, foreign keys and unique constraints may be reflected in any order, and sets of names iterated in any
order: the plan is the same, apart from the order of the tables passed through. -/
theorem c89_same_plan {cfg cfg' : PlannerConfig} (hc : SameConfig cfg cfg') {T T' : Tables} (hI : Input cfg T)
    (hT' : TablesOK T') (h : SameTables T T') {p : Plan} (hp : planInternal cfg T = .ok p) :
    ∃ p', planInternal cfg' T' = .ok p' ∧ AlikePlan p p' := planInternal_same hc hI hT' h hp

theorem input_same {cfg cfg' : PlannerConfig} (hc : SameConfig cfg cfg') {T T' : Tables} (hI : Input cfg T)
    (hT' : TablesOK T') : Input cfg' T' := by
  refine ⟨hT', hc.extraFks ▸ hI.extra, fun hn => hI.named ?_⟩
  unfold dkeys at hn ⊢
  rw [← dget_isSome_iff] at hn ⊢
  rw [hc.targets]; exact hn

/-- C89 for failures: planning fails for all orders or for none. -/
theorem c89_same_failure {cfg cfg' : PlannerConfig} (hc : SameConfig cfg cfg') {T T' : Tables} (hI : Input cfg T)
    (hT' : TablesOK T') (h : SameTables T T') :
    (∃ e, planInternal cfg T = .error e) ↔ ∃ e, planInternal cfg' T' = .error e := by
  constructor
  · rintro ⟨e, he⟩
    cases h1 : planInternal cfg' T' with
    | error e' => exact ⟨e', rfl⟩
    | ok p =>
      obtain ⟨p', h2, -⟩ := c89_same_plan hc.symm (input_same hc hI hT') hI.tables h.symm h1
      rw [he] at h2; cases h2
  · rintro ⟨e, he⟩
    cases h1 : planInternal cfg T with
    | error e' => exact ⟨e', rfl⟩
    | ok p =>
      obtain ⟨p', h2, -⟩ := c89_same_plan hc hI hT' h h1
      rw [he] at h2; cases h2

/-- C89, what the same plan means: the same query for each table, tables sampled in the same order, the same tables
passed through. -/
theorem c89_meaning {p p' : Plan} (h : AlikePlan p p') :
    (∀ n q, (n, q) ∈ p.queries ↔ (n, q) ∈ p'.queries) ∧ (∀ n, n ∈ p.passthrough ↔ n ∈ p'.passthrough) ∧
    p.queries.filter (fun x => decide (x.1 ∉ p.passthrough)) = p'.queries.filter (fun x => decide (x.1 ∉ p'.passthrough)) := by
  obtain ⟨pass, pass', sampled, h1, h2, h3, h4, h5⟩ := h
  have hm : ∀ n, n ∈ p.passthrough ↔ n ∈ p'.passthrough := by
    intro n; rw [h4, h5]; exact (h3.map _).mem_iff
  refine ⟨fun n q => ?_, hm, ?_⟩
  · rw [h1, h2, List.mem_append, List.mem_append, h3.mem_iff]
  · have hnil : ∀ l : Dict Str TableQuery, ∀ ns : List Str, ns = l.map Prod.fst →
        l.filter (fun x => decide (x.1 ∉ ns)) = [] := by
      rintro l ns rfl
      rw [List.filter_eq_nil_iff]
      intro x hx
      simpa using ⟨x.2, hx⟩
    rw [h1, h2, List.filter_append, List.filter_append, hnil pass _ h4, hnil pass' _ h5]
    simp only [hm]

/-- C89 from the database: the command plans the same whatever the order of reflection. -/
theorem c89_database {fnmatch : Str → Str → Bool} {db db' : Dict Str TableMeta} (hdb : DbOK db) (hdb' : DbOK db')
    (hcl : DbClosed db) (h : SameDb db db') {cfg cfg' : PlannerConfig} (hc : SameConfig cfg cfg')
    (hx : ∀ x ∈ cfg.extraFks, x.Valid) (hn : [] ∉ dkeys cfg.targets) {p : Plan} (hp : plan fnmatch db cfg = .ok p) :
    ∃ p', plan fnmatch db' cfg' = .ok p' ∧ AlikePlan p p' := by
  have hcl' : DbClosed db' := by
    intro a b hab
    obtain ⟨n, t, h1, h2⟩ := hcl a b (h.symm.ref hab)
    obtain ⟨t', h3, h4⟩ := h.left n t h1
    exact ⟨n, t', h3, by rw [← h4.schema, ← h4.name]; exact h2⟩
  have hs : ∀ n, n ∈ cfg.select ++ cfg.passthrough ↔ n ∈ cfg'.select ++ cfg'.passthrough := by
    intro n; rw [List.mem_append, List.mem_append, hc.select, hc.passthrough]
  obtain ⟨l, h1, -⟩ := c18_selection_closure (fnmatch := fnmatch) hdb hcl (cfg.select ++ cfg.passthrough)
    cfg.includeDependencies false
  obtain ⟨l', h1', -⟩ := c18_selection_closure (fnmatch := fnmatch) hdb' hcl' (cfg'.select ++ cfg'.passthrough)
    cfg.includeDependencies false
  unfold plan at hp ⊢
  rw [h1] at hp
  rw [← hc.includeDependencies, h1']
  refine c89_same_plan hc ⟨(loaded_ok hdb h1).1, hx, hn⟩ (loaded_ok hdb' h1').1 ⟨fun k t ht => ?_, fun k t ht => ?_⟩ hp
  · exact h.loaded hdb hdb' (fun n hn => (hs n).1 hn) h1 h1' ht
  · obtain ⟨t', h2, h3⟩ := h.symm.loaded hdb' hdb (fun n hn => (hs n).2 hn) h1' h1 ht
    exact ⟨t', h2, h3.symm⟩

/-! ### Examples -/

/-- Orders with a buyer and a seller, both users. -/
def rpBuyer : ForeignKey := ⟨[str! "buyer"], str! "s", str! "u", [str! "id"]⟩
def rpSeller : ForeignKey := ⟨[str! "seller"], str! "s", str! "u", [str! "id"]⟩
def rpO (fks : List ForeignKey) : TableMeta := { schema := str! "s", name := str! "o", columns := [str! "id", str! "buyer", str! "seller"], primaryKey := [str! "id"], foreignKeys := fks }
def rpU (us : List (List Str)) : TableMeta := { schema := str! "s", name := str! "u", columns := [str! "id", str! "mail"], primaryKey := [str! "id"], uniques := us }
def rpP : TableMeta := { schema := str! "s", name := str! "p", columns := [str! "id"], primaryKey := [str! "id"] }
def rpQ : TableMeta := { schema := str! "s", name := str! "q", columns := [str! "id"], primaryKey := [str! "id"] }

def rpDb : Dict Str TableMeta := [(str! "s.o", rpO [rpBuyer, rpSeller]), (str! "s.p", rpP), (str! "s.q", rpQ), (str! "s.u", rpU [[str! "mail"], [str! "id"]])]
def rpDb' : Dict Str TableMeta := [(str! "s.u", rpU [[str! "id"], [str! "mail"]]), (str! "s.q", rpQ), (str! "s.p", rpP), (str! "s.o", rpO [rpSeller, rpBuyer])]

def rpCfg : PlannerConfig := { targets := [(str! "s.u", { amount := some 2 })], select := [str! "s.o", str! "s.u"], passthrough := [str! "s.p", str! "s.q"] }
def rpCfg' : PlannerConfig := { targets := [(str! "s.u", { amount := some 2 })], select := [str! "s.u", str! "s.o"], passthrough := [str! "s.q", str! "s.p"] }

theorem rpSame : SameDb rpDb rpDb' := by
  have hO : SameTable (rpO [rpBuyer, rpSeller]) (rpO [rpSeller, rpBuyer]) :=
    ⟨rfl, rfl, rfl, rfl, fun _ => Iff.rfl, .swap _ _ _, .refl _⟩
  have hU : SameTable (rpU [[str! "mail"], [str! "id"]]) (rpU [[str! "id"], [str! "mail"]]) :=
    ⟨rfl, rfl, rfl, rfl, fun u => by simp [rpU, or_comm], .refl _, .refl _⟩
  have hr : ∀ t, SameTable t t := fun t => ⟨rfl, rfl, rfl, rfl, fun _ => Iff.rfl, .refl _, .refl _⟩
  constructor
  · intro n t h
    simp only [rpDb, List.mem_cons, Prod.mk.injEq, List.not_mem_nil, or_false] at h
    rcases h with ⟨rfl, rfl⟩ | ⟨rfl, rfl⟩ | ⟨rfl, rfl⟩ | ⟨rfl, rfl⟩
    · exact ⟨_, by simp [rpDb'], hO⟩
    · exact ⟨_, by simp [rpDb'], hr _⟩
    · exact ⟨_, by simp [rpDb'], hr _⟩
    · exact ⟨_, by simp [rpDb'], hU⟩
  · intro n t h
    simp only [rpDb', List.mem_cons, Prod.mk.injEq, List.not_mem_nil, or_false] at h
    rcases h with ⟨rfl, rfl⟩ | ⟨rfl, rfl⟩ | ⟨rfl, rfl⟩ | ⟨rfl, rfl⟩
    · exact ⟨_, by simp [rpDb], hU⟩
    · exact ⟨_, by simp [rpDb], hr _⟩
    · exact ⟨_, by simp [rpDb], hr _⟩
    · exact ⟨_, by simp [rpDb], hO⟩

theorem rpSameConfig : SameConfig rpCfg rpCfg' :=
  ⟨fun n => by simp [rpCfg, rpCfg', or_comm], fun _ => rfl, fun _ => Iff.rfl,
    fun n => by simp [rpCfg, rpCfg', or_comm], fun _ => rfl, rfl, rfl, rfl, rfl⟩

/-- The tables of a plan with the columns joined on. -/
def rpJoins : Except PlanErr Plan → List (Str × List (List Str)) × List Str
  | .ok p => (p.queries.map fun x => (x.1,
      match x.2 with
      | .statement (.select s) => (s.joins.getD []).map fun j => j.leftColumns
      | _ => []), p.passthrough)
  | .error _ => ([], [])

/-- Buyers come before sellers whichever key is reflected first; only the passthrough tables are swapped. -/
theorem c89_example :
    rpJoins (plan (fun a b => decide (a = b)) rpDb rpCfg) =
      ([(str! "s.p", []), (str! "s.q", []), (str! "s.u", []), (str! "s.o", [[str! "buyer"], [str! "seller"]])], [str! "s.p", str! "s.q"]) ∧
    rpJoins (plan (fun a b => decide (a = b)) rpDb' rpCfg') =
      ([(str! "s.q", []), (str! "s.p", []), (str! "s.u", []), (str! "s.o", [[str! "buyer"], [str! "seller"]])], [str! "s.q", str! "s.p"]) := by
  decide +kernel

theorem rpDb_ok : DbOK rpDb ∧ DbOK rpDb' ∧ DbClosed rpDb := by
  refine ⟨?_, ?_, ?_⟩
  · refine ⟨by decide, ?_, ?_, ?_, ?_⟩ <;> intro n t h <;>
      simp only [rpDb, List.mem_cons, Prod.mk.injEq, List.not_mem_nil, or_false] at h <;>
      rcases h with ⟨rfl, rfl⟩ | ⟨rfl, rfl⟩ | ⟨rfl, rfl⟩ | ⟨rfl, rfl⟩ <;> decide
  · refine ⟨by decide, ?_, ?_, ?_, ?_⟩ <;> intro n t h <;>
      simp only [rpDb', List.mem_cons, Prod.mk.injEq, List.not_mem_nil, or_false] at h <;>
      rcases h with ⟨rfl, rfl⟩ | ⟨rfl, rfl⟩ | ⟨rfl, rfl⟩ | ⟨rfl, rfl⟩ <;> decide
  · rintro a b ⟨n, t, fk, h, rfl, h2, rfl⟩
    simp only [rpDb, List.mem_cons, Prod.mk.injEq, List.not_mem_nil, or_false] at h
    rcases h with ⟨rfl, rfl⟩ | ⟨rfl, rfl⟩ | ⟨rfl, rfl⟩ | ⟨rfl, rfl⟩
    · simp only [rpO, List.mem_cons, List.not_mem_nil, or_false] at h2
      rcases h2 with rfl | rfl <;> exact ⟨str! "s.u", rpU [[str! "mail"], [str! "id"]], by simp [rpDb], rfl⟩
    · simp [rpP] at h2
    · simp [rpQ] at h2
    · simp [rpU] at h2

/-- The example meets the premises of `c89_database`. -/
theorem c89_example_applies : ∃ p p', plan (fun a b => decide (a = b)) rpDb rpCfg = .ok p ∧
    plan (fun a b => decide (a = b)) rpDb' rpCfg' = .ok p' ∧ AlikePlan p p' := by
  cases h : plan (fun a b => decide (a = b)) rpDb rpCfg with
  | error e => have := c89_example.1; rw [h] at this; cases this
  | ok p =>
    obtain ⟨p', h1, h2⟩ := c89_database rpDb_ok.1 rpDb_ok.2.1 rpDb_ok.2.2 rpSame rpSameConfig (by simp [rpCfg]) (by decide) h
    exact ⟨p, p', rfl, h1, h2⟩

end Subsetter.Props
