import Verif.Proofs.Materialize
import Verif.Props.PlanModel

/-
Property C23: execution of a plan (`sampler.py`).
-/
namespace Subsetter.Props
open Subsetter Spec

/-- Copying the rows of table `k` looks up the compacted identifiers of table `d`: some foreign key
of `k` refers to a compacted column of `d`. -/
def CompactNeeds (T : Tables) (compact : Dict Key (List Str)) (k d : Key) : Prop :=
  ∃ t fk, dget T k = some t ∧ fk ∈ t.foreignKeys ∧ (fk.dstSchema, fk.dstTable) = d ∧
    ∃ c ∈ fk.dstColumns, c ∈ (dget compact d).getD []

theorem compactNeeds_iff {T : Tables} {compact : Dict Key (List Str)} {k d : Key} :
    (∃ t, dget T k = some t ∧ d ∈ compactRefs compact t) ↔ CompactNeeds T compact k d := by
  constructor
  · rintro ⟨t, h1, h2⟩
    simp only [compactRefs, List.mem_map, List.mem_filter, List.any_eq_true,
      decide_eq_true_eq] at h2
    obtain ⟨fk, ⟨h3, c, h4, h5⟩, rfl⟩ := h2
    exact ⟨t, fk, h1, h3, rfl, c, h4, h5⟩
  · rintro ⟨t, fk, h1, h2, rfl, c, h3, h4⟩
    refine ⟨t, h1, ?_⟩
    simp only [compactRefs, List.mem_map, List.mem_filter, List.any_eq_true, decide_eq_true_eq]
    exact ⟨fk, ⟨h2, c, h3, h4⟩, rfl⟩

/-- C23, first half: for a plan without cyclic references the materialisation order lists exactly
the planned tables that some query or the compaction refers to, each once, and each after all the
tables its own query uses. -/
theorem c23_materialisation_order {T : Tables} {p : Plan} (hp : PlanOK T p) (ha : Acyclic p)
    (compact : Dict Key (List Str)) :
    ∃ order, materializationOrder T compact p = .ok order ∧ (order.map Prod.fst).Nodup ∧
      (∀ d, d ∈ order.map Prod.fst ↔
        (∃ q, Planned p d q) ∧ ∃ k q, Planned p k q ∧ (Uses q d ∨ CompactNeeds T compact k d)) ∧
      ∀ l₁ k n l₂, order = l₁ ++ (k, n) :: l₂ → ∀ q, Planned p k q → ∀ d, Uses q d →
        d ∈ l₁.map Prod.fst := by
  rcases materializationOrder_spec hp compact with ⟨order, h1, h2, h3, h4, h5, h6⟩ | ⟨h1, h2⟩
  · refine ⟨order, h1, h3, fun d => ?_, fun l₁ k n l₂ hl q hq d hd => h5 l₁ k n l₂ hl d ⟨q, hq, hd⟩⟩
    rw [h4]
    simp only [Wanted, compactNeeds_iff]
  · exact absurd ha h2

/-- C23: a plan with cyclic references between sampled tables is reported as such. -/
theorem c23_cycle_reported {T : Tables} {p : Plan} (hp : PlanOK T p)
    (compact : Dict Key (List Str)) :
    materializationOrder T compact p = .error .cycle ↔ ¬ Acyclic p := by
  rcases materializationOrder_spec hp compact with ⟨order, h1, h2, -⟩ | ⟨h1, h2⟩
  · rw [h1]; simp [h2]
  · rw [h1]; simp [h2]

/-- C23: execution writes for every table of the insert order that is planned the rows of the sample
the plan describes: the rows its query returns when it sees the rows sampled for the other
tables. -/
theorem c23_execution_is_sample {T : Tables} {p : Plan} (hp : PlanOK T p) (ha : Acyclic p)
    (E : Engine) (compact : Dict Key (List Str)) (src : Key → List Row) (reopen : Bool)
    (ks : List Key) (hks : ∀ k ∈ ks, '.' ∉ k.1 ∧ ∃ q, Planned p k q) :
    ∃ S, IsSample E T src p S ∧
      (∀ S', IsSample E T src p S' → ∀ k q, Planned p k q → S' k = S k) ∧
      execPlan E T compact src reopen p (ks.map Key.str) = .ok (ks.map fun k => (k, S k)) := by
  have hn : ∀ n ∈ ks.map Key.str, ∃ k, parseTableName n = some k := by
    intro n hn
    obtain ⟨k, hk, rfl⟩ := List.mem_map.1 hn
    exact ⟨k, parse_of_nodot (hks k hk).1⟩
  rcases execPlan_spec hp E compact src reopen _ hn with ⟨-, S, h1, h2⟩ | ⟨h1, -⟩
  · refine ⟨S, h1, fun S' hS' => isSample_unique hp ha hS' h1, ?_⟩
    rw [h2, List.filterMap_map]
    have : ks.filterMap ((fun n => if (dget p.queries n).isSome then parseTableName n else none) ∘
        Key.str) = ks := by
      conv_rhs => rw [← List.filterMap_some (l := ks)]
      refine List.filterMap_congr fun k hk => ?_
      obtain ⟨h3, q, h4⟩ := hks k hk
      simp only [Function.comp]
      rw [Planned.get hp h4, parse_of_nodot h3]
      simp
    rw [this]
  · exact absurd ha h1

/-- C23, second half: neither the order in which the plan lists its queries, nor the compaction
settings, nor whether the database can reopen temporary tables, changes the sampled rows. -/
theorem c23_listing_order_irrelevant {T : Tables} {p p' : Plan} (hp : PlanOK T p)
    (ha : Acyclic p) (hperm : p'.queries.Perm p.queries) (E : Engine)
    (compact compact' : Dict Key (List Str)) (src : Key → List Row) (reopen reopen' : Bool)
    (names : List Str) (hn : ∀ n ∈ names, ∃ k, parseTableName n = some k) :
    execPlan E T compact' src reopen' p' names = execPlan E T compact src reopen p names := by
  have hpl : ∀ k q, Planned p' k q ↔ Planned p k q := by
    intro k q; unfold Planned; simp only [hperm.mem_iff]
  have hnd : (p'.queries.map Prod.fst).Nodup := ((hperm.map _).nodup_iff).2 hp.names_nodup
  have hneeds : ∀ k d, Needs p' k d ↔ Needs p k d := by
    intro k d; unfold Needs; simp only [hpl]
  have hp' : PlanOK T p' := by
    refine ⟨hnd, fun n q h => hp.known n q (hperm.mem_iff.1 h), fun k q h => ?_, fun k d h => ?_⟩
    · exact hp.refs_known k q ((hpl k q).1 h)
    · obtain ⟨q, hq⟩ := hp.uses_planned k d ((hneeds k d).1 h)
      exact ⟨q, (hpl d q).2 hq⟩
  have ha' : Acyclic p' := fun k h => ha k ((transGen_congr hneeds k k).1 h)
  rcases execPlan_spec hp E compact src reopen names hn with ⟨-, S, h1, h2⟩ | ⟨h1, -⟩
  swap
  · exact absurd ha h1
  rcases execPlan_spec hp' E compact' src reopen' names hn with ⟨-, S', h3, h4⟩ | ⟨h3, -⟩
  swap
  · exact absurd ha' h3
  have hS' : IsSample E T src p S' := fun k q hq => h3 k q ((hpl k q).2 hq)
  have hget : ∀ n, dget p'.queries n = dget p.queries n := by
    intro n
    cases h : dget p.queries n with
    | none =>
      rw [dget_none_iff] at h ⊢
      rwa [(hperm.map Prod.fst).mem_iff]
    | some q => exact dget_of_mem hnd (hperm.mem_iff.2 (dget_some_mem h))
  rw [h2, h4]
  simp only [hget]
  congr 1
  refine List.map_congr_left fun k hk => ?_
  obtain ⟨n, -, hk⟩ := List.mem_filterMap.1 hk
  by_cases hs : (dget p.queries n).isSome
  · rw [if_pos hs] at hk
    obtain ⟨q, hq⟩ := Option.isSome_iff_exists.1 hs
    rw [isSample_unique hp ha hS' h1 k q ⟨n, dget_some_mem hq, hk⟩]
  · rw [if_neg hs] at hk; cases hk

/-! A plan: orders of user 1, and the users having a sampled order. -/

def exTableO : TableMeta where
  schema := str! "s"
  name := str! "o"
  columns := [str! "id", str! "uid"]
  primaryKey := [str! "id"]
  foreignKeys := [⟨[str! "uid"], str! "s", str! "u", [str! "id"]⟩]

def exTableU : TableMeta where
  schema := str! "s"
  name := str! "u"
  columns := [str! "id"]
  primaryKey := [str! "id"]

def exTables : Tables := [((str! "s", str! "o"), exTableO), ((str! "s", str! "u"), exTableU)]

def exOQuery : TableQuery := .statement (.select
  (.mk none ⟨str! "s", str! "o", false⟩ (some (.op .eq (str! "uid") (.int 1))) none none false 0))
def exUQuery : TableQuery := .statement (.select (.mk none exU none none (some [exJoin]) true 0))

def exPlan : Plan := ⟨[(str! "s.u", exUQuery), (str! "s.o", exOQuery)], []⟩

def exSrc : Key → List Row := fun k =>
  if k = (str! "s", str! "u") then [[(str! "id", .int 1)], [(str! "id", .int 2)]]
  else if k = (str! "s", str! "o") then
    [[(str! "id", .int 7), (str! "uid", .int 1)], [(str! "id", .int 8), (str! "uid", .int 2)]]
  else []

theorem exPlan_planned {k : Key} {q : TableQuery} (h : Planned exPlan k q) :
    (k = (str! "s", str! "u") ∧ q = exUQuery) ∨ (k = (str! "s", str! "o") ∧ q = exOQuery) := by
  obtain ⟨n, h1, h2⟩ := h
  simp only [exPlan, List.mem_cons, Prod.mk.injEq, List.not_mem_nil, or_false] at h1
  rcases h1 with ⟨rfl, rfl⟩ | ⟨rfl, rfl⟩
  · exact Or.inl ⟨(Option.some.inj h2).symm, rfl⟩
  · exact Or.inr ⟨(Option.some.inj h2).symm, rfl⟩

theorem exPlan_needs {k d : Key} (h : Needs exPlan k d) :
    k = (str! "s", str! "u") ∧ d = (str! "s", str! "o") := by
  obtain ⟨q, h1, x, h2, h3, h4⟩ := h
  rcases exPlan_planned h1 with ⟨rfl, rfl⟩ | ⟨rfl, rfl⟩
  · simp only [exUQuery, TableQuery.refs, Stmt.refs, Sel.refs, exJoin, Option.getD_some,
      List.map_cons, List.map_nil, List.mem_cons, List.not_mem_nil, or_false] at h2
    rcases h2 with rfl | rfl
    · simp [exU] at h3
    · exact ⟨rfl, h4.symm⟩
  · simp only [exOQuery, TableQuery.refs, Stmt.refs, Sel.refs, Where.refs, Option.getD_none,
      List.map_nil, List.append_nil, List.mem_cons, List.not_mem_nil, or_false] at h2
    subst h2; simp at h3

theorem exPlan_ok : PlanOK exTables exPlan := by
  refine ⟨by decide, ?_, ?_, ?_⟩
  · intro n q h
    simp only [exPlan, List.mem_cons, Prod.mk.injEq, List.not_mem_nil, or_false] at h
    rcases h with ⟨rfl, rfl⟩ | ⟨rfl, rfl⟩
    · exact ⟨(str! "s", str! "u"), rfl, by decide⟩
    · exact ⟨(str! "s", str! "o"), rfl, by decide⟩
  · intro k q h x hx
    rcases exPlan_planned h with ⟨rfl, rfl⟩ | ⟨rfl, rfl⟩
    · simp only [exUQuery, TableQuery.refs, Stmt.refs, Sel.refs, exJoin, Option.getD_some,
        List.map_cons, List.map_nil, List.mem_cons, List.not_mem_nil, or_false] at hx
      rcases hx with rfl | rfl <;> decide
    · simp only [exOQuery, TableQuery.refs, Stmt.refs, Sel.refs, Where.refs, Option.getD_none,
        List.map_nil, List.append_nil, List.mem_cons, List.not_mem_nil, or_false] at hx
      subst hx; decide
  · intro k d h
    obtain ⟨-, rfl⟩ := exPlan_needs h
    exact ⟨exOQuery, str! "s.o", by simp [exPlan], rfl⟩

theorem exPlan_acyclic : Acyclic exPlan := by
  intro k h
  obtain ⟨b, h1, h2⟩ := Relation.TransGen.head'_iff.1 h
  obtain ⟨rfl, rfl⟩ := exPlan_needs h1
  rcases Relation.ReflTransGen.cases_head h2 with h3 | ⟨c, h3, -⟩
  · simp at h3
  · have := (exPlan_needs h3).1; simp at this

/-- The plan is executed although it lists users before the orders they depend on; only the user
having a sampled order is sampled. -/
example : execPlan exEngine exTables [] exSrc false exPlan [str! "s.u", str! "s.o"] =
    .ok [((str! "s", str! "u"), [[(str! "id", .int 1)]]),
      ((str! "s", str! "o"), [[(str! "id", .int 7), (str! "uid", .int 1)]])] := by decide +kernel

end Subsetter.Props
