import Verif.Proofs.PlanClosed
import Verif.Props.Planner

/-
Property C64: references between planned tables.
-/
namespace Subsetter.Props
open Subsetter Spec

/-- C64. A plan made with dependencies included has every table a planned table refers to by a used foreign key.
Without dependencies only tables the user has ignored may be missing, and no table passed through refers to one. -/
theorem c64_closed {cfg : PlannerConfig} {T : Tables} (hI : Input cfg T) {p : Plan} (h : planInternal cfg T = .ok p)
    {a b : Key} {fk : ForeignKey} (ha : ∃ q, Planned p a q) (hu : UsedFk cfg T a fk b) :
    (∃ q, Planned p b q) ∨
    (cfg.includeDependencies = false ∧ Named cfg.ignore b ∧ ¬ (Named cfg.passthrough a)) := by
  obtain ⟨ign, pass, T₁, T₂, found, ord, hp⟩ := planning hI h
  have ha' := hp.planned_iff.1 ha
  rcases hp.refs_planned ha' hu with h1 | ⟨h1, h2, h3⟩
  · exact .inl (hp.planned_iff.2 h1)
  · exact .inr ⟨h1, (hp.ign_iff b).1 h2, fun hn =>
      h3 (hp.mem_found.2 ⟨(hp.pass_iff a).2 hn, hp.shape.inT hp.ok ha'⟩)⟩

/-- C64. Planned tables refer to each other in a circle only if they are passed through. -/
theorem c64_circles {cfg : PlannerConfig} {T : Tables} (hI : Input cfg T) {p : Plan} (h : planInternal cfg T = .ok p)
    {k : Key} (hc : Relation.TransGen (fun a b => UsedRef cfg T a b ∧ (∃ q, Planned p a q) ∧ ∃ q, Planned p b q) k k) :
    Named cfg.passthrough k := by
  obtain ⟨ign, pass, T₁, T₂, found, ord, hp⟩ := planning hI h
  refine (hp.pass_iff k).1 (hp.mem_found.1 (hp.circle_found ?_)).1
  refine Relation.TransGen.mono ?_ k k hc
  rintro a b ⟨h1, h2, h3⟩
  exact ⟨h1, hp.planned_iff.1 h2, hp.planned_iff.1 h3⟩

/-! ### Examples -/

/-- The names of planned tables. -/
def pxNames (r : Except PlanErr Plan) : Except PlanErr (List Str) := r.map fun p => dkeys p.queries

/-- Orders refer to users, so users are planned. -/
theorem px_closed : pxNames (planInternal { targets := [(str! "s.o", { all := true })] } exTables) =
    .ok [str! "s.o", str! "s.u"] := by decide +kernel

/-- Ignored users are not planned if dependencies are not asked for. -/
theorem c64_ignored_missing : pxNames (planInternal { targets := [(str! "s.o", { all := true })], ignore := [str! "s.u"], includeDependencies := false } exTables) =
    .ok [str! "s.o"] := by decide +kernel

def pxA : TableMeta := { schema := str! "s", name := str! "a", columns := [str! "id", str! "b"], primaryKey := [str! "id"], foreignKeys := [⟨[str! "b"], str! "s", str! "b", [str! "id"]⟩] }
def pxB : TableMeta := { schema := str! "s", name := str! "b", columns := [str! "id", str! "a"], primaryKey := [str! "id"], foreignKeys := [⟨[str! "a"], str! "s", str! "a", [str! "id"]⟩] }

/-- Two tables that refer to each other can be passed through but not sampled. -/
theorem c64_circle_passed : pxNames (planInternal { targets := [], passthrough := [str! "s.a", str! "s.b"] } [((str! "s", str! "a"), pxA), ((str! "s", str! "b"), pxB)]) =
      .ok [str! "s.a", str! "s.b"] ∧
    pxNames (planInternal { targets := [(str! "s.a", { all := true })] } [((str! "s", str! "a"), pxA), ((str! "s", str! "b"), pxB)]) =
      .error (.cycle [str! "s.a", str! "s.b"]) := by decide +kernel

end Subsetter.Props
