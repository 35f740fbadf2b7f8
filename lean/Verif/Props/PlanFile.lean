import Verif.Model.PlanFile
import Verif.Spec.PlanFile
import Verif.Proofs.PlanFileFuel
import Verif.Proofs.PlanFileWrite
import Verif.Props.Planner

/-
Property C49: writing a plan to a file and reading it again.
-/
namespace Subsetter.Props
open Subsetter Spec

/-- C49: a file written for a plan is accepted and gives a plan with the same queries and passthrough tables. -/
theorem c49_round_trip {code : Rat → Nat} {p : Plan} {file : Yaml} (h : DumpsPlan code p file) :
    ∃ p', loadPlan code file = .ok p' ∧ SamePlan p p' := by
  obtain ⟨qs, h1, h2⟩ := loadPlan_ok h
  exact ⟨_, h2, h1, rfl⟩

/-- C49: executing the plan read from the file gives what executing the plan itself gives. -/
theorem c49_same_execution {code : Rat → Nat} {T : Tables} {p : Plan} (hp : PlanOK T p) (ha : Acyclic p)
    {file : Yaml} (h : DumpsPlan code p file) (E : Engine) (compact : Dict Key (List Str)) (src : Key → List Row)
    (reopen : Bool) (names : List Str) (hn : ∀ n ∈ names, ∃ k, parseTableName n = some k) :
    ∃ p', loadPlan code file = .ok p' ∧
      execPlan E T compact src reopen p' names = execPlan E T compact src reopen p names := by
  obtain ⟨p', h1, h2, -⟩ := c49_round_trip h
  exact ⟨p', h1, c23_listing_order_irrelevant hp ha h2 E compact compact src reopen reopen names hn⟩

/-- C49 for the planner: every plan it makes can be written, and every file written for it can be read and executed
with the same result. -/
theorem c49_planner {code : Rat → Nat} {cfg : PlannerConfig} {T : Tables} (hI : Input cfg T)
    (hl : LiteralConfig code cfg) {p : Plan} (h : planInternal cfg T = .ok p) :
    (∃ file, DumpsPlan code p file) ∧
    ∀ file, DumpsPlan code p file → ∃ p', loadPlan code file = .ok p' ∧ SamePlan p p' ∧
      ∀ (Ts : Tables), (∀ k q, Planned p k q → (dget Ts k).isSome) →
      ∀ (E : Engine) (compact : Dict Key (List Str)) (src : Key → List Row) (reopen : Bool) (names : List Str),
        (∀ n ∈ names, ∃ k, parseTableName n = some k) →
        execPlan E Ts compact src reopen p' names = execPlan E Ts compact src reopen p names := by
  obtain ⟨ign, pass, T₁, T₂, found, ord, hp⟩ := planning hI h
  have hv : ∀ v, Literal code v → CanVal code v := by
    intro v hv
    cases v with
    | null => exact hv.elim
    | int i => exact ⟨_, rfl⟩
    | str s => exact ⟨_, rfl⟩
    | other n =>
      obtain ⟨q, hq⟩ := hv
      exact ⟨_, q, hq, rfl⟩
  refine ⟨hp.shape.can_write hp.ok ⟨fun n cs h c hc => hv _ (hl.1 n cs h c hc),
    fun n x h c vs hc v hv' => hv _ (hl.2 n x h c vs hc v hv')⟩, fun file hf => ?_⟩
  obtain ⟨p', h1, h2⟩ := c49_round_trip hf
  refine ⟨p', h1, h2, fun Ts hTs E compact src reopen names hn => ?_⟩
  have hok : PlanOK Ts p := hp.shape.planOK hp.ok fun k hk => by
    obtain ⟨q, hq⟩ := hp.planned_iff.2 hk; exact hTs k q hq
  exact c23_listing_order_irrelevant hok (hp.shape.acyclic hp.ok) h2.1 E compact compact src reopen reopen names hn

/-- The reader of the model always decides: it does not run out of fuel, whatever the file. -/
theorem c49_reader_total (code : Rat → Nat) (file : Yaml) : loadPlan code file ≠ .error .fuel := nf_plan

/-! ### Example -/

def fxStr (s : Str) : Yaml := .leaf (.str s)

/-- The file for `exPlan`, keys sorted, fields not set by the planner left out. -/
def fxFile : Yaml := .map [(str! "queries", .map [
  (str! "s.o", .map [(str! "statement", .map [
    (str! "from", .map [(str! "schema", fxStr (str! "s")), (str! "table", fxStr (str! "o"))]),
    (str! "type", fxStr (str! "select")),
    (str! "where", .map [(str! "column", fxStr (str! "uid")), (str! "operator", fxStr (str! "=")),
      (str! "type", fxStr (str! "operator")), (str! "value", .leaf (.int 1))])])]),
  (str! "s.u", .map [(str! "statement", .map [
    (str! "from", .map [(str! "schema", fxStr (str! "s")), (str! "table", fxStr (str! "u"))]),
    (str! "joins", .seq [.map [(str! "left_columns", .seq [fxStr (str! "id")]),
      (str! "right", .map [(str! "sampled", .leaf (.bool true)), (str! "schema", fxStr (str! "s")),
        (str! "table", fxStr (str! "o"))]), (str! "right_columns", .seq [fxStr (str! "uid")])]]),
    (str! "joins_outer", .leaf (.bool true)),
    (str! "type", fxStr (str! "select"))])])])]

/-- The plan lists users first, the file orders first. -/
theorem fxFile_dumps : DumpsPlan (fun _ => 0) exPlan fxFile := by
  refine ⟨_, rfl, ⟨_, rfl, [(str! "s.o", exOQuery), (str! "s.u", exUQuery)], _, rfl, ?_, ?_⟩, .inl ⟨rfl, rfl⟩⟩
  · exact List.Perm.swap _ _ _
  · refine .cons ⟨rfl, _, rfl, .inl ⟨rfl, trivial⟩, ⟨_, rfl, ?_⟩⟩ (.cons ⟨rfl, _, rfl, .inl ⟨rfl, trivial⟩, ⟨_, rfl, ?_⟩⟩ .nil)
    · rw [DumpsStmt, DumpsSel]
      refine ⟨_, rfl, ⟨_, rfl, rfl⟩, .inl ⟨rfl, rfl⟩, ⟨_, rfl, _, rfl, ⟨_, rfl, rfl⟩, ⟨_, rfl, rfl⟩, .inl ⟨rfl, rfl⟩⟩,
        .inr ⟨_, rfl, ?_⟩, .inl ⟨rfl, rfl⟩, .inl ⟨rfl, rfl⟩, .inl ⟨rfl, rfl⟩, rfl⟩
      rw [DumpsOptWhere, DumpsWhere]
      exact ⟨_, rfl, ⟨_, rfl, rfl⟩, .inr ⟨_, rfl, rfl⟩, ⟨_, rfl, rfl⟩, ⟨_, rfl, rfl⟩⟩
    · rw [DumpsStmt, DumpsSel]
      refine ⟨_, rfl, ⟨_, rfl, rfl⟩, .inl ⟨rfl, rfl⟩, ⟨_, rfl, _, rfl, ⟨_, rfl, rfl⟩, ⟨_, rfl, rfl⟩, .inl ⟨rfl, rfl⟩⟩,
        .inl ⟨rfl, rfl⟩, .inl ⟨rfl, rfl⟩, .inr ⟨_, rfl, _, rfl, .cons ?_ .nil⟩, .inr ⟨_, rfl, rfl⟩, rfl⟩
      exact ⟨_, rfl, ⟨_, rfl, _, rfl, ⟨_, rfl, rfl⟩, ⟨_, rfl, rfl⟩, .inr ⟨_, rfl, rfl⟩⟩,
        ⟨_, rfl, _, rfl, .cons rfl .nil⟩, ⟨_, rfl, _, rfl, .cons rfl .nil⟩, .inl ⟨rfl, rfl⟩⟩

/-- The configuration of the running example meets the hypotheses of `c49_planner` (that it is planned without error
is checked in `Props/Planner.lean`). -/
theorem exCfg_literal : LiteralConfig (fun _ => 0) exCfg := by
  refine ⟨(fun _ _ h => nomatch h), fun n x h c vs hc v hv => ?_⟩
  have := dget_some_mem h
  simp only [exCfg, List.mem_cons, Prod.mk.injEq, List.not_mem_nil, or_false] at this
  obtain ⟨-, rfl⟩ := this
  simp only [List.mem_cons, Prod.mk.injEq, List.not_mem_nil, or_false] at hc
  obtain ⟨-, rfl⟩ := hc
  simp only [List.mem_cons, List.not_mem_nil, or_false] at hv
  subst hv; trivial

example {p : Plan} (h : planInternal exCfg exTables = .ok p) : ∃ file, DumpsPlan (fun _ => 0) p file :=
  (c49_planner exCfg_input exCfg_literal h).1

/-- Read and execute a file. -/
def fxRun (file : Yaml) : Option (Except ExecErr (List (Key × List Row))) :=
  match loadPlan (fun _ => 0) file with
  | .error _ => none
  | .ok p => some (execPlan exEngine exTables [] exSrc false p [str! "s.u", str! "s.o"])

example : fxRun fxFile = some (.ok [((str! "s", str! "u"), [[(str! "id", .int 1)]]),
    ((str! "s", str! "o"), [[(str! "id", .int 7), (str! "uid", .int 1)]])]) := by decide +kernel

def fxError (file : Yaml) : Option LoadErr :=
  match loadPlan (fun _ => 0) file with
  | .error e => some e
  | .ok _ => none

/-- Names of fields do not replace aliases everywhere: without `by_alias` the union of statements would not be
recognised. -/
theorem c49_aliases_needed :
    fxError (.map [(str! "queries", .map [(str! "s.o", .map [(str! "statement", .map [
      (str! "from_", .map [(str! "table_schema", fxStr (str! "s")), (str! "table_name", fxStr (str! "o"))]),
      (str! "type_", fxStr (str! "select"))])])])]) = some .tag := by decide +kernel

end Subsetter.Props
