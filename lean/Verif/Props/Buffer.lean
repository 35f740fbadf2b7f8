import Verif.Proofs.Buffer
import Verif.Props.RunIntact

/-
Property C84: the size of the write buffer.
-/
namespace Subsetter.Props
open Subsetter Spec

variable {σ : Type} {C : RunConfig} {D : Setting σ} {p : Plan} {S : DbState} {s : σ}

/-- C84. Whether a run ends without an error does not depend on the number of rows written at a time. -/
theorem c84_success (N M : Nat) : (sample C { D with buffer := N } p S s).err = none ↔
    (sample C { D with buffer := M } p S s).err = none :=
  (sample_beside (D := { D with buffer := N })).2.2.1.trans (sample_beside (D := { D with buffer := M })).2.2.1.symm

/-- C84. Neither does what a run without an error leaves, nor the tables written and the rows sent to them, in order. -/
theorem c84_same {N M : Nat} (h : (sample C { D with buffer := N } p S s).err = none) :
    (sample C { D with buffer := M } p S s).schema = (sample C { D with buffer := N } p S s).schema ∧
    (sample C { D with buffer := M } p S s).final = (sample C { D with buffer := N } p S s).final ∧
    (sample C { D with buffer := M } p S s).writes.map (fun w => (w.1, w.2.flatten)) =
      (sample C { D with buffer := N } p S s).writes.map fun w => (w.1, w.2.flatten) := by
  obtain ⟨h1, -, -, h3⟩ := sample_beside (C := C) (D := { D with buffer := N }) (p := p) (S := S) (s := s)
  obtain ⟨g1, -, -, g3⟩ := sample_beside (C := C) (D := { D with buffer := M }) (p := p) (S := S) (s := s)
  obtain ⟨h4, h5⟩ := h3 h
  obtain ⟨g4, g5⟩ := g3 ((c84_success N M).1 h)
  exact ⟨g1.trans h1.symm, g4.trans h4.symm, g5.trans h5.symm⟩

/-- C84. Whatever the size and even if the run fails, all states committed are among those of the run that commits after
every row. -/
theorem c84_states : ∀ X ∈ (sample C D p S s).hist, X ∈ (sample C { D with buffer := 0 } p S s).hist :=
  fun _ hX => sample_beside.2.1 hX

/-! ### Examples -/

/-- Error and number of orders after runs into a destination that already has order 15, the second of the two to be written. -/
def bfRun (N : Nat) (strategy : Strategy) : Option (Option RunErr × Nat × Nat) :=
  match planInternal exCfg ixTables with
  | .ok p =>
    let R := sample { remap := dxRemap, strategy := strategy, mult := { multiplier := 2 } } { rxSetting rxDst with buffer := N } p
      (fun k => if k = (str! "m", str! "o") then [[(str! "id", .int 15), (str! "uid", .int 1)]] else []) 0
    some (R.err, R.hist.length, (R.final (str! "m", str! "o")).length)
  | .error _ => none

/-- With `skip` runs that write rows one by one and all at once leave the same after different numbers of commits. -/
theorem bf_same : bfRun 0 .skip = some (none, 5, 2) ∧ bfRun 5 .skip = some (none, 3, 2) := by decide +kernel

/-- The states of a run that fails are not the same: order 14 is kept if rows are written one by one, and lost with the batch
otherwise. -/
theorem c84_failed_differ : bfRun 0 .error = some (some (.dest (.output .integrity)), 4, 2) ∧
    bfRun 5 .error = some (some (.dest (.output .integrity)), 2, 1) := by decide +kernel

end Subsetter.Props
