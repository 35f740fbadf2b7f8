import Verif.Proofs.Reorder
import Verif.Props.Repeat

/-
Property C101: filters that work on different columns can be reordered.
-/
namespace Subsetter.Props
open Subsetter Spec

variable {σ : Type} {C : RunConfig} {D : Setting σ} {p : Plan} {S : DbState} {s : σ}

/-- C101. Exchange neighbouring filters of tables any number of times, provided the two work on different columns, neither drops columns, and at
most one of them draws random values or calls a plugin.  If the run succeeded, it succeeds with the same outcome: schema, history of states of
the destination, batches. -/
theorem c101_reorder_partial {fs : Dict Str (List (FilterCfg Val))} (hfs : ReorderedAll C.filters fs) (h : (sample C D p S s).err = none) :
    sample { C with filters := fs } D p S s = sample C D p S s :=
  sample_reordered hfs h

/-- C101. The same for files. -/
theorem c101_directory_partial {fs : Dict Str (List (FilterCfg Val))} {F : Files} (hfs : ReorderedAll C.filters fs)
    (h : (sampleDirectory C D p F s).2 = none) :
    sampleDirectory { C with filters := fs } D p F s = sampleDirectory C D p F s :=
  directory_reordered hfs h

/-! ### Examples -/

/-- The filters `fs` for orders. -/
def roC (fs : List (SimpleCfg Val)) : RunConfig := { remap := dxRemap, filters := [(str! "s.o", fs.map .simple)] }

def roUser : SimpleCfg Val := .randomInt [str! "uid"] 0 9
def roId : SimpleCfg Val := .constant [str! "id"] [.int 6]

theorem ro_reordered : ReorderedAll (roC [roUser, roId]).filters (roC [roId, roUser]).filters := by
  refine .cons ⟨rfl, ?_⟩ .nil
  refine Reordered.swap (pre := []) (post := []) ⟨⟨?_, ?_⟩, ?_, .inr ?_⟩
  · exact fun h => h
  · exact fun h => h
  · decide
  · exact trivial

/-- The hypotheses are met by a run that gives orders a random user and a fixed identifier. -/
theorem c101_example : (sample (roC [roUser, roId]) rtSetting exPlan (fun _ => []) 0).err = none ∧
    (sample (roC [roUser, roId]) rtSetting exPlan (fun _ => []) 0).final (str! "m", str! "o") ≠
      (sample (roC [roId]) rtSetting exPlan (fun _ => []) 0).final (str! "m", str! "o") ∧
    (sample (roC [roUser, roId]) rtSetting exPlan (fun _ => []) 0).final (str! "m", str! "o") ≠
      (sample (roC [roUser]) rtSetting exPlan (fun _ => []) 0).final (str! "m", str! "o") := by
  decide +kernel

theorem c101_applied : sample (roC [roId, roUser]) rtSetting exPlan (fun _ => []) 0 = sample (roC [roUser, roId]) rtSetting exPlan (fun _ => []) 0 :=
  c101_reorder_partial ro_reordered c101_example.1

/-- The columns must differ: the last of two constants wins. -/
theorem c101_same_column :
    (sample (roC [roId, .constant [str! "id"] [.int 8]]) rtSetting exPlan (fun _ => []) 0).err = none ∧
    (sample (roC [.constant [str! "id"] [.int 8], roId]) rtSetting exPlan (fun _ => []) 0).err = none ∧
    (sample (roC [roId, .constant [str! "id"] [.int 8]]) rtSetting exPlan (fun _ => []) 0).final (str! "m", str! "o") ≠
      (sample (roC [.constant [str! "id"] [.int 8], roId]) rtSetting exPlan (fun _ => []) 0).final (str! "m", str! "o") := by
  decide +kernel

/-- Of two filters that draw random values the first gets the first value, so their order matters although their columns differ. -/
theorem c101_both_random :
    (sample (roC [roUser, .randomInt [str! "id"] 0 9]) rtSetting exPlan (fun _ => []) 0).err = none ∧
    (sample (roC [.randomInt [str! "id"] 0 9, roUser]) rtSetting exPlan (fun _ => []) 0).err = none ∧
    (sample (roC [roUser, .randomInt [str! "id"] 0 9]) rtSetting exPlan (fun _ => []) 0).final (str! "m", str! "o") ≠
      (sample (roC [.randomInt [str! "id"] 0 9, roUser]) rtSetting exPlan (fun _ => []) 0).final (str! "m", str! "o") := by
  decide +kernel

/-- A filter cannot be moved behind one that drops its column. -/
theorem c101_omit :
    (sample (roC [.null [str! "uid"], .omit [str! "uid"]]) rtSetting exPlan (fun _ => []) 0).err = none ∧
    (sample (roC [.omit [str! "uid"], .null [str! "uid"]]) rtSetting exPlan (fun _ => []) 0).err ≠ none := by
  decide +kernel

end Subsetter.Props
