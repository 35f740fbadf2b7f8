import Verif.Proofs.OtherTables
import Verif.Props.Repeat

/-
Property C99: the filters of a table affect no other table.
-/
namespace Subsetter.Props
open Subsetter Spec

variable {σ : Type} {C : RunConfig} {D : Setting σ} {p : Plan} {S : DbState} {s s' : σ}

/-- C99. Two runs that differ only in the filters of the table `n0` - whatever they are - and in random choices, and that both
succeed, leave the same rows in every table but the destination of `n0`, and send the same batches to it.  Filters of other tables must not
draw random numbers. -/
theorem c99_filters {fs : Dict Str (List (FilterCfg Val))} {n0 : Str} (hok : RunOK C D p)
    (h0 : n0 ∈ dkeys p.queries) (hfs : ∀ n, n ≠ n0 → dget fs n = dget C.filters n)
    (hset : ∀ n, n ≠ n0 → ∀ f ∈ filtersOf C n, FilterCfg.Settled f)
    (h : (sample C D p S s).err = none) (h' : (sample { C with filters := fs } D p S s').err = none) :
    (sample C D p S s).schema = (sample { C with filters := fs } D p S s').schema ∧
    ∀ k, ¬ DestOf C.remap n0 k →
      (sample C D p S s).final k = (sample { C with filters := fs } D p S s').final k ∧
      ∀ bs, (k, bs) ∈ (sample C D p S s).writes ↔ (k, bs) ∈ (sample { C with filters := fs } D p S s').writes :=
  sample_others hok h0 hfs hset h h'

/-- C99. The same for files. -/
theorem c99_directory {fs : Dict Str (List (FilterCfg Val))} {n0 : Str} {F : Files}
    (hfs : ∀ n, n ≠ n0 → dget fs n = dget C.filters n)
    (hset : ∀ n, n ≠ n0 → ∀ f ∈ filtersOf C n, FilterCfg.Settled f)
    (h : (sampleDirectory C D p F s).2 = none) (h' : (sampleDirectory { C with filters := fs } D p F s').2 = none)
    {f : Str} (hf : f ≠ fileOf n0) :
    (sampleDirectory C D p F s).1 f = (sampleDirectory { C with filters := fs } D p F s').1 f :=
  directory_others hfs hset h h' hf

/-- C99. Filters configured for tables that are not planned have no effect, nor has the order in which tables are listed. -/
theorem c99_unplanned {fs : Dict Str (List (FilterCfg Val))}
    (hfs : ∀ n ∈ dkeys p.queries, (dget fs n).getD [] = filtersOf C n)
    (h : (sample C D p S s).err = none) (h' : (sample { C with filters := fs } D p S s).err = none) :
    sample { C with filters := fs } D p S s = sample C D p S s :=
  sample_unplanned hfs h h'

/-- C99. The same for files. -/
theorem c99_unplanned_directory {fs : Dict Str (List (FilterCfg Val))} {F : Files}
    (hfs : ∀ n ∈ dkeys p.queries, (dget fs n).getD [] = filtersOf C n)
    (h : (sampleDirectory C D p F s).2 = none) (h' : (sampleDirectory { C with filters := fs } D p F s).2 = none) :
    sampleDirectory { C with filters := fs } D p F s = sampleDirectory C D p F s :=
  directory_unplanned hfs h h'

/-! ### Examples -/

/-- Users get a random identifier. -/
def otFilters : Dict Str (List (FilterCfg Val)) :=
  [(str! "s.o", [.simple (.constant [str! "uid"] [.int 2])]), (str! "s.u", [.simple (.randomInt [str! "id"] 0 9)])]

theorem ot_filters : ∀ n, n ≠ str! "s.u" → dget otFilters n = dget (rtC .skip).filters n := by
  intro n hn
  unfold otFilters rtC
  simp only [dget]
  split
  · rfl
  · rw [if_neg]
    exact fun e => hn e.symm

/-- The hypotheses are met by a run whose users get random identifiers: these change, the orders do not. -/
theorem c99_example : str! "s.u" ∈ dkeys exPlan.queries ∧
    rxShow (sample (rtC .skip) rtSetting exPlan rtBefore 0) = (none, [[[(str! "id", .int 5)], [(str! "id", .int 2)], [(str! "id", .int 3)]],
      [[(str! "id", .int 14), (str! "uid", .int 5)], [(str! "id", .int 15), (str! "uid", .int 2)]], []]) ∧
    (rxShow (sample { rtC .skip with filters := otFilters } rtSetting exPlan rtBefore 0)).1 = none ∧
    (sample { rtC .skip with filters := otFilters } rtSetting exPlan rtBefore 0).final (str! "m", str! "u") ≠
      (sample (rtC .skip) rtSetting exPlan rtBefore 0).final (str! "m", str! "u") ∧
    (sample { rtC .skip with filters := otFilters } rtSetting exPlan rtBefore 0).final (str! "m", str! "o") =
      (sample (rtC .skip) rtSetting exPlan rtBefore 0).final (str! "m", str! "o") := by
  decide +kernel

/-- The theorem on this run. -/
theorem c99_applied (s s' : Int) (h : (sample (rtC .skip) rtSetting exPlan rtBefore s).err = none)
    (h' : (sample { rtC .skip with filters := otFilters } rtSetting exPlan rtBefore s').err = none) :
    (sample (rtC .skip) rtSetting exPlan rtBefore s).final (str! "m", str! "o") =
      (sample { rtC .skip with filters := otFilters } rtSetting exPlan rtBefore s').final (str! "m", str! "o") := by
  refine ((c99_filters (rt_ok .skip) c99_example.1 ot_filters (fun n _ => rt_settled .skip n) h h').2 _ fun hd => ?_).1
  exact absurd (destOf_unique hd ⟨str! "s", str! "u", by decide, by decide⟩ : (str! "m", str! "o") = (str! "m", str! "u")) (by decide)

theorem c99_files_example :
    ([str! "s.u.json", str! "s.o.json"].map (sampleDirectory (rtC .skip) rtSetting exPlan lxFiles 0).1) =
      [some [[(str! "id", .int 2)], [(str! "id", .int 3)]], some [[(str! "id", .int 14), (str! "uid", .int 2)], [(str! "id", .int 15), (str! "uid", .int 2)]]] ∧
    (sampleDirectory (rtC .skip) rtSetting exPlan lxFiles 0).2 = none ∧
    (sampleDirectory { rtC .skip with filters := otFilters } rtSetting exPlan lxFiles 0).2 = none ∧
    (sampleDirectory { rtC .skip with filters := otFilters } rtSetting exPlan lxFiles 0).1 (str! "s.u.json") ≠ some [[(str! "id", .int 2)], [(str! "id", .int 3)]] ∧
    (sampleDirectory { rtC .skip with filters := otFilters } rtSetting exPlan lxFiles 0).1 (str! "s.o.json") =
      (sampleDirectory (rtC .skip) rtSetting exPlan lxFiles 0).1 (str! "s.o.json") := by
  decide +kernel

/-- Generated values of other tables do change: all filters draw from the same generators. -/
theorem c99_generated :
    (sample { rtC .skip with filters := [(str! "s.o", [.simple (.randomInt [str! "uid"] 0 9)])] } rtSetting exPlan (fun _ => []) 0).final (str! "m", str! "o") ≠
      (sample { rtC .skip with filters := [(str! "s.o", [.simple (.randomInt [str! "uid"] 0 9)]), (str! "s.u", [.simple (.randomInt [str! "id"] 0 9)])] }
        rtSetting exPlan (fun _ => []) 0).final (str! "m", str! "o") ∧
    (sample { rtC .skip with filters := [(str! "s.o", [.simple (.randomInt [str! "uid"] 0 9)])] } rtSetting exPlan (fun _ => []) 0).err = none ∧
    (sample { rtC .skip with filters := [(str! "s.o", [.simple (.randomInt [str! "uid"] 0 9)]), (str! "s.u", [.simple (.randomInt [str! "id"] 0 9)])] }
        rtSetting exPlan (fun _ => []) 0).err = none := by
  decide +kernel

/-- The hypotheses of `c99_unplanned`: the filter is for a table that is not planned - here because its name is misspelt.  It only causes a
warning in the log, and nothing is anonymised. -/
theorem c99_misspelt : (∀ n ∈ dkeys exPlan.queries, (dget [(str! "s.usr", [.simple (.null [str! "id"])])] n).getD [] = filtersOf { remap := dxRemap } n) ∧
    rxShow (sample { remap := dxRemap, filters := [(str! "s.usr", [.simple (.null [str! "id"])])] } rtSetting exPlan (fun _ => []) 0) =
      (none, [[[(str! "id", .int 1)]], [[(str! "id", .int 7), (str! "uid", .int 1)]], []]) ∧
    rxShow (sample { remap := dxRemap } rtSetting exPlan (fun _ => []) 0) =
      (none, [[[(str! "id", .int 1)]], [[(str! "id", .int 7), (str! "uid", .int 1)]], []]) := by
  refine ⟨fun n hn => ?_, by decide +kernel, by decide +kernel⟩
  have : ∀ m ∈ dkeys exPlan.queries, m ≠ str! "s.usr" := by decide
  have h1 := this n hn
  unfold filtersOf
  simp only [dget]
  rw [if_neg fun e => h1 e.symm]

end Subsetter.Props
