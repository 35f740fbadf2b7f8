import Verif.Proofs.Repeat
import Verif.Proofs.Still
import Verif.Props.Fresh
import Verif.Props.RunDirectory
import Verif.Props.Buffer
import Verif.Props.Enforce

/-
Property C98: runs that were interrupted can be repeated.
-/
namespace Subsetter.Props
open Subsetter Spec

variable {σ : Type} {C : RunConfig} {D : Setting σ} {p : Plan} {S X : DbState} {s s' : σ}

/-- C98. If a run that skips or replaces rows present stops after any of its commits and is repeated with the same random
choices, the destination ends up as if it had not stopped; the repeated run sends the same batches and fails only if the
first one would have failed. -/
theorem c98_resume (hok : RunOK C D p) (hr : Repeatable C D p) (hX : X ∈ (sample C D p S s).hist) :
    (sample C D p X s).final = (sample C D p S s).final ∧ (sample C D p X s).err = (sample C D p S s).err ∧
    (sample C D p X s).writes = (sample C D p S s).writes := by
  obtain ⟨-, h1, h2, how, ops, h3, h4, h5⟩ := sample_parallel hok hr S X s
  refine ⟨?_, h2.symm, h1.symm⟩
  rw [h3] at hX
  obtain ⟨a, b, rfl, rfl⟩ := mem_statesOf hX
  unfold RunResult.final
  rw [h3, h4]
  obtain ⟨r1, e1⟩ := statesOf_cons how S (a ++ b)
  obtain ⟨r2, e2⟩ := statesOf_cons how (latest how S b) (a ++ b)
  rw [e1, e2]
  exact latest_again h5

/-- C98. Repeating a run changes nothing. -/
theorem c98_again (hok : RunOK C D p) (hr : Repeatable C D p) :
    (sample C D p (sample C D p S s).final s).final = (sample C D p S s).final ∧
    (sample C D p (sample C D p S s).final s).err = (sample C D p S s).err := by
  have hm : (sample C D p S s).final ∈ (sample C D p S s).hist := by
    obtain ⟨-, -, -, how, ops, h3, -⟩ := sample_parallel hok hr S S s
    unfold RunResult.final
    obtain ⟨rest, e⟩ := statesOf_cons how S ops
    rw [h3, e]
    exact List.mem_cons_self
  obtain ⟨h1, h2, -⟩ := c98_resume hok hr hm
  exact ⟨h1, h2⟩

/-- C98. A run whose filters are settled does not depend on random choices at all. -/
theorem c98_settled (hf : ∀ n, ∀ f ∈ filtersOf C n, FilterCfg.Settled f) : sample C D p S s = sample C D p S s' :=
  sample_still hf S s s'

/-- C98. With such filters a run can be repeated with other random choices, any number of times: after `Xs` were reached one
from the other, each by a run stopped at some commit, a complete run gives what one run would have given. -/
theorem c98_many (hok : RunOK C D p) (hr : Repeatable C D p) (hf : ∀ n, ∀ f ∈ filtersOf C n, FilterCfg.Settled f)
    (hX : Relation.ReflTransGen (fun A B => ∃ t, B ∈ (sample C D p A t).hist) S X) :
    (sample C D p X s').final = (sample C D p S s).final ∧ (sample C D p X s').err = (sample C D p S s).err := by
  rw [c98_settled (s := s') (s' := s) hf]
  induction hX with
  | refl => exact ⟨rfl, rfl⟩
  | tail _ hB ih =>
    obtain ⟨t, hB⟩ := hB
    rw [c98_settled (s := t) (s' := s) hf] at hB
    obtain ⟨h1, h2, -⟩ := c98_resume hok hr hB
    exact ⟨h1.trans ih.1, h2.trans ih.2⟩

/-- The run that commits after every row can be repeated, too. -/
theorem repeatable_plain (hr : Repeatable C D p) : Repeatable C { D with buffer := 0 } p := by
  refine ⟨hr.strategy, hr.merge, hr.truncate, hr.create, hr.dialect, fun n k kd t td hc => ?_, fun h1 h2 n k kd t td hc => ?_⟩
  · rw [plain_copied] at hc
    exact hr.key n k kd t td hc
  · rw [plain_copied] at hc
    exact hr.generated h1 h2 n k kd t td hc

/-- C98. With the strategy `skip` a repeated run goes only through contents that the uninterrupted run, committing after each
row, goes through. -/
theorem c98_states (hok : RunOK C D p) (hr : Repeatable C D p) (hs : C.strategy = .skip) (hX : X ∈ (sample C D p S s).hist) :
    ∀ Y ∈ (sample C { D with buffer := 0 } p X s).hist, Y ∈ (sample C { D with buffer := 0 } p S s).hist := by
  intro Y hY
  obtain ⟨-, -, -, how, ops, h3, h4, h5⟩ := sample_parallel (plain_ok hok) (repeatable_plain hr) S X s
  have hX' := c84_states X hX
  rw [h3] at hX' ⊢
  rw [h4] at hY
  exact statesOf_skip (fun o ho => ⟨(h5 o ho).1, (h5 o ho).2.1, (h5 o ho).2.2.1, fun _ => (h5 o ho).2.2.2 hs⟩) hX' hY

/-- C98. So a destination that checks constraints of its own and would accept all rows of an uninterrupted run accepts all of
the repeated one, and ends up the same. -/
theorem c98_enforced (hok : RunOK C D p) (hr : Repeatable C D p) (hs : C.strategy = .skip) {ok : DbState → Bool}
    (h : ∀ Y ∈ (sample C { D with buffer := 0 } p S s).hist, ok Y = true) (hX : X ∈ (sampleChecked ok C D p S s).hist) :
    (sampleChecked ok C D p X s).final = (sampleChecked ok C D p S s).final ∧
    (sampleChecked ok C D p X s).err = (sampleChecked ok C D p S s).err := by
  have h1 := c83_accepts h
  rw [h1] at hX ⊢
  rw [c83_accepts fun Y hY => h Y (c98_states hok hr hs hX Y hY)]
  obtain ⟨g1, g2, -⟩ := c98_resume hok hr hX
  exact ⟨g1, g2⟩

/-- C98. Runs into a directory can always be repeated: a run without an error leaves the same files whatever was in the
files of planned tables before. -/
theorem c98_directory {F G : Files} (hFG : ∀ f, (∀ n ∈ dkeys p.queries, f ≠ fileOf n) → F f = G f) :
    (sampleDirectory C D p F s).2 = (sampleDirectory C D p G s).2 ∧
    ((sampleDirectory C D p F s).2 = none → (sampleDirectory C D p F s).1 = (sampleDirectory C D p G s).1) :=
  directory_agree F G s hFG

/-- C98. In particular after a run that was stopped by an error, with any random choices: once a run succeeds, the files are
those it would have left at first. -/
theorem c98_directory_again {F : Files} (hok : ReadOK C D p) (h : (sampleDirectory C D p F s').2 = none) :
    sampleDirectory C D p (sampleDirectory C D p F s).1 s' = sampleDirectory C D p F s' := by
  have hFG : ∀ f, (∀ n ∈ dkeys p.queries, f ≠ fileOf n) → F f = (sampleDirectory C D p F s).1 f := by
    intro f hf
    cases he : sampleDirectory C D p F s with
    | mk F' err =>
      cases err with
      | none =>
        obtain ⟨T, mult, compact, Smp, ids, -, -, h1⟩ := c66_files hok he
        exact (h1 f hf).symm
      | some e =>
        rcases c66_failed hok he with rfl | ⟨T, mult, compact, Smp, ids, done, todo, -, h1⟩
        · rfl
        · refine (h1.others f (fun n hn => hf n ?_) fun n hn => hf n ?_).symm
          · rw [h1.names]; exact List.mem_append_left _ hn
          · rw [h1.names]; exact List.mem_append_right _ (List.mem_of_mem_head? hn)
  obtain ⟨h1, h2⟩ := c98_directory (C := C) (D := D) (s := s') hFG
  exact Prod.ext (h2 h).symm h1.symm

/-! ### Examples -/

/-- Every row is a batch of its own. -/
def rtSetting : Setting Int := { rxSetting rxDst with buffer := 0 }

def rtC (strategy : Strategy) : RunConfig := { remap := dxRemap, strategy := strategy, mult := { multiplier := 2 }, filters := [(str! "s.o", [.simple (.constant [str! "uid"] [.int 2])])] }

/-- Contents before: the key of the first order is there, with another user. -/
def rtBefore : DbState := fun k =>
  if k = (str! "m", str! "u") then [[(str! "id", .int 5)]]
  else if k = (str! "m", str! "o") then [[(str! "id", .int 14), (str! "uid", .int 5)]]
  else []

theorem rt_ok (strategy : Strategy) : RunOK (rtC strategy) rtSetting exPlan := by
  obtain ⟨h1, h2, h3, h4, h5, h6, h7⟩ := rx_ok (C := rtC strategy) rfl
  exact ⟨h1, h2, h3, h4, h5, h6, h7⟩

theorem rt_copied {C : RunConfig} (hC : C.remap = dxRemap) {n : Str} {k kd : Key} {t td : TableMeta}
    (hc : Copied C rtSetting exPlan rtSetting.dstDb n k kd t td) :
    (n = str! "s.o" ∧ t = rxO (str! "s") ∧ td = rxO (str! "m")) ∨ (n = str! "s.u" ∧ t = rxU (str! "s") ∧ td = rxU (str! "m")) := by
  have hs : (n, t) ∈ [(str! "s.o", rxO (str! "s")), (str! "s.u", rxU (str! "s"))] := hc.source
  have hd := hc.dest
  rw [hC] at hd
  have hsch := hc.schema
  simp only [List.mem_cons, Prod.mk.injEq, List.not_mem_nil, or_false] at hs
  have hdb : ∀ e ∈ rtSetting.dstDb, (e.1 = str! "m.o" → e.2 = rxO (str! "m")) ∧ (e.1 = str! "m.u" → e.2 = rxU (str! "m")) := by decide
  rcases hs with ⟨rfl, rfl⟩ | ⟨rfl, rfl⟩
  · have : kd = (str! "m", str! "o") := destOf_unique hd ⟨str! "s", str! "o", by decide, by decide⟩
    subst this
    exact .inl ⟨rfl, rfl, (hdb _ hsch).1 rfl⟩
  · have : kd = (str! "m", str! "u") := destOf_unique hd ⟨str! "s", str! "u", by decide, by decide⟩
    subst this
    exact .inr ⟨rfl, rfl, (hdb _ hsch).2 rfl⟩

/-- The hypotheses are met by runs that multiply and filter, with either strategy. -/
theorem rt_repeatable {strategy : Strategy} (hs : strategy ≠ .error) : Repeatable (rtC strategy) rtSetting exPlan := by
  have hcomp : ∀ kd td, (target rtSetting kd td).computed = [] := by
    intro kd td; unfold target; split <;> rfl
  refine ⟨hs, rfl, rfl, rfl, by decide, fun n k kd t td hc => ?_, fun _ _ n k kd t td _ c _ => by rw [hcomp]; exact List.not_mem_nil⟩
  rw [hcomp]
  rcases rt_copied rfl hc with ⟨rfl, rfl, rfl⟩ | ⟨rfl, rfl, rfl⟩
  · exact ⟨by decide, fun c h => ⟨by revert c; decide, by simp [filtersOf, rtC, dget, omitted], List.not_mem_nil⟩⟩
  · exact ⟨by decide, fun c h => ⟨by revert c; decide, by simp [filtersOf, rtC, dget, omitted], List.not_mem_nil⟩⟩

theorem rt_settled (strategy : Strategy) : ∀ n, ∀ f ∈ filtersOf (rtC strategy) n, FilterCfg.Settled f := by
  intro n f hf
  unfold filtersOf rtC dget at hf
  split at hf
  · rename_i e
    simp only [Option.getD_some, List.mem_singleton] at hf
    subst hf
    trivial
  · simp [dget] at hf

def rtRun (strategy : Strategy) (S : DbState) : RunResult := sample (rtC strategy) rtSetting exPlan S 0

/-- Wherever the run stops, it can be repeated; the two strategies leave different contents. -/
theorem c98_example : (rtRun .skip rtBefore).hist.length = 5 ∧
    (∀ X ∈ (rtRun .skip rtBefore).hist.map fun X => rxShow (rtRun .skip X), X = rxShow (rtRun .skip rtBefore)) ∧
    (∀ X ∈ (rtRun .replace rtBefore).hist.map fun X => rxShow (rtRun .replace X), X = rxShow (rtRun .replace rtBefore)) ∧
    rxShow (rtRun .skip rtBefore) = (none, [[[(str! "id", .int 5)], [(str! "id", .int 2)], [(str! "id", .int 3)]],
      [[(str! "id", .int 14), (str! "uid", .int 5)], [(str! "id", .int 15), (str! "uid", .int 2)]], []]) ∧
    rxShow (rtRun .replace rtBefore) = (none, [[[(str! "id", .int 5)], [(str! "id", .int 2)], [(str! "id", .int 3)]],
      [[(str! "id", .int 14), (str! "uid", .int 2)], [(str! "id", .int 15), (str! "uid", .int 2)]], []]) := by
  decide +kernel

/-- A destination that checks its foreign keys and unique constraints accepts every row of this run, as `c98_enforced` asks. -/
theorem rt_checked : ((rtRun .skip rtBefore).hist.map (checkDb rxDst)) = [true, true, true, true, true] ∧
    (∀ X ∈ (rtRun .skip rtBefore).hist.map fun X => rxShow (sampleChecked (checkDb rxDst) (rtC .skip) rtSetting exPlan X 0),
      X = rxShow (rtRun .skip rtBefore)) := by
  decide +kernel

/-- Tables without a primary key get their rows again, whatever the strategy. -/
theorem c98_no_key : rxShow (sample { remap := dxRemap, strategy := .skip } { rxSetting [(str! "m.o", { rxO (str! "m") with primaryKey := [] }), (str! "m.u", rxU (str! "m"))] with buffer := 0 } exPlan
      (sample { remap := dxRemap, strategy := .skip } { rxSetting [(str! "m.o", { rxO (str! "m") with primaryKey := [] }), (str! "m.u", rxU (str! "m"))] with buffer := 0 } exPlan (fun _ => []) 0).final 0) =
    (none, [[[(str! "id", .int 1)]], [[(str! "id", .int 7), (str! "uid", .int 1)], [(str! "id", .int 7), (str! "uid", .int 1)]], []]) := by
  decide +kernel

/-- The same with files: the file of an earlier run is replaced, other files stay. -/
theorem c98_files_example : ReadOK (rtC .skip) rtSetting exPlan ∧
    (sampleDirectory (rtC .skip) rtSetting exPlan (fun f => if f = str! "s.o.json" ∨ f = str! "x" then some [[]] else none) 0).2 = none ∧
    ([str! "s.u.json", str! "s.o.json", str! "x"].map (sampleDirectory (rtC .skip) rtSetting exPlan (fun f => if f = str! "s.o.json" ∨ f = str! "x" then some [[]] else none) 0).1) =
      [some [[(str! "id", .int 2)], [(str! "id", .int 3)]], some [[(str! "id", .int 14), (str! "uid", .int 2)], [(str! "id", .int 15), (str! "uid", .int 2)]], some [[]]] := by
  refine ⟨?_, by decide +kernel, by decide +kernel⟩
  obtain ⟨h1, -, -, h4, -, h6, h7⟩ := rt_ok .skip
  exact ⟨h1, h4, h6, h7⟩

end Subsetter.Props
