import Verif.Proofs.Shell
import Verif.Props.Command

/-
Property C86: which files the commands read and write.
-/
namespace Subsetter.Props
open Subsetter Spec Proofs

variable {σ : Type} {M : Machine σ} {dump : Plan → Yaml} {a : Args} {sh : Shell} {S : DbState} {F : Files} {s s' : σ}
  {ys : List Yaml} {p : Plan}

theorem docs_log (M : Machine σ) (a : Args) (ys : List Yaml) (l : List Printed) : docs (printedLog M a ys ++ l) = docs l := by
  unfold printedLog
  cases getConfig M.lax M.codes ys with
  | error e => rfl
  | ok c =>
    dsimp only
    cases sourceEngine M c with
    | error e => rfl
    | ok x =>
      dsimp only
      split <;> rfl

theorem docs_log' (M : Machine σ) (a : Args) (ys : List Yaml) : docs (printedLog M a ys) = [] := by
  have := docs_log M a ys []
  rwa [List.append_nil] at this

/-- What `plan` does once the configuration has been read. -/
theorem plan_eq_of (ha : a.action = .plan) (hr : ConfigRead a sh ys) (hp : cmdPlan M ys = .ok p) :
    (∀ path, ToFile a path → sh.write path = .done →
      runMain M dump a sh S F s = ⟨fun q => if q = path then some (some (dump p)) else sh.files q, printedLog M a ys, none, 0⟩) ∧
    (∀ path, ToFile a path → sh.write path = .refused → runMain M dump a sh S F s = stopped sh (printedLog M a ys)) ∧
    (∀ path, ToFile a path → sh.write path = .broken →
      runMain M dump a sh S F s = ⟨fun q => if q = path then some none else sh.files q, printedLog M a ys, none, 1⟩) ∧
    (ToStdout a → runMain M dump a sh S F s = ⟨sh.files, printedLog M a ys ++ [.doc (dump p)], none, 0⟩) := by
  unfold runMain
  rw [ha]
  dsimp only
  unfold runPlan
  rw [read_of hr]
  dsimp only
  rw [hp]
  dsimp only
  cases ho : a.output with
  | none => exact ⟨fun q h => (by rw [h.1] at ho; cases ho), fun q h => (by rw [h.1] at ho; cases ho), fun q h => (by rw [h.1] at ho; cases ho), fun _ => rfl⟩
  | some path =>
    cases path with
    | nil =>
      have hno : ∀ path, ¬ ToFile a path := fun q h => by
        rw [h.1] at ho
        exact h.2 (Option.some.inj ho)
      exact ⟨fun q h => absurd h (hno q), fun q h => absurd h (hno q), fun q h => absurd h (hno q), fun _ => rfl⟩
    | cons x l =>
      have hq : ∀ path, ToFile a path → path = x :: l := fun q h => by
        rw [h.1] at ho
        exact Option.some.inj ho
      dsimp only
      refine ⟨fun q h e => ?_, fun q h e => ?_, fun q h e => ?_, fun h => absurd ⟨ho, List.cons_ne_nil _ _⟩ (h _)⟩
      · cases hq q h; rw [e]
      · cases hq q h; rw [e]
      · cases hq q h; rw [e]

/-- What `plan` does without a plan. -/
theorem plan_eq_not (ha : a.action = .plan) (hn : ¬ ∃ ys p, ConfigRead a sh ys ∧ cmdPlan M ys = .ok p) :
    ∃ l, runMain M dump a sh S F s = stopped sh l ∧ docs l = [] := by
  unfold runMain
  rw [ha]
  dsimp only
  unfold runPlan
  cases e : readConfigs sh.files (configFiles a) sh.stdin with
  | none => exact ⟨_, rfl, rfl⟩
  | some r =>
    obtain ⟨ys, d⟩ := r
    have hr := (of_read e).1
    dsimp only
    cases e' : cmdPlan M ys with
    | ok p => exact absurd ⟨ys, p, hr, e'⟩ hn
    | error x =>
      cases x with
      | config x => exact ⟨_, rfl, docs_log' _ _ _⟩
      | connection x => exact ⟨_, rfl, docs_log' _ _ _⟩
      | main x =>
        cases x with
        | noPlanner => exact ⟨_, rfl, rfl⟩
        | noSampler => exact ⟨_, rfl, docs_log' _ _ _⟩
        | plan x => exact ⟨_, rfl, docs_log' _ _ _⟩
        | planFile x => exact ⟨_, rfl, docs_log' _ _ _⟩

theorem toFile_or (a : Args) : (∃ path, ToFile a path) ∨ ToStdout a := by
  by_cases h : ∃ path, ToFile a path
  · exact .inl h
  · exact .inr (fun path hp => h ⟨path, hp⟩)

/-- C86. `plan` exits with 0 exactly if the configuration files can be read, a plan is made and, if a file is named, it
can be written. -/
theorem c86_plan_status (ha : a.action = .plan) :
    (runMain M dump a sh S F s).status = 0 ↔
      ∃ ys p, ConfigRead a sh ys ∧ cmdPlan M ys = .ok p ∧ ∀ path, ToFile a path → sh.write path = .done := by
  constructor
  · intro h
    by_cases hn : ∃ ys p, ConfigRead a sh ys ∧ cmdPlan M ys = .ok p
    · obtain ⟨ys, p, hr, hp⟩ := hn
      refine ⟨ys, p, hr, hp, fun path hpath => ?_⟩
      obtain ⟨-, h2, h3, -⟩ := plan_eq_of (dump := dump) (S := S) (F := F) (s := s) ha hr hp
      cases e : sh.write path with
      | done => rfl
      | refused => rw [h2 path hpath e] at h; cases h
      | broken => rw [h3 path hpath e] at h; cases h
    · obtain ⟨l, hl, -⟩ := plan_eq_not (dump := dump) (S := S) (F := F) (s := s) ha hn
      rw [hl] at h
      cases h
  · rintro ⟨ys, p, hr, hp, hw⟩
    obtain ⟨h1, -, -, h4⟩ := plan_eq_of (dump := dump) (S := S) (F := F) (s := s) ha hr hp
    rcases toFile_or a with ⟨path, hpath⟩ | ho
    · rw [h1 path hpath (hw path hpath)]
    · rw [h4 ho]

/-- C86. If `plan` exits with 0, the plan made of the configuration is in the file named, all other files are what they
were and no plan is printed; if no file is named it is printed and all files are what they were. -/
theorem c86_plan_done (ha : a.action = .plan) (h : (runMain M dump a sh S F s).status = 0) :
    ∃ ys p, ConfigRead a sh ys ∧ cmdPlan M ys = .ok p ∧
      ((∃ path, ToFile a path ∧ (runMain M dump a sh S F s).files path = some (some (dump p)) ∧
          (∀ q, q ≠ path → (runMain M dump a sh S F s).files q = sh.files q) ∧ docs (runMain M dump a sh S F s).stdout = []) ∨
        (ToStdout a ∧ (runMain M dump a sh S F s).files = sh.files ∧ docs (runMain M dump a sh S F s).stdout = [dump p])) := by
  obtain ⟨ys, p, hr, hp, hw⟩ := (c86_plan_status ha).1 h
  obtain ⟨h1, -, -, h4⟩ := plan_eq_of (dump := dump) (S := S) (F := F) (s := s) ha hr hp
  refine ⟨ys, p, hr, hp, ?_⟩
  rcases toFile_or a with ⟨path, hpath⟩ | ho
  · rw [h1 path hpath (hw path hpath)]
    exact .inl ⟨path, hpath, if_pos rfl, fun q hq => if_neg hq, docs_log' _ _ _⟩
  · rw [h4 ho]
    exact .inr ⟨ho, rfl, docs_log _ _ _ _⟩

/-- C86. If no plan is made, whatever the reason, `plan` exits with 1, prints none and leaves all files, also an older plan
in the file named. -/
theorem c86_no_plan (ha : a.action = .plan) (hn : ¬ ∃ ys p, ConfigRead a sh ys ∧ cmdPlan M ys = .ok p) :
    (runMain M dump a sh S F s).status = 1 ∧ (runMain M dump a sh S F s).files = sh.files ∧
      docs (runMain M dump a sh S F s).stdout = [] := by
  obtain ⟨l, hl, hd⟩ := plan_eq_not (dump := dump) (S := S) (F := F) (s := s) ha hn
  rw [hl]
  exact ⟨rfl, rfl, hd⟩

theorem ended_eq (r : Except CommandErr Outcome) :
    (ended M a sh ys r).files = sh.files ∧ docs (ended M a sh ys r).stdout = [] ∧
      (ended M a sh ys r).outcome = begun r ∧ (ended M a sh ys r).status = exitStatus r := by
  unfold ended
  cases r with
  | ok o => exact ⟨rfl, docs_log' _ _ _, rfl, rfl⟩
  | error x =>
    cases x with
    | config x => exact ⟨rfl, docs_log' _ _ _, rfl, rfl⟩
    | connection x => exact ⟨rfl, docs_log' _ _ _, rfl, rfl⟩
    | main x =>
      cases x with
      | noPlanner => exact ⟨rfl, rfl, rfl, rfl⟩
      | noSampler => exact ⟨rfl, docs_log' _ _ _, rfl, rfl⟩
      | plan x => exact ⟨rfl, docs_log' _ _ _, rfl, rfl⟩
      | planFile x => exact ⟨rfl, rfl, rfl, rfl⟩

/-- C86. `sample` and `subset` leave every file and print no plan. -/
theorem c86_leaves_files (ha : a.action ≠ .plan) :
    (runMain M dump a sh S F s).files = sh.files ∧ docs (runMain M dump a sh S F s).stdout = [] := by
  unfold runMain
  cases e : a.action with
  | plan => exact absurd e ha
  | sample =>
    dsimp only
    unfold runSample
    cases readConfigs sh.files (configFiles a) sh.stdin with
    | none => exact ⟨rfl, rfl⟩
    | some r =>
      obtain ⟨ys, d⟩ := r
      dsimp only
      cases getConfig M.lax M.codes ys with
      | error x => exact ⟨rfl, rfl⟩
      | ok c =>
        dsimp only
        cases (readPath sh.files a.plan d).1 with
        | none => exact ⟨rfl, rfl⟩
        | some y => exact ⟨(ended_eq _).1, (ended_eq _).2.1⟩
  | subset =>
    dsimp only
    unfold runSubset
    cases readConfigs sh.files (configFiles a) sh.stdin with
    | none => exact ⟨rfl, rfl⟩
    | some r => exact ⟨(ended_eq _).1, (ended_eq _).2.1⟩

/-- C86. A command that exits with something else than 0 leaves every file and prints no plan, unless writing the plan
breaks off in the middle. -/
theorem c86_failed_partial (h : (runMain M dump a sh S F s).status ≠ 0) (hw : ∀ path, ToFile a path → sh.write path ≠ .broken) :
    (runMain M dump a sh S F s).files = sh.files ∧ docs (runMain M dump a sh S F s).stdout = [] := by
  by_cases ha : a.action = .plan
  · by_cases hn : ∃ ys p, ConfigRead a sh ys ∧ cmdPlan M ys = .ok p
    · obtain ⟨ys, p, hr, hp⟩ := hn
      obtain ⟨h1, h2, -, h4⟩ := plan_eq_of (dump := dump) (S := S) (F := F) (s := s) ha hr hp
      rcases toFile_or a with ⟨path, hpath⟩ | ho
      · cases e : sh.write path with
        | done => rw [h1 path hpath e] at h; exact absurd rfl h
        | refused => rw [h2 path hpath e]; exact ⟨rfl, docs_log' _ _ _⟩
        | broken => exact absurd e (hw path hpath)
      · rw [h4 ho] at h; exact absurd rfl h
    · exact (c86_no_plan ha hn).2
  · exact c86_leaves_files ha

/-- C86. Configuration files that cannot be read: nothing is planned or sampled and the exit status is 1. -/
theorem c86_unreadable (hn : ¬ ∃ ys, ConfigRead a sh ys) :
    (runMain M dump a sh S F s).status = 1 ∧ (runMain M dump a sh S F s).outcome = none ∧
      (runMain M dump a sh S F s).files = sh.files := by
  have : readConfigs sh.files (configFiles a) sh.stdin = none := by
    cases e : readConfigs sh.files (configFiles a) sh.stdin with
    | none => rfl
    | some r => exact absurd ⟨r.1, (of_read (d := r.2) e).1⟩ hn
  unfold runMain
  cases a.action with
  | plan => dsimp only; unfold runPlan; rw [this]; exact ⟨rfl, rfl, rfl⟩
  | sample => dsimp only; unfold runSample; rw [this]; exact ⟨rfl, rfl, rfl⟩
  | subset => dsimp only; unfold runSubset; rw [this]; exact ⟨rfl, rfl, rfl⟩

/-- C86. `subset` does what `cmdSubset` (C73) says of the configuration files named. -/
theorem c86_subset (ha : a.action = .subset) (hr : ConfigRead a sh ys) :
    (runMain M dump a sh S F s).outcome = begun (cmdSubset M ys a.truncate a.create S F s) ∧
      (runMain M dump a sh S F s).status = exitStatus (cmdSubset M ys a.truncate a.create S F s) := by
  unfold runMain
  rw [ha]
  dsimp only
  unfold runSubset
  rw [read_of hr]
  exact ⟨(ended_eq _).2.2.1, (ended_eq _).2.2.2⟩

theorem sample_no_config {e : LoadErr} {y : Yaml} {truncate create : Bool} (h : getConfig M.lax M.codes ys = .error e) :
    cmdSample M ys y truncate create S F s = .error (.config e) := by
  unfold cmdSample
  rw [h]

/-- C86. `sample` does what `cmdSample` (C73) says of the configuration files and the plan file named. -/
theorem c86_sample {y : Yaml} (ha : a.action = .sample) (hr : ConfigRead a sh ys) (hy : PlanRead a sh y) :
    (runMain M dump a sh S F s).outcome = begun (cmdSample M ys y a.truncate a.create S F s) ∧
      (runMain M dump a sh S F s).status = exitStatus (cmdSample M ys y a.truncate a.create S F s) := by
  have hread : (readPath sh.files a.plan (left sh (decide (str! "-" ∈ configFiles a)))).1 = some y := by
    unfold readPath
    cases hy with
    | file h1 h2 => rw [if_neg h1, h2]
    | stdin h1 h2 h3 h4 =>
      cases configPaths_unique h2
      rw [if_pos h1, decide_eq_false h3]
      exact h4
    | empty h1 h2 h3 =>
      cases configPaths_unique h2
      rw [if_pos h1, decide_eq_true h3]
      rfl
  unfold runMain
  rw [ha]
  dsimp only
  unfold runSample
  rw [read_of hr]
  dsimp only
  cases e : getConfig M.lax M.codes ys with
  | error x => rw [sample_no_config e]; exact ⟨rfl, rfl⟩
  | ok c =>
    dsimp only
    rw [hread]
    exact ⟨(ended_eq _).2.2.1, (ended_eq _).2.2.2⟩

/-- C86. A plan file that cannot be read: nothing is sampled and the exit status is 1. -/
theorem c86_no_plan_file (ha : a.action = .sample) (hn : ¬ ∃ y, PlanRead a sh y) :
    (runMain M dump a sh S F s).status = 1 ∧ (runMain M dump a sh S F s).outcome = none := by
  by_cases hr : ∃ ys, ConfigRead a sh ys
  · obtain ⟨ys, hr⟩ := hr
    have hread : (readPath sh.files a.plan (left sh (decide (str! "-" ∈ configFiles a)))).1 = none := by
      unfold readPath
      by_cases h1 : a.plan = str! "-"
      · rw [if_pos h1]
        by_cases h3 : str! "-" ∈ configFiles a
        · exact absurd ⟨_, .empty h1 configPaths h3⟩ hn
        · rw [decide_eq_false h3]
          show sh.stdin = none
          cases e : sh.stdin with
          | none => rfl
          | some y => exact absurd ⟨_, .stdin h1 configPaths h3 e⟩ hn
      · rw [if_neg h1]
        cases e : sh.files a.plan with
        | none => rfl
        | some d =>
          cases d with
          | none => rfl
          | some y => exact absurd ⟨_, .file h1 e⟩ hn
    unfold runMain
    rw [ha]
    dsimp only
    unfold runSample
    rw [read_of hr]
    dsimp only
    cases e : getConfig M.lax M.codes ys with
    | error x => exact ⟨rfl, rfl⟩
    | ok c =>
      dsimp only
      rw [hread]
      exact ⟨rfl, rfl⟩
  · exact ⟨(c86_unreadable hr).1, (c86_unreadable hr).2.1⟩

/-- C86. Without `-c` the file `subsetter.yaml` is read. -/
theorem c86_default_config : runMain M dump { a with config := [] } sh S F s =
    runMain M dump { a with config := [str! "subsetter.yaml"] } sh S F s := rfl

/-! ### Standard input -/

theorem null_plan {code : Rat → Nat} : ∃ e, loadPlan code (.leaf .null) = .error e := ⟨_, rfl⟩

theorem null_config {L : Lax} {K : Codes} : ∃ e, readConfig L K (.leaf .null) = .error e := ⟨_, rfl⟩

/-- C86. With configuration and plan both from standard input nothing is sampled and the exit status is 1. -/
theorem c86_stdin_both {paths : List Str} (ha : a.action = .sample) (hc : ConfigPaths a paths) (hin : str! "-" ∈ paths)
    (hp : a.plan = str! "-") :
    (runMain M dump a sh S F s).status = 1 ∧ (runMain M dump a sh S F s).outcome = none := by
  by_cases hr : ∃ ys, ConfigRead a sh ys
  · obtain ⟨ys, hr⟩ := hr
    obtain ⟨h1, h2⟩ := c86_sample (M := M) (dump := dump) (S := S) (F := F) (s := s) ha hr (.empty hp hc hin)
    rw [h1, h2]
    unfold cmdSample
    cases getConfig M.lax M.codes ys with
    | error e => exact ⟨rfl, rfl⟩
    | ok c =>
      obtain ⟨e, he⟩ := null_plan (code := M.codes.float)
      dsimp only
      rw [he]
      exact ⟨rfl, rfl⟩
  · exact ⟨(c86_unreadable hr).1, (c86_unreadable hr).2.1⟩

theorem opened_append {used : Bool} {l r : List Str} {ys : List Yaml} (h : Opened sh used (l ++ r) ys) :
    ∃ u v, ys = u ++ v ∧ Opened sh (usedAfter used l) r v := by
  induction l generalizing used ys with
  | nil => exact ⟨[], ys, rfl, by simpa [usedAfter] using h⟩
  | cons x l ih =>
    cases h with
    | file h1 h2 h3 =>
      obtain ⟨u, v, rfl, h⟩ := ih h3
      refine ⟨_ :: u, v, rfl, ?_⟩
      have : usedAfter used (x :: l) = usedAfter used l := by simp [usedAfter, List.mem_cons, Ne.symm h1]
      rwa [this]
    | stdin h1 h3 =>
      obtain ⟨u, v, rfl, h⟩ := ih h3
      exact ⟨_ :: u, v, rfl, by simpa [usedAfter] using h⟩
    | empty h3 =>
      obtain ⟨u, v, rfl, h⟩ := ih h3
      exact ⟨_ :: u, v, rfl, by simpa [usedAfter] using h⟩

theorem opened_agree {sh sh' : Shell} {l : List Str} {ys ys' : List Yaml} (h : Opened sh true l ys) (h' : Opened sh' true l ys')
    (he : ∀ q ∈ l, q ≠ str! "-" → sh'.files q = sh.files q) : ys' = ys := by
  induction l generalizing ys ys' with
  | nil => cases h; cases h'; rfl
  | cons x l ih =>
    have he' : ∀ q ∈ l, q ≠ str! "-" → sh'.files q = sh.files q := fun q hq => he q (List.mem_cons_of_mem _ hq)
    cases h with
    | file h1 h2 h3 =>
      cases h' with
      | file _ h2' h3' =>
        rw [ih h3 h3' he']
        rw [he x List.mem_cons_self h1, h2] at h2'
        cases h2'
        rfl
      | empty h3' => exact absurd rfl h1
    | empty h3 =>
      cases h' with
      | file h1 _ _ => exact absurd rfl h1
      | empty h3' => rw [ih h3 h3' he']

/-- The second time, standard input replaces everything before. -/
theorem second_stdin {l r : List Str} (hl : str! "-" ∈ l) (hc : a.config = l ++ str! "-" :: r) (hr : ConfigRead a sh ys) :
    ∃ v, Opened sh true r v ∧ mergeFiles ys = v.foldl dictMerge (.leaf .null) := by
  obtain ⟨paths, h1, h2⟩ := hr
  have : paths = l ++ str! "-" :: r := by
    rw [configPaths_unique h1, ← hc]
    unfold configFiles
    rw [if_neg]
    rw [hc]
    simp
  subst this
  obtain ⟨u, v, rfl, hv⟩ := opened_append h2
  rw [show usedAfter false l = true by simpa [usedAfter] using hl] at hv
  cases hv with
  | file h _ _ => exact absurd rfl h
  | empty hv =>
    refine ⟨_, hv, ?_⟩
    unfold mergeFiles
    rw [List.foldl_append]
    rfl

theorem getConfig_merge {L : Lax} {K : Codes} {ys' : List Yaml} (h : mergeFiles ys' = mergeFiles ys) :
    getConfig L K ys' = getConfig L K ys := by
  unfold getConfig
  rw [h]

theorem cmd_merge {ys' : List Yaml} (h : mergeFiles ys' = mergeFiles ys) :
    cmdPlan M ys' = cmdPlan M ys ∧
    (∀ truncate create, cmdSubset M ys' truncate create S F s = cmdSubset M ys truncate create S F s) ∧
    ∀ y truncate create, cmdSample M ys' y truncate create S F s = cmdSample M ys y truncate create S F s := by
  have := getConfig_merge (L := M.lax) (K := M.codes) h
  refine ⟨?_, fun truncate create => ?_, fun y truncate create => ?_⟩
  · unfold cmdPlan; rw [this]
  · unfold cmdSubset; rw [this]
  · unfold cmdSample; rw [this]

/-- C86. If `-c -` is given twice, what standard input holds and all files named before the second time have no effect on
the run: two runs with the same files named after it do the same, with no message about the difference. -/
theorem c86_stdin_twice {sh' : Shell} {ys' : List Yaml} {l r : List Str} (hl : str! "-" ∈ l) (hc : a.config = l ++ str! "-" :: r)
    (ha : a.action = .subset) (hr : ConfigRead a sh ys) (hr' : ConfigRead a sh' ys')
    (he : ∀ q ∈ r, q ≠ str! "-" → sh'.files q = sh.files q) :
    (runMain M dump a sh' S F s).outcome = (runMain M dump a sh S F s).outcome ∧
      (runMain M dump a sh' S F s).status = (runMain M dump a sh S F s).status := by
  obtain ⟨v, hv, h⟩ := second_stdin hl hc hr
  obtain ⟨v', hv', h'⟩ := second_stdin hl hc hr'
  rw [opened_agree hv hv' he, ← h] at h'
  obtain ⟨h1, h2⟩ := c86_subset (M := M) (dump := dump) (S := S) (F := F) (s := s) ha hr
  obtain ⟨h1', h2'⟩ := c86_subset (M := M) (dump := dump) (S := S) (F := F) (s := s) ha hr'
  rw [h1, h2, h1', h2', (cmd_merge h').2.1]
  exact ⟨rfl, rfl⟩

/-- C86. If standard input is the last of the configuration files and was named before, every command exits with 1. -/
theorem c86_stdin_last {l : List Str} (hl : str! "-" ∈ l) (hc : a.config = l ++ [str! "-"]) :
    (runMain M dump a sh S F s).status = 1 ∧ (runMain M dump a sh S F s).outcome = none := by
  by_cases hr : ∃ ys, ConfigRead a sh ys
  · obtain ⟨ys, hr⟩ := hr
    obtain ⟨v, hv, h⟩ := second_stdin hl hc hr
    cases hv
    obtain ⟨e, he⟩ := null_config (L := M.lax) (K := M.codes)
    have hg : getConfig M.lax M.codes ys = .error e := by
      unfold getConfig
      rw [h]
      exact he
    have hread := read_of hr
    unfold runMain
    cases a.action with
    | plan =>
      dsimp only
      unfold runPlan cmdPlan
      rw [hread]
      dsimp only
      rw [hg]
      exact ⟨rfl, rfl⟩
    | sample =>
      dsimp only
      unfold runSample
      rw [hread]
      dsimp only
      rw [hg]
      exact ⟨rfl, rfl⟩
    | subset =>
      dsimp only
      unfold runSubset cmdSubset
      rw [hread]
      dsimp only
      rw [hg]
      exact ⟨rfl, rfl⟩
  · exact ⟨(c86_unreadable hr).1, (c86_unreadable hr).2.1⟩

/-! ### Two commands -/

theorem opened_files {sh' : Shell} {used : Bool} {l : List Str} (h : Opened sh used l ys) (hs : sh'.stdin = sh.stdin)
    (he : ∀ q ∈ l, q ≠ str! "-" → sh'.files q = sh.files q) : Opened sh' used l ys := by
  induction h with
  | nil => exact .nil
  | file h1 h2 _ ih =>
    exact .file h1 ((he _ List.mem_cons_self h1).trans h2) (ih (fun q hq => he q (List.mem_cons_of_mem _ hq)))
  | stdin h1 _ ih => exact .stdin (hs.trans h1) (ih (fun q hq => he q (List.mem_cons_of_mem _ hq)))
  | empty _ ih => exact .empty (ih (fun q hq => he q (List.mem_cons_of_mem _ hq)))

/-- C86. After `plan -o f` has succeeded, `sample -p f` with the same configuration files uses the plan just made, if `f`
is a file other than these. -/
theorem c86_file_seen {a' : Args} {f : Str} (ha : a.action = .plan) (hf : ToFile a f) (hdash : f ≠ str! "-")
    (hnot : f ∉ a.config) (hdef : a.config = [] → f ≠ str! "subsetter.yaml")
    (ha' : a'.action = .sample) (hc : a'.config = a.config) (hpl : a'.plan = f)
    (h : (runMain M dump a sh S F s).status = 0) :
    ∃ ys p, ConfigRead a sh ys ∧ cmdPlan M ys = .ok p ∧
      (runMain M dump a' { sh with files := (runMain M dump a sh S F s).files } S F s').outcome =
        begun (cmdSample M ys (dump p) a'.truncate a'.create S F s') ∧
      (runMain M dump a' { sh with files := (runMain M dump a sh S F s).files } S F s').status =
        exitStatus (cmdSample M ys (dump p) a'.truncate a'.create S F s') := by
  obtain ⟨ys, p, hr, hp, h'⟩ := c86_plan_done ha h
  rcases h' with ⟨path, h1, h2, h3, -⟩ | ⟨h1, -⟩
  · have : path = f := by
      have := h1.1
      rw [hf.1] at this
      exact (Option.some.inj this).symm
    subst this
    refine ⟨ys, p, hr, hp, c86_sample ha' ?_ (.file (by rw [hpl]; exact hdash) (by rw [hpl]; exact h2))⟩
    obtain ⟨paths, h4, h5⟩ := hr
    have hp2 : ConfigPaths a' paths ∧ path ∉ paths := by
      cases h4 with
      | default h4 => exact ⟨.default (hc.trans h4), fun hm => hdef h4 (List.mem_singleton.1 hm)⟩
      | given h4 => exact ⟨hc ▸ .given (by rw [hc]; exact h4), hnot⟩
    refine ⟨paths, hp2.1, opened_files h5 rfl (fun q hq _ => h3 q ?_)⟩
    rintro rfl
    exact hp2.2 hq
  · exact absurd hf (h1 f)

/-- C86. After `plan` has printed a plan without logged statements, `sample -p -` uses it when it is piped to it, if the
configuration is in files. -/
theorem c86_pipe_seen {a' : Args} {y : Yaml} {stdin : Doc} (ha : a.action = .plan)
    (hnot : str! "-" ∉ a.config) (ha' : a'.action = .sample) (hc : a'.config = a.config) (hpl : a'.plan = str! "-")
    (h : (runMain M dump a sh S F s).status = 0) (ho : (runMain M dump a sh S F s).stdout = [.doc y]) (hs : stdin = some y) :
    ∃ ys p, ConfigRead a sh ys ∧ cmdPlan M ys = .ok p ∧ y = dump p ∧
      (runMain M dump a' { sh with stdin := stdin } S F s').outcome = begun (cmdSample M ys (dump p) a'.truncate a'.create S F s') ∧
      (runMain M dump a' { sh with stdin := stdin } S F s').status =
        exitStatus (cmdSample M ys (dump p) a'.truncate a'.create S F s') := by
  obtain ⟨ys, p, hr, hp, h'⟩ := c86_plan_done ha h
  rcases h' with ⟨path, h1, h2, h3, h4⟩ | ⟨h1, -, h2⟩
  · rw [ho] at h4
    cases h4
  · rw [ho] at h2
    obtain rfl : y = dump p := List.head_eq_of_cons_eq h2
    obtain ⟨paths, h4, h5⟩ := hr
    have hp2 : ConfigPaths a' paths ∧ str! "-" ∉ paths := by
      cases h4 with
      | default h4 => exact ⟨.default (hc.trans h4), by decide⟩
      | given h4 => exact ⟨hc ▸ .given (by rw [hc]; exact h4), hnot⟩
    have h6 : ∀ {used : Bool} {l : List Str} {ys : List Yaml}, str! "-" ∉ l → Opened sh used l ys →
        Opened { sh with stdin := stdin } used l ys := by
      intro used l ys hm ho
      induction ho with
      | nil => exact .nil
      | file a1 a2 _ ih => exact .file a1 a2 (ih (fun h => hm (List.mem_cons_of_mem _ h)))
      | stdin _ _ _ => exact absurd List.mem_cons_self hm
      | empty _ _ => exact absurd List.mem_cons_self hm
    exact ⟨ys, p, ⟨paths, h4, h5⟩, hp, rfl, c86_sample ha' ⟨paths, hp2.1, h6 hp2.2 h5⟩ (.stdin hpl hp2.1 hp2.2 hs)⟩

/-- C86. With `-vvv` the statements are printed where the plan is: what is printed is not the plan alone. -/
theorem c86_verbose (ha : a.action = .plan) (hv : 2 < a.verbose) (h : (runMain M dump a sh S F s).status = 0) :
    .log ∈ (runMain M dump a sh S F s).stdout := by
  obtain ⟨ys, p, hr, hp, hw⟩ := (c86_plan_status ha).1 h
  have hlog : printedLog M a ys = [.log] := by
    unfold cmdPlan at hp
    unfold printedLog
    cases e : getConfig M.lax M.codes ys with
    | error x => rw [e] at hp; cases hp
    | ok c =>
      rw [e] at hp
      dsimp only at hp ⊢
      cases e' : c.planner with
      | none => rw [e'] at hp; cases hp
      | some P =>
        rw [e'] at hp
        dsimp only at hp
        cases e2 : sourceEngine M c with
        | error x => rw [e2] at hp; cases hp
        | ok src => exact if_pos hv
  obtain ⟨h1, -, -, h4⟩ := plan_eq_of (dump := dump) (S := S) (F := F) (s := s) ha hr hp
  rcases toFile_or a with ⟨path, hpath⟩ | ho
  · rw [h1 path hpath (hw path hpath), hlog]
    exact List.mem_cons_self
  · rw [h4 ho, hlog]
    exact List.mem_cons_self

/-- C86. Without `-vvv` nothing is printed but plans. -/
theorem c86_quiet (hv : a.verbose ≤ 2) : .log ∉ (runMain M dump a sh S F s).stdout := by
  have hlog : ∀ ys, printedLog M a ys = [] := by
    intro ys
    unfold printedLog
    cases getConfig M.lax M.codes ys with
    | error x => rfl
    | ok c =>
      dsimp only
      cases sourceEngine M c with
      | error x => rfl
      | ok src => exact if_neg (by omega)
  unfold runMain runPlan runSample runSubset ended
  simp only [hlog]
  repeat' split
  all_goals simp [stopped]

/-- C86. Under the conditions of C73 the commands `plan -o f` and `sample -p f --create` leave the same in the destination
as `subset --create` with the same configuration files. -/
theorem c86_two_commands {config : List Str} {f : Str} {c : Config} {P : PlannerConfig} {X : SamplerConfig} {src dst : EngineArgs}
    {db : DbConfig} {remap : List (Str × Str)} {strategy : Strategy} {truncate : Bool}
    (hconf : ConfigRead { action := .plan, config := config } sh ys) (hf0 : f ≠ []) (hdash : f ≠ str! "-") (hnot : f ∉ config)
    (hdef : config = [] → f ≠ str! "subsetter.yaml") (hw : sh.write f = .done) (hdump : Dumps M.codes.float dump)
    (hu : Understood M ys c src) (hP : c.planner = some P) (hp : plan fnmatch (M.schema src) P = .ok p)
    (htg : [] ∉ dkeys P.targets) (hdep : P.includeDependencies = true) (hign : P.ignoreFks = [])
    (hcirc : ∀ k, Named P.passthrough k → ¬ Relation.TransGen (DbRef (M.schema src)) k k)
    (hX : c.sampler = some X) (hrows : KeepsRows X) (hout : X.output = .database db remap strategy false)
    (hdst : databaseEngine M.int M.env (some (str! "SUBSET_DESTINATION_")) db = .ok dst)
    (hD : SourceDb (M.setting src (some dst))) (hd : DestinationDb (M.setting src (some dst)))
    (hdia : (M.setting src (some dst)).dialect ≠ .generic ∨ strategy = .error) (hsrc : SourceOK (M.setting src (some dst)))
    (hfree : DestinationFree { remap := renamed M.sub remap } (M.setting src (some dst)) p S) :
    ∃ A A' B R R',
      runMain M dump { action := .plan, config := config, output := some f } sh S F s = A ∧ A.status = 0 ∧
      runMain M dump { action := .sample, config := config, plan := f, truncate := truncate, create := true } { sh with files := A.files } S F s = A' ∧
      runMain M dump { action := .subset, config := config, truncate := truncate, create := true } sh S F s' = B ∧
      A'.status = 0 ∧ B.status = 0 ∧ A'.outcome = some (.database R') ∧ B.outcome = some (.database R) ∧ R'.final = R.final := by
  have hcp : cmdPlan M ys = .ok p := by
    unfold cmdPlan sourceEngine
    rw [c71_config.2 hu.config]
    dsimp only
    rw [hP]
    dsimp only
    rw [hu.source]
    dsimp only
    rw [hp]
  have hconf' : ∀ a : Args, a.config = config → ConfigRead a sh ys := by
    intro a ha
    obtain ⟨paths, h1, h2⟩ := hconf
    refine ⟨paths, ?_, h2⟩
    cases h1 with
    | default h => exact .default (ha.trans h)
    | given h => exact ha ▸ .given (by rw [ha]; exact h)
  have hst : (runMain M dump { action := .plan, config := config, output := some f } sh S F s).status = 0 := by
    refine (c86_plan_status rfl).2 ⟨ys, p, hconf' _ rfl, hcp, fun path hpath => ?_⟩
    cases hpath.1
    exact hw
  obtain ⟨ys', p', hr', hcp', h1, h2⟩ := c86_file_seen (s' := s) (M := M) (dump := dump)
    (a := { action := .plan, config := config, output := some f })
    (a' := { action := .sample, config := config, plan := f, truncate := truncate, create := true }) rfl ⟨rfl, hf0⟩ hdash hnot hdef
    rfl rfl rfl hst
  have hy : ys' = ys := by
    obtain ⟨l, b1, b2⟩ := hr'
    obtain ⟨l', b3, b4⟩ := hconf' { action := .plan, config := config, output := some f } rfl
    cases configPaths_unique b1
    cases configPaths_unique b3
    exact opened_unique b4 b2
  subst hy
  rw [hcp] at hcp'
  cases hcp'
  have hfile : DumpsPlan M.codes.float p (dump p) := by
    obtain ⟨y, hy⟩ := (c71_plan (K := M.codes) (c71_config.2 hu.config) hP (db := (M.setting src (some dst)).srcDb) hD.ok htg
      (by rw [M.setting_schema]; exact hp)).1
    exact hdump p y hy
  obtain ⟨R, R', e1, e2, e3, e4, e5⟩ := c73_two_commands (F := F) (s := s') (s' := s) (truncate := truncate) hu hP hcp hfile htg hdep
    hign hcirc hX hrows hout hdst hD hd hdia hsrc hfree
  obtain ⟨g1, g2⟩ := c86_subset (M := M) (dump := dump) (S := S) (F := F) (s := s')
    (a := { action := .subset, config := config, truncate := truncate, create := true }) rfl (hconf' _ rfl)
  refine ⟨_, _, _, R, R', rfl, hst, rfl, rfl, h2.trans e4, g2.trans e3, h1.trans ?_, g1.trans ?_, e5⟩
  · dsimp only
    rw [e2]
    rfl
  · dsimp only
    rw [e1]
    rfl
/-! ### Examples -/

/-- Some way to write plans. -/
noncomputable def shDump (code : Rat → Nat) (p : Plan) : Yaml :=
  open Classical in if h : ∃ y, DumpsPlan code p y then h.choose else .leaf .null

theorem sh_dumps (code : Rat → Nat) : Dumps code (shDump code) := by
  intro p y h
  unfold shDump
  rw [dif_pos ⟨y, h⟩]
  exact Exists.choose_spec (⟨y, h⟩ : ∃ y, DumpsPlan code p y)

/-- A plan without tables, left by somebody. -/
def shOld : Yaml := .map [(str! "queries", .map [])]

/-- Two configuration files and an old plan. -/
def shStart (w : Write) : Shell where
  files := fun q =>
    if q = str! "planner.yaml" then some (some zxPlanner)
    else if q = str! "database.yaml" then some (some zxDatabase)
    else if q = str! "plan.yaml" then some (some shOld)
    else none
  stdin := atEnd
  write := fun _ => w

def shConfig : List Str := [str! "planner.yaml", str! "database.yaml"]

theorem sh_read {a : Args} (w : Write) (h : a.config = shConfig) : ConfigRead a (shStart w) [zxPlanner, zxDatabase] :=
  ⟨shConfig, h ▸ .given (by rw [h]; decide), .file (by decide) rfl (.file (by decide) rfl .nil)⟩

theorem zx_cmdPlan (L : Lax) (K : Codes) : ∃ p, cmdPlan (zxMachine L K) [zxPlanner, zxDatabase] = .ok p ∧
    dkeys p.queries = [str! "s.u", str! "s.o"] := by
  obtain ⟨src, dst, hu, -, -⟩ := zx_understood L K
  obtain ⟨p, hp, hn⟩ := zx_plan
  refine ⟨p, ?_, hn⟩
  unfold cmdPlan sourceEngine
  rw [c71_config.2 hu.config]
  dsimp only
  rw [show (zxConfig zxOut).planner = some axCfg from rfl]
  dsimp only
  rw [hu.source]
  dsimp only
  rw [show plan fnmatch ((zxMachine L K).schema src) axCfg = .ok p from hp]

/-- C86 on the example: the plan file is replaced and the second command leaves what `subset` leaves. -/
theorem sh_two (L : Lax) (K : Codes) (F : Files) (s : Int) : ∃ A A' B R R',
      runMain (zxMachine L K) (shDump K.float) { action := .plan, config := shConfig, output := some (str! "plan.yaml") } (shStart .done) (fun _ => []) F s = A ∧ A.status = 0 ∧
      runMain (zxMachine L K) (shDump K.float) { action := .sample, config := shConfig, create := true } { shStart .done with files := A.files } (fun _ => []) F s = A' ∧
      runMain (zxMachine L K) (shDump K.float) { action := .subset, config := shConfig, create := true } (shStart .done) (fun _ => []) F s = B ∧
      A'.status = 0 ∧ B.status = 0 ∧ A'.outcome = some (.database R') ∧ B.outcome = some (.database R) ∧ R'.final = R.final := by
  obtain ⟨src, dst, hu, -, hd⟩ := zx_understood L K
  obtain ⟨p, hp, hn⟩ := zx_plan
  have hfree : DestinationFree { remap := renamed (zxMachine L K).sub [(str! "^s", str! "m")] } (axSetting fnmatch) p (fun _ => []) :=
    ax_free rfl hn
  exact c86_two_commands (F := F) (s := s) (s' := s) (truncate := false) (sh_read .done rfl) (by decide) (by decide) (by decide)
    (fun h => (nomatch h)) rfl (sh_dumps _) hu rfl hp (by decide) (by decide) rfl (fun _ hk => ax_nocircle (f := fnmatch) hk) rfl
    (zx_rows _) rfl hd zx_source zx_dest (.inr rfl) ax_source hfree

/-- C86, negation: `plan -o -` succeeds but writes a file of that name; `sample -p -` then finds no plan. -/
theorem c86_dash (L : Lax) (K : Codes) (F : Files) (s : Int) (dump : Plan → Yaml) : ∃ A,
    runMain (zxMachine L K) dump { action := .plan, config := shConfig, output := some (str! "-") } (shStart .done) (fun _ => []) F s = A ∧
    A.status = 0 ∧ A.stdout = [] ∧ (A.files (str! "-")).isSome = true ∧
    (runMain (zxMachine L K) dump { action := .sample, config := shConfig, plan := str! "-", create := true }
      { shStart .done with files := A.files } (fun _ => []) F s).status = 1 := by
  obtain ⟨p, hp, -⟩ := zx_cmdPlan L K
  have h := (plan_eq_of (M := zxMachine L K) (dump := dump) (S := fun _ => []) (F := F) (s := s)
    (a := { action := .plan, config := shConfig, output := some (str! "-") }) rfl (sh_read .done rfl) hp).1 (str! "-")
    ⟨rfl, by decide⟩ rfl
  refine ⟨_, rfl, ?_⟩
  rw [h]
  refine ⟨rfl, ?_, rfl, ?_⟩
  · have := c86_quiet (M := zxMachine L K) (dump := dump) (S := fun _ => []) (F := F) (s := s) (sh := shStart .done)
      (a := { action := .plan, config := shConfig, output := some (str! "-") }) (by decide)
    rw [h] at this
    dsimp only at this ⊢
    unfold printedLog at this ⊢
    revert this
    cases getConfig (zxMachine L K).lax (zxMachine L K).codes [zxPlanner, zxDatabase] with
    | error x => intro _; rfl
    | ok c =>
      dsimp only
      cases sourceEngine (zxMachine L K) c with
      | error x => intro _; rfl
      | ok src => intro _; rfl
  · obtain ⟨-, h2⟩ := c86_sample (M := zxMachine L K) (dump := dump) (S := fun _ => []) (F := F) (s := s)
      (a := { action := .sample, config := shConfig, plan := str! "-", create := true })
      (sh := ⟨fun q => if q = str! "-" then some (some (dump p)) else (shStart .done).files q, (shStart .done).stdin, (shStart .done).write⟩)
      rfl ⟨shConfig, .given (by decide), .file (by decide) rfl (.file (by decide) rfl .nil)⟩
      (.stdin (y := .leaf .null) rfl (.given (by decide)) (by decide) rfl)
    refine h2.trans ?_
    unfold cmdSample
    cases getConfig (zxMachine L K).lax (zxMachine L K).codes [zxPlanner, zxDatabase] with
    | error x => rfl
    | ok c => rfl

/-- C86, negation: with the defaults of both commands `sample` does not use the plan `plan` has just made but an old file
`plan.yaml`; both exit with 0, and nothing is copied. -/
theorem c86_defaults (L : Lax) (K : Codes) (F : Files) (s : Int) (dump : Plan → Yaml) : ∃ A p R,
    runMain (zxMachine L K) dump { action := .plan, config := shConfig } (shStart .done) (fun _ => []) F s = A ∧
    A.status = 0 ∧ docs A.stdout = [dump p] ∧ dkeys p.queries = [str! "s.u", str! "s.o"] ∧
    (runMain (zxMachine L K) dump { action := .sample, config := shConfig, create := true }
      { shStart .done with files := A.files } (fun _ => []) F s).status = 0 ∧
    (runMain (zxMachine L K) dump { action := .sample, config := shConfig, create := true }
      { shStart .done with files := A.files } (fun _ => []) F s).outcome = some (.database R) ∧ R.schema = [] := by
  obtain ⟨p, hp, hn⟩ := zx_cmdPlan L K
  have h := (plan_eq_of (M := zxMachine L K) (dump := dump) (S := fun _ => []) (F := F) (s := s)
    (a := { action := .plan, config := shConfig }) rfl (sh_read .done rfl) hp).2.2.2 (fun q hq => (nomatch hq.1))
  obtain ⟨h1, h2⟩ := c86_sample (M := zxMachine L K) (dump := dump) (S := fun _ => []) (F := F) (s := s)
      (a := { action := .sample, config := shConfig, create := true }) (sh := shStart .done)
      rfl (sh_read .done rfl) (.file (y := shOld) (by decide) rfl)
  have hS : ∃ R, cmdSample (zxMachine L K) [zxPlanner, zxDatabase] shOld false true (fun _ => []) F s = .ok (.database R) ∧
      R.err = none ∧ R.schema = [] := ⟨_, rfl, rfl, rfl⟩
  obtain ⟨R, e1, e2, e3⟩ := hS
  refine ⟨_, p, R, h, rfl, docs_log _ _ _ _, hn, h2.trans ?_, h1.trans ?_, e3⟩
  · dsimp only
    rw [e1]
    unfold exitStatus
    dsimp only
    rw [e2]
    rfl
  · dsimp only
    rw [e1]
    rfl

/-- C86, negation without the condition of `c86_failed_partial`: when writing breaks off, `plan` exits with 1 and the old
plan is lost. -/
theorem c86_broken (L : Lax) (K : Codes) (F : Files) (s : Int) (dump : Plan → Yaml) : ∃ A,
    runMain (zxMachine L K) dump { action := .plan, config := shConfig, output := some (str! "plan.yaml") } (shStart .broken) (fun _ => []) F s = A ∧
    A.status = 1 ∧ (shStart .broken).files (str! "plan.yaml") = some (some shOld) ∧ A.files (str! "plan.yaml") = some none := by
  obtain ⟨p, hp, -⟩ := zx_cmdPlan L K
  have h := (plan_eq_of (M := zxMachine L K) (dump := dump) (S := fun _ => []) (F := F) (s := s)
    (a := { action := .plan, config := shConfig, output := some (str! "plan.yaml") }) rfl (sh_read .broken rfl) hp).2.2.1 (str! "plan.yaml")
    ⟨rfl, by decide⟩ rfl
  exact ⟨_, rfl, by rw [h], rfl, by rw [h]; rfl⟩

/-- The conditions of `c86_stdin_twice` are met by files named twice around standard input. -/
example : ConfigRead { action := .subset, config := [str! "-", str! "planner.yaml"] ++ str! "-" :: [str! "database.yaml"] } (shStart .done)
    [.leaf .null, zxPlanner, .leaf .null, zxDatabase] :=
  ⟨_, .given (by decide), .stdin rfl (.file (by decide) rfl (.empty (.file (by decide) rfl .nil)))⟩

end Subsetter.Props
