import Verif.Model.Command

/-
Model of `main` (`/repo/subsetter/__main__.py:101-246`) for arguments that have been parsed: which files the commands
open, what is read from standard input, what is written where, and the exit status.

Parsing of the arguments (`argparse`) is left out.  Two paths denote the same file only if they are equal.  The files of
a directory as output (`Files`) are kept apart from the files read here.
-/
namespace Subsetter

/-- What a text amounts to: the tree `yaml.safe_load` returns, or none if it raises an exception (no YAML, no UTF-8).
`__main__.py:122,178`. -/
abbrev Doc := Option Yaml

/-- The command: `args.action`.  `__main__.py:231-238`. -/
inductive Action where
  | plan
  | sample
  | subset
  deriving DecidableEq, Repr

/-- What `_parse_args` returns (`__main__.py:31-98`). -/
structure Args where
  action : Action
  /-- `-c`, none or several -/
  config : List Str := []
  /-- `-o` of `plan` -/
  output : Option Str := none
  /-- `-p` of `sample` -/
  plan : Str := str! "plan.yaml"
  truncate : Bool := false
  create : Bool := false
  /-- how often `-v` was given -/
  verbose : Nat := 0

/-- What happens on writing to a path: it is written, cannot be opened, or breaks off in the middle.
`__main__.py:156-171`. -/
inductive Write where
  | done
  | refused
  | broken
  deriving DecidableEq, Repr

/-- What a command is started with.  `__main__.py:218-246`. -/
structure Shell where
  /-- none if `open` raises an `IOError` -/
  files : Str → Option Doc
  stdin : Doc
  write : Str → Write

/-- What is printed on standard output: statements logged by SQLAlchemy, or the text of a tree.
`__main__.py:140-143,156-160`. -/
inductive Printed where
  | log
  | doc (y : Yaml)

/-- What a command leaves.  `__main__.py:218-246`. -/
structure After where
  files : Str → Option Doc
  stdout : List Printed
  /-- of `sample` and `subset`, unless they stop before -/
  outcome : Option Outcome
  status : Nat

/-- `yaml.safe_load(sys.stdin)` at the end of the input.  `__main__.py:122,178`. -/
def atEnd : Doc := some (.leaf .null)

/-- `_open_config_path` followed by `yaml.safe_load` (`__main__.py:22-28`): the tree, or none for an exception, and what
is left of standard input. -/
def readPath (files : Str → Option Doc) (path : Str) (stdin : Doc) : Option Yaml × Doc :=
  if path = str! "-" then (stdin, atEnd)
  else
    match files path with
    | none => (none, stdin)
    | some d => (d, stdin)

/-- The loop over `config_files` (`__main__.py:118-130`); the trees are merged by `getConfig`. -/
def readConfigs (files : Str → Option Doc) : List Str → Doc → Option (List Yaml × Doc)
  | [], stdin => some ([], stdin)
  | path :: rest, stdin =>
    match readPath files path stdin with
    | (none, _) => none
    | (some y, stdin) =>
      match readConfigs files rest stdin with
      | none => none
      | some (ys, stdin) => some (y :: ys, stdin)

/-- `config_files` (`__main__.py:102-104`). -/
def configFiles (a : Args) : List Str := if a.config = [] then [str! "subsetter.yaml"] else a.config

/-- `config.source.echo = True` (`__main__.py:140-143`): SQLAlchemy prints the statements on standard output once the
source is asked.  The key `echo` of the configuration, which does the same, is left out. -/
def printedLog {σ : Type} (M : Machine σ) (a : Args) (ys : List Yaml) : List Printed :=
  match getConfig M.lax M.codes ys with
  | .error _ => []
  | .ok c =>
    match sourceEngine M c with
    | .error _ => []
    | .ok _ => if 2 < a.verbose then [.log] else []

/-- A command that stopped (`sys.exit(1)` or an exception, `__main__.py:229-246`). -/
def stopped (sh : Shell) (out : List Printed) : After := ⟨sh.files, out, none, 1⟩

/-- `_main_plan` (`__main__.py:148-171`).  The section `planner` is asked for before the source is connected to; `dump` is
`yaml.dump(plan.model_dump(…))`. -/
def runPlan {σ : Type} (M : Machine σ) (dump : Plan → Yaml) (a : Args) (sh : Shell) : After :=
  match readConfigs sh.files (configFiles a) sh.stdin with
  | none => stopped sh []
  | some (ys, _) =>
    match cmdPlan M ys with
    | .error (.main .noPlanner) => stopped sh []
    | .error _ => stopped sh (printedLog M a ys)
    | .ok p =>
      match a.output with
      | none => ⟨sh.files, printedLog M a ys ++ [.doc (dump p)], none, 0⟩
      | some [] => ⟨sh.files, printedLog M a ys ++ [.doc (dump p)], none, 0⟩
      | some path =>
        match sh.write path with
        | .done => ⟨fun q => if q = path then some (some (dump p)) else sh.files q, printedLog M a ys, none, 0⟩
        | .refused => stopped sh (printedLog M a ys)
        | .broken => ⟨fun q => if q = path then some none else sh.files q, printedLog M a ys, none, 1⟩

/-- What a run leaves.  `__main__.py:195-199,211-215,239-246`. -/
def ended {σ : Type} (M : Machine σ) (a : Args) (sh : Shell) (ys : List Yaml) (r : Except CommandErr Outcome) : After :=
  match r with
  | .error (.main .noPlanner) => stopped sh []
  | .error (.main (.planFile _)) => stopped sh []
  | .error _ => stopped sh (printedLog M a ys)
  | .ok o => ⟨sh.files, printedLog M a ys, some o, exitStatus (.ok o)⟩

/-- `_main_sample` (`__main__.py:174-199`). -/
def runSample {σ : Type} (M : Machine σ) (a : Args) (sh : Shell) (S : DbState) (F : Files) (s : σ) : After :=
  match readConfigs sh.files (configFiles a) sh.stdin with
  | none => stopped sh []
  | some (ys, stdin) =>
    match getConfig M.lax M.codes ys with
    | .error _ => stopped sh []
    | .ok _ =>
      match (readPath sh.files a.plan stdin).1 with
      | none => stopped sh []
      | some y => ended M a sh ys (cmdSample M ys y a.truncate a.create S F s)

/-- `_main_subset` (`__main__.py:202-215`). -/
def runSubset {σ : Type} (M : Machine σ) (a : Args) (sh : Shell) (S : DbState) (F : Files) (s : σ) : After :=
  match readConfigs sh.files (configFiles a) sh.stdin with
  | none => stopped sh []
  | some (ys, _) => ended M a sh ys (cmdSubset M ys a.truncate a.create S F s)

/-- `main` (`__main__.py:218-246`). -/
def runMain {σ : Type} (M : Machine σ) (dump : Plan → Yaml) (a : Args) (sh : Shell) (S : DbState) (F : Files) (s : σ) :
    After :=
  match a.action with
  | .plan => runPlan M dump a sh
  | .sample => runSample M a sh S F s
  | .subset => runSubset M a sh S F s

end Subsetter
