import Verif.Proofs.SqlPlanned
import Verif.Props.RunRefs

/-
Property C75: the SQL statements that are built return what the plan says.
-/
namespace Subsetter.Props
open Subsetter Spec

variable {σ : Type} {C : RunConfig} {D : Setting σ} {p : Plan} {S : DbState} {s : σ}

/-- C75. The statement `build` makes from a statement of a plan returns the rows the plan asks for, in any scope: joins
that cannot multiply rows together with GROUP BY, correlated EXISTS for the others, the conditions on NULL for outer joins,
unions, subqueries and limits.
Missing: selects that join and draw random numbers, selects of some columns with a limit (`StmtFits`; the planner makes
neither). -/
theorem c75_statement_partial {E : Engine} {le : List Val → List Val → Bool} {X : BuildCtx} {R : SqlObj → List Row} {V : Env}
    (hX : Holds X R V) {st : Stmt} {q : Query} {b b' : BuildState} (h : st.build X b = .ok (q, b')) (hf : StmtFits st)
    (outside : Scope) : Query.eval E le R outside q = Stmt.eval E V st := stmt_ok hX h hf outside

/-- C75. A run with the statements that are built does what the run of the model does - same schema, same commits, same
rows written in the same order, same error - if the plan's queries name existing columns and return whole rows of
their tables, and what compaction looks up is unique (`RunPlain`).
Missing: raw SQL in plans and columns that do not exist, for which the claim fails (`c75_raw_sql_error`,
`c75_misspelt_column`), and references to values that occur twice (`c75_lookup_numbers_twice`). -/
theorem c75_run_partial (h : ∀ r, startRun C D p = .ok r → RunPlain C D p r) : sampleSql C D p S s = sample C D p S s :=
  run_same h S s

/-- C75. For plans of the planner conditions on the source and the configuration suffice: columns of keys exist,
primary keys are unique, no column is named like the one the sampler adds, targets name existing columns, and columns
compacted by name are primary keys or not referred to. -/
theorem c75_planned_run (hok : RunOK C D p) {cfg : PlannerConfig} (hex : ∀ x ∈ cfg.extraFks, x.Valid)
    (htg : [] ∉ dkeys cfg.targets) (hplan : plan D.fnmatch D.srcDb cfg = .ok p)
    (hself : ∀ n ∈ dkeys p.queries, D.fnmatch n n = true) (hs : SourceSound D) (hpk : PkOK (dbTables D.srcDb) D.src)
    (ht : TargetColumns cfg D.srcDb) (hck : CompactsKeys C D) : sampleSql C D p S s = sample C D p S s :=
  c75_run_partial fun _ h => ⟨hok.plan, planned_plain hok.src hex htg hplan hself hs ht h,
    source_plain hok.src hok.srcColumns hs h, fun _ hcc hpo => planned_unique_refs hok hex htg hplan hpk hck h hcc hpo⟩

/-- C75 with C59: what the statements built write to a database without the tables is the sample. -/
theorem c75_create_and_fill (hok : RunOK C D p) (hpl : Plain C) (hcr : C.create = true)
    (hdia : D.dialect ≠ .generic ∨ C.strategy = .error) {cfg : PlannerConfig} (hex : ∀ x ∈ cfg.extraFks, x.Valid)
    (htg : [] ∉ dkeys cfg.targets) (hplan : plan D.fnmatch D.srcDb cfg = .ok p)
    (hdep : cfg.includeDependencies = true) (hign : cfg.ignoreFks = [])
    (hcirc : ∀ k, Named cfg.passthrough k → ¬ Relation.TransGen (DbRef D.srcDb) k k)
    (hself : ∀ n ∈ dkeys p.queries, D.fnmatch n n = true) (hsrc : SourceOK D) (hs : SourceSound D)
    (ht : TargetColumns cfg D.srcDb) (hfree : DestinationFree C D p S) :
    (sampleSql C D p S s).err = none ∧
    ∃ Smp, IsSample D.engine (dbTables D.srcDb) D.src p Smp ∧
      ∀ n ∈ dkeys p.queries, ∃ k kd t td, parseTableName n = some k ∧ (n, t) ∈ D.srcDb ∧ DestOf C.remap n kd ∧
        (kd.1 ++ '.' :: kd.2, td) ∈ (sampleSql C D p S s).schema ∧ CopyOf C.remap (dkeys p.queries) t td ∧
        (sampleSql C D p S s).final kd = (Smp k).map fun r => t.columns.map fun c => (c, r.get c) := by
  have hck : CompactsKeys C D := by
    intro n cols h c hc
    rw [hpl.compactColumns n cols h] at hc
    cases hc
  rw [c75_planned_run hok hex htg hplan hself hs hsrc.pk ht hck]
  exact c59_create_and_fill hok hpl hcr hdia hex htg hplan hdep hign hcirc hself hsrc hfree

/-! ### Examples -/

/-- Users and orders, and orders as they were sampled. -/
def txU : Key := (str! "s", str! "u")
def txO : Key := (str! "s", str! "o")
def txCtx : BuildCtx := ⟨fun k => if k = txU then some ⟨.src txU, [str! "id"], [str! "id"]⟩ else if k = txO then some ⟨.src txO, [str! "id", str! "uid"], [str! "id"]⟩ else none, fun k i => if k = txO then some ⟨.temp txO i, [str! "id", str! "uid"], [str! "id"]⟩ else none, false⟩
def txRows : SqlObj → List Row
  | .src k => exSrc k
  | .temp k _ => if k = txO then [[(str! "id", .int 7), (str! "uid", .int 1)]] else []
def txEnv : Env := ⟨fun t => if t.sampled then txRows (.temp t.key 0) else exSrc t.key, fun _ => [str! "id"]⟩

theorem tx_holds : Holds txCtx txRows txEnv := by
  intro t b o b' h
  unfold BuildCtx.call at h
  split at h
  · rename_i hs
    dsimp only [txCtx] at h
    by_cases hk : t.key = txO
    · rw [if_pos hk] at h
      cases h
      simp only [txEnv, hs, if_true, hk]
      exact ⟨by simp [txRows], trivial, by decide, by decide +kernel⟩
    · rw [if_neg hk] at h
      cases h
  · rename_i hs
    dsimp only [txCtx] at h
    by_cases hk : t.key = txU
    · rw [if_pos hk] at h
      cases h
      simp only [txEnv, hs, hk]
      exact ⟨rfl, trivial, by decide, by decide +kernel⟩
    · rw [if_neg hk] at h
      by_cases hk' : t.key = txO
      · rw [if_pos hk'] at h
        cases h
        simp only [txEnv, hs, hk']
        exact ⟨rfl, trivial, by decide, by decide +kernel⟩
      · rw [if_neg hk'] at h
        cases h

/-- Users with a sampled order that do not have an order 8, or are user 2: an outer join with GROUP BY, a correlated EXISTS and
subqueries. -/
def txStmt : Stmt := .select (.mk none ⟨str! "s", str! "u", false⟩
  (some (.or [.inStmt [str! "id"] (.union [.mk (some [str! "uid"]) ⟨str! "s", str! "o", false⟩ (some (.op .eq (str! "id") (.int 8))) none none false 0]) true, .op .eq (str! "id") (.int 2)]))
  none (some [{ right := ⟨str! "s", str! "o", true⟩, leftColumns := [str! "id"], rightColumns := [str! "uid"], halfUnique := true }, { right := ⟨str! "s", str! "o", true⟩, leftColumns := [str! "id"], rightColumns := [str! "id"], halfUnique := false }]) true 0)

/-- The hypotheses of `c75_statement_partial` hold of it, and the statement returns user 1. -/
theorem tx_statement : ∃ q b, txStmt.build txCtx ⟨[], 0⟩ = .ok (q, b) ∧ StmtFits txStmt ∧
    Query.eval exEngine (fun _ _ => true) txRows [] q = Stmt.eval exEngine txEnv txStmt ∧
    Stmt.eval exEngine txEnv txStmt = [[(str! "id", .int 1)]] := by
  have hf : StmtFits txStmt := by simp [txStmt, StmtFits, SelFits, WhereFits, WheresFit, SelsFit, Draws, DrawsAny]
  have hb : (match txStmt.build txCtx ⟨[], 0⟩ with | .ok _ => true | .error _ => false) = true := by decide +kernel
  cases h : txStmt.build txCtx ⟨[], 0⟩ with
  | error e => rw [h] at hb; cases hb
  | ok x => exact ⟨x.1, x.2, rfl, hf, c75_statement_partial tx_holds h hf [], by decide +kernel⟩

/-- The orders of user 1, and users. -/
def txCfg : PlannerConfig := { exCfg with select := [str! "s.o", str! "s.u"] }

/-- Compaction, multiplication and merging. -/
def txC : RunConfig := wxC

theorem txNames : planNames (plan dxEq (rxSetting rxDst).srcDb txCfg) = [str! "s.o", str! "s.u"] := by decide +kernel

theorem tx_sound : SourceSound (rxSetting rxDst) := by
  refine ⟨fun n t h => ?_, fun n t h => ?_, fun n t h => ?_, fun n t h fk hfk => ?_⟩
  · have : ∀ e ∈ (rxSetting rxDst).srcDb, ∀ r ∈ (rxSetting rxDst).src (e.2.schema, e.2.name), r.map Prod.fst = e.2.columns := by decide +kernel
    exact this (n, t) h
  · have : ∀ e ∈ (rxSetting rxDst).srcDb, str! "_sbsttr_id" ∉ e.2.columns := by decide
    exact this (n, t) h
  · have : ∀ e ∈ (rxSetting rxDst).srcDb, ∀ c ∈ e.2.primaryKey, c ∈ e.2.columns := by decide
    exact this (n, t) h
  · have : ∀ e ∈ (rxSetting rxDst).srcDb, ∀ fk ∈ e.2.foreignKeys, (∀ c ∈ fk.columns, c ∈ e.2.columns) ∧
        ∀ x ∈ (rxSetting rxDst).srcDb, fk.dstSchema ++ '.' :: fk.dstTable = x.1 → ∀ c ∈ fk.dstColumns, c ∈ x.2.columns := by decide
    exact ⟨(this (n, t) h fk hfk).1, fun tb htb => (this (n, t) h fk hfk).2 _ htb rfl⟩

theorem tx_targets : TargetColumns txCfg (rxSetting rxDst).srcDb := by
  intro n x h c hc t ht
  have : ∀ e ∈ txCfg.targets, ∀ y ∈ (rxSetting rxDst).srcDb, e.1 = y.1 → (∀ c ∈ dkeys e.2.like, c ∈ y.2.columns) ∧ ∀ c ∈ dkeys e.2.in_, c ∈ y.2.columns := by decide
  have := this (n, x) h (n, t) ht rfl
  exact hc.elim (this.1 c) (this.2 c)

theorem tx_pk : PkOK (dbTables (rxSetting rxDst).srcDb) (rxSetting rxDst).src := by
  intro k t h _
  have h1 : ∀ e ∈ dbTables (rxSetting rxDst).srcDb, ((rxSetting rxDst).src e.1 |>.map fun r => e.2.primaryKey.map r.get).Nodup := by decide +kernel
  exact h1 (k, t) (dget_some_mem h)

/-- The hypotheses of `c75_planned_run` hold of a run that compacts keys, writes rows twice and merges. -/
theorem tx_planned : ∃ p, plan dxEq (rxSetting rxDst).srcDb txCfg = .ok p ∧
    sampleSql txC (rxSetting rxDst) p rxBefore 0 = sample txC (rxSetting rxDst) p rxBefore 0 := by
  have hn := txNames
  cases h : plan dxEq (rxSetting rxDst).srcDb txCfg with
  | error e => rw [h] at hn; cases hn
  | ok p =>
    rw [h] at hn
    have hok : RunOK txC (rxSetting rxDst) p := by
      have := rx_ok (C := txC) rfl
      exact ⟨this.src, this.dst, this.closed, this.srcColumns, this.self, by rw [show dkeys p.queries = _ from hn]; decide, this.compactNames⟩
    exact ⟨p, rfl, c75_planned_run hok (cfg := txCfg) (fun _ h => nomatch h) (by decide) h (fun n _ => by simp [rxSetting, dxEq])
      tx_sound tx_pk tx_targets (fun _ _ h => nomatch h)⟩

/-- Its result, computed with the statements: user 1 and order 7 become 8 and 9, and 12 and 13. -/
theorem tx_result : (match plan dxEq (rxSetting rxDst).srcDb txCfg with
      | .ok p => some (rxShow (sampleSql txC (rxSetting rxDst) p rxBefore 0))
      | .error _ => none) =
    some (none, [[[(str! "id", .int 5)], [(str! "id", .int 8)], [(str! "id", .int 9)]],
      [[(str! "id", .int 9), (str! "uid", .int 5)], [(str! "id", .int 12), (str! "uid", .int 8)], [(str! "id", .int 13), (str! "uid", .int 9)]],
      [[(str! "oid", .int 9)]]]) := by
  decide +kernel

/-- A target that names a column that does not exist. -/
def txMisspelt : PlannerConfig := { select := [str! "s.o", str! "s.u"], targets := [(str! "s.o", { in_ := [(str! "usr", [.int 1])] })] }

/-- C75 fails for it: the planner accepts the target, and the run stops with a `KeyError` - after the destination has
been emptied. -/
theorem c75_misspelt_column : (match plan dxEq (rxSetting rxDst).srcDb txMisspelt with
      | .ok p => some (rxShow (sampleSql { remap := dxRemap, truncate := true } (rxSetting rxDst) p rxBefore 0))
      | .error _ => none) = some (some (.exec .keyError), [[], [], []]) := by
  decide +kernel

/-- A plan whose query for orders is raw SQL; that for users refers to the sampled orders. -/
def txRaw : Plan := ⟨[(str! "s.u", exUQuery), (str! "s.o", .sql (str! "SELECT * FROM o"))], []⟩

/-- C75 fails for raw SQL: a run of a plan with a raw query that other queries refer to, or whose keys are compacted,
stops with an `AttributeError`, after the destination has been emptied. -/
theorem c75_raw_sql_error :
    rxShow (sampleSql { remap := dxRemap, truncate := true } (rxSetting rxDst) txRaw rxBefore 0) =
      (some (.exec .attributeError), [[], [], []]) ∧
    rxShow (sampleSql { remap := dxRemap, truncate := true, compact := { primaryKeys := true } } (rxSetting rxDst)
      ⟨[(str! "s.u", .sql (str! "SELECT * FROM u"))], []⟩ rxBefore 0) = (some (.exec .attributeError), [[], [], []]) := by
  decide +kernel

/-- Orders refer to users by a code that two users share. -/
def txShared : Setting Int := { rxSetting [] with srcDb := [(str! "s.o", { schema := str! "s", name := str! "o", columns := [str! "id", str! "code"], primaryKey := [str! "id"], foreignKeys := [⟨[str! "code"], str! "s", str! "u", [str! "code"]⟩] }), (str! "s.u", { schema := str! "s", name := str! "u", columns := [str! "id", str! "code"], primaryKey := [str! "id"] })], src := fun k => if k = (str! "s", str! "u") then [[(str! "id", .int 1), (str! "code", .int 5)], [(str! "id", .int 2), (str! "code", .int 5)]] else if k = (str! "s", str! "o") then [[(str! "id", .int 7), (str! "code", .int 5)]] else [] }

def txAll : Plan := ⟨[(str! "s.u", .statement (.select (.mk none ⟨str! "s", str! "u", false⟩ none none none false 0))), (str! "s.o", .statement (.select (.mk none ⟨str! "s", str! "o", false⟩ none none none false 0)))], []⟩

def txByName : RunConfig := { remap := dxRemap, create := true, compact := { columns := [(str! "s.u", [str! "code"]), (str! "s.o", [str! "id"])] } }

/-- The missing part of C75 about values that occur twice: the only order is written once for each user with its code, and
the statement numbers the rows after joining, so that the order gets two identifiers, where the model gives it the same
one twice, which its primary key forbids. -/
theorem c75_lookup_numbers_twice :
    (sampleSql txByName txShared txAll (fun _ => []) 0).final (str! "m", str! "o") =
      [[(str! "id", .int 1), (str! "code", .int 1)], [(str! "id", .int 2), (str! "code", .int 2)]] ∧
    (sample txByName txShared txAll (fun _ => []) 0).err = some (.dest (.output .integrity)) := by
  decide +kernel

end Subsetter.Props
