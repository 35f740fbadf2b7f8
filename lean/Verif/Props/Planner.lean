import Verif.Proofs.PlanTop
import Verif.Props.Exec

/-
Properties C07-C19: planning (`planner.py`, `metadata.py`).

`planInternal cfg T = .ok p`: the planner makes plan `p` from the loaded tables `T`.
`IsSample E Ts src p S`: `S` are the rows sampled by plan `p` from the source rows `src`
(`c23_execution_is_sample`: this is what execution writes).
-/
namespace Subsetter.Props
open Subsetter Spec

/-! ### Example: orders refer to users, logs refer to nothing -/

theorem exTables_ok : TablesOK exTables := by
  refine ⟨by decide, ?_, ?_, ?_, ?_⟩ <;> intro k t h <;>
    simp only [exTables, List.mem_cons, Prod.mk.injEq, List.not_mem_nil, or_false] at h <;>
    rcases h with ⟨rfl, rfl⟩ | ⟨rfl, rfl⟩ <;> decide

/-- Pick the orders of user 1 (filter `in`) and whatever is needed. -/
def exCfg : PlannerConfig where
  targets := [(str! "s.o", { in_ := [(str! "uid", [.int 1])] })]

theorem exCfg_input : Input exCfg exTables := ⟨exTables_ok, (fun _ h => nomatch h), by decide⟩

theorem exTables_pk : PkOK exTables exSrc := by
  intro k t h _
  have := exTables_ok.get.1 h
  simp only [exTables, List.mem_cons, Prod.mk.injEq, List.not_mem_nil, or_false] at this
  rcases this with ⟨rfl, rfl⟩ | ⟨rfl, rfl⟩ <;> decide +kernel

/-- The error planning raised. -/
def planError : Except PlanErr Plan → Option PlanErr
  | .error e => some e
  | .ok _ => none

/-- Plan and execute; `names` is the insert order. -/
def planExec (cfg : PlannerConfig) (T : Tables) (src : Key → List Row) (names : List Str) :
    Except PlanErr (Except ExecErr (List (Key × List Row))) :=
  match planInternal cfg T with
  | .error e => .error e
  | .ok p => .ok (execPlan exEngine T [] src true p names)

/-! ### C07 -/

/-- C07, all but targets combining `all` with `amount`: a reference of a sampled row that resolves
in the source resolves in the sample, for every key the planner uses between planned tables. -/
theorem c07_referential_integrity_partial {cfg : PlannerConfig} {T : Tables} (hI : Input cfg T)
    {p : Plan} (h : planInternal cfg T = .ok p)
    (hall : ∀ n x, dget cfg.targets n = some x → x.all = true → x.amount = none)
    {E : Engine} {Ts : Tables} {src S : Key → List Row} (hpk : PkOK Ts src)
    (hS : IsSample E Ts src p S) {a b : Key} {fk : ForeignKey} (hfk : UsedFk cfg T a fk b)
    (ha : ∃ q, Planned p a q) (hb : ∃ q, Planned p b q) : FkKept src S a fk b := by
  obtain ⟨ign, pass, T₁, T₂, found, ord, hp⟩ := planning hI h
  exact hp.shape.fkKept hp.ok hS hpk hall (hp.planned_iff.1 ha) (hp.planned_iff.1 hb)
    ((hp.used a fk b).2 hfk)

/-- Sampled rows are rows of the source table. -/
theorem c07_sample_from_source {cfg : PlannerConfig} {T : Tables} (hI : Input cfg T)
    {p : Plan} (h : planInternal cfg T = .ok p)
    {E : Engine} {Ts : Tables} {src S : Key → List Row} (hpk : PkOK Ts src)
    (hS : IsSample E Ts src p S) {k : Key} (hk : ∃ q, Planned p k q) : ∀ r ∈ S k, r ∈ src k := by
  obtain ⟨ign, pass, T₁, T₂, found, ord, hp⟩ := planning hI h
  exact fun r hr => hp.shape.sample_subset hp.ok hS hpk (hp.planned_iff.1 hk) hr

/-- C07 for a whole run: executing a plan never fails and what is written for planned tables `a`
and `b` keeps the keys from `a` to `b`. -/
theorem c07_run_partial {cfg : PlannerConfig} {T : Tables} (hI : Input cfg T)
    {p : Plan} (h : planInternal cfg T = .ok p)
    (hall : ∀ n x, dget cfg.targets n = some x → x.all = true → x.amount = none)
    {E : Engine} {Ts : Tables} {src : Key → List Row} (hpk : PkOK Ts src)
    (hTs : ∀ k q, Planned p k q → (dget Ts k).isSome) (compact : Dict Key (List Str)) (reopen : Bool)
    {ks : List Key} (hks : ∀ k ∈ ks, ∃ q, Planned p k q) :
    ∃ out, execPlan E Ts compact src reopen p (ks.map Key.str) = .ok out ∧
      out.map Prod.fst = ks ∧
      ∀ a fk b ra rb, UsedFk cfg T a fk b → (a, ra) ∈ out → (b, rb) ∈ out → ∀ r ∈ ra, ∀ m ∈ src b,
        Refers fk.columns fk.dstColumns r m → ∃ m' ∈ rb, Refers fk.columns fk.dstColumns r m' := by
  obtain ⟨ign, pass, T₁, T₂, found, ord, hp⟩ := planning hI h
  have hok : PlanOK Ts p := hp.shape.planOK hp.ok fun k hk => by
    obtain ⟨q, hq⟩ := hp.planned_iff.2 hk; exact hTs k q hq
  obtain ⟨S, h1, -, h2⟩ := c23_execution_is_sample hok (hp.shape.acyclic hp.ok) E compact src reopen
    ks fun k hk => ⟨hp.nodot (hp.planned_iff.1 (hks k hk)), hks k hk⟩
  refine ⟨_, h2, by simp [Function.comp_def], ?_⟩
  intro a fk b ra rb hu hra hrb r hr m hm hrm
  obtain ⟨a', ha, e1⟩ := List.mem_map.1 hra
  obtain ⟨b', hb, e2⟩ := List.mem_map.1 hrb
  cases e1; cases e2
  exact c07_referential_integrity_partial hI h hall hpk h1 hu (hks _ ha) (hks _ hb) r hr ⟨m, hm, hrm⟩

/-- The example: user 1 is sampled because an order of user 1 is; user 2 is not. -/
example : planExec exCfg exTables exSrc [str! "s.u", str! "s.o"] = .ok (.ok
    [((str! "s", str! "u"), [[(str! "id", .int 1)]]),
     ((str! "s", str! "o"), [[(str! "id", .int 7), (str! "uid", .int 1)]])]) := by decide +kernel

/-- The hypotheses of the theorems hold of the example. -/
example {p : Plan} (h : planInternal exCfg exTables = .ok p) {S : Key → List Row}
    (hS : IsSample exEngine exTables exSrc p S)
    (ha : ∃ q, Planned p (str! "s", str! "o") q) (hb : ∃ q, Planned p (str! "s", str! "u") q) :
    FkKept exSrc S (str! "s", str! "o") ⟨[str! "uid"], str! "s", str! "u", [str! "id"]⟩
      (str! "s", str! "u") :=
  c07_referential_integrity_partial exCfg_input h (by
      intro n x hx ha
      unfold exCfg at hx
      simp only [dget] at hx
      split at hx
      · cases hx; cases ha
      · cases hx)
    exTables_pk hS (.inl ⟨.inl ⟨exTableO, by simp [exTables], by simp [exTableO], rfl⟩, by
      rintro ⟨x, hx, -⟩; cases hx⟩) ha hb

/-- The missing part of C07 is false: a target with both `all` and `amount` that other tables refer
to is cut off at `amount` rows; here both orders are sampled but only one user. -/
theorem c07_all_amount_breaks_keys :
    planExec { targets := [(str! "s.o", { all := true }), (str! "s.u", { all := true, amount := some 1 })] }
      exTables exSrc [str! "s.u", str! "s.o"] = .ok (.ok
    [((str! "s", str! "u"), [[(str! "id", .int 1)]]),
     ((str! "s", str! "o"), [[(str! "id", .int 7), (str! "uid", .int 1)],
       [(str! "id", .int 8), (str! "uid", .int 2)]])]) := by decide +kernel

/-! ### C08 -/

open Classical in
/-- C08, first half: a table that refers to tables listed earlier gets exactly the rows all of whose
references to these resolve in the sample and which satisfy the constraints. -/
theorem c08_forward_rows {cfg : PlannerConfig} {T : Tables} (hI : Input cfg T)
    {p : Plan} (h : planInternal cfg T = .ok p)
    {E : Engine} {Ts : Tables} {src S : Key → List Row} (hpk : PkOK Ts src)
    (hS : IsSample E Ts src p S) {k : Key} (hk : ∃ q, Planned p k q) (hnp : k.str ∉ p.passthrough)
    (hf : ∃ b, Earlier p b k ∧ UsedRef cfg T k b) :
    S k = (src k).filter fun r => decide
      ((∀ fk b, UsedFk cfg T k fk b → Earlier p b k → ∃ m ∈ S b, Refers fk.columns fk.dstColumns r m) ∧
        MeetsConstraints E ((dget cfg.tableConstraints k.str).getD []) r) := by
  obtain ⟨ign, pass, T₁, T₂, found, ord, hp⟩ := planning hI h
  have hko := (hp.sampled_iff (hp.planned_iff.1 hk)).1 hnp
  obtain ⟨pre, post, he⟩ := List.append_of_mem hko
  have hf' := (hp.refFwd_iff he).2 hf
  rcases hp.shape.rows_cases hp.ok hpk hS he with ⟨-, -, h1⟩ | ⟨h1, -⟩ | ⟨h1, -⟩ | ⟨h1, -⟩
  · rw [h1]
    refine List.filter_congr fun r _ => ?_
    rw [hp.relatedFwd_iff he]
  all_goals exact absurd hf' h1

/-- C08, second half, for rows without NULL or dangling references: these rows are the maximal set
that violates no foreign key to the earlier tables.  Rows with NULL in such a key are the missing
case. -/
theorem c08_forward_maximal_partial {cfg : PlannerConfig} {T : Tables} (hI : Input cfg T)
    {p : Plan} (h : planInternal cfg T = .ok p)
    {E : Engine} {Ts : Tables} {src S : Key → List Row} (hpk : PkOK Ts src)
    (hS : IsSample E Ts src p S) {k : Key} (hk : ∃ q, Planned p k q) (hnp : k.str ∉ p.passthrough)
    (hf : ∃ b, Earlier p b k ∧ UsedRef cfg T k b)
    (hres : ∀ r ∈ src k, ∀ fk b, UsedFk cfg T k fk b → ∃ m ∈ src b, Refers fk.columns fk.dstColumns r m)
    (r : Row) :
    r ∈ S k ↔ r ∈ src k ∧ MeetsConstraints E ((dget cfg.tableConstraints k.str).getD []) r ∧
      ∀ fk b, UsedFk cfg T k fk b → Earlier p b k →
        (∃ m ∈ src b, Refers fk.columns fk.dstColumns r m) → ∃ m ∈ S b, Refers fk.columns fk.dstColumns r m := by
  rw [c08_forward_rows hI h hpk hS hk hnp hf, List.mem_filter]
  simp only [decide_eq_true_eq]
  constructor
  · rintro ⟨h1, h2, h3⟩; exact ⟨h1, h3, fun fk b hu hb _ => h2 fk b hu hb⟩
  · rintro ⟨h1, h2, h3⟩; exact ⟨h1, fun fk b hu hb => h3 fk b hu hb (hres r h1 fk b hu), h2⟩

/-- The source of the examples plus an order without user. -/
def exSrcNull : Key → List Row := fun k =>
  if k = (str! "s", str! "o") then
    [[(str! "id", .int 7), (str! "uid", .int 1)], [(str! "id", .int 8), (str! "uid", .int 2)],
     [(str! "id", .int 9), (str! "uid", .null)]]
  else exSrc k

/-- The missing part of C08 is false: order 9 has no user, violates nothing, and is dropped although
all users are sampled. -/
theorem c08_null_reference_dropped :
    planExec { targets := [(str! "s.u", { all := true })] } exTables exSrcNull
      [str! "s.u", str! "s.o"] = .ok (.ok
    [((str! "s", str! "u"), [[(str! "id", .int 1)], [(str! "id", .int 2)]]),
     ((str! "s", str! "o"), [[(str! "id", .int 7), (str! "uid", .int 1)],
       [(str! "id", .int 8), (str! "uid", .int 2)]])]) := by decide +kernel

/-- A table sampled through its own key: orders of the sampled user, restricted by a constraint. -/
example : planExec { targets := [(str! "s.u", { in_ := [(str! "id", [.int 2])] })], tableConstraints := [(str! "s.o", [⟨str! "id", .eq, .int 8⟩])] } exTables exSrc
      [str! "s.u", str! "s.o"] = .ok (.ok
    [((str! "s", str! "u"), [[(str! "id", .int 2)]]),
     ((str! "s", str! "o"), [[(str! "id", .int 8), (str! "uid", .int 2)]])]) := by decide +kernel

/-! ### C09 -/

open Classical in
/-- C09: a table that is no target and is referred to by tables listed earlier gets exactly the rows
some sampled row refers to, each as often as in the source. -/
theorem c09_backward_rows {cfg : PlannerConfig} {T : Tables} (hI : Input cfg T)
    {p : Plan} (h : planInternal cfg T = .ok p)
    {E : Engine} {Ts : Tables} {src S : Key → List Row} (hpk : PkOK Ts src)
    (hS : IsSample E Ts src p S) {k : Key} (hk : ∃ q, Planned p k q) (hnp : k.str ∉ p.passthrough)
    (hnt : k.str ∉ dkeys cfg.targets) (hf : ∃ a, Earlier p a k ∧ UsedRef cfg T a k) :
    S k = (src k).filter fun r => decide
      (∃ a fk, Earlier p a k ∧ UsedFk cfg T a fk k ∧ ∃ c ∈ S a, Refers fk.columns fk.dstColumns c r) := by
  obtain ⟨ign, pass, T₁, T₂, found, ord, hp⟩ := planning hI h
  have hko := (hp.sampled_iff (hp.planned_iff.1 hk)).1 hnp
  obtain ⟨pre, post, he⟩ := List.append_of_mem hko
  have hf' := (hp.refBack_iff he).2 hf
  have hd := hp.shape.order.dir pre k post he
  rcases hp.shape.rows_cases hp.ok hpk hS he with ⟨h1, -⟩ | ⟨-, -, -, -, h1⟩ | ⟨-, x, h1, -⟩ |
    ⟨-, x, h1, -⟩
  · rcases hd with ⟨-, h2⟩ | ⟨-, -, h2⟩
    · exact absurd h1 h2
    · exact absurd hf' h2
  · rw [h1]
    refine List.filter_congr fun r _ => ?_
    rw [hp.relatedBack_iff he]
  · exact absurd (dget_isSome_iff.1 (by rw [h1]; rfl)) hnt
  · exact absurd (dget_isSome_iff.1 (by rw [h1]; rfl)) hnt

/-- Every planned table that is neither target nor passthrough is of exactly one of the two
kinds. -/
theorem c09_every_table_has_a_reason {cfg : PlannerConfig} {T : Tables} (hI : Input cfg T)
    {p : Plan} (h : planInternal cfg T = .ok p) {k : Key} (hk : ∃ q, Planned p k q)
    (hnp : k.str ∉ p.passthrough) :
    ((k.str ∈ dkeys cfg.targets ∨ ∃ a, Earlier p a k ∧ UsedRef cfg T a k) ∧
      ¬ ∃ b, Earlier p b k ∧ UsedRef cfg T k b) ∨
    (k.str ∉ dkeys cfg.targets ∧ (¬ ∃ a, Earlier p a k ∧ UsedRef cfg T a k) ∧
      ∃ b, Earlier p b k ∧ UsedRef cfg T k b) := by
  obtain ⟨ign, pass, T₁, T₂, found, ord, hp⟩ := planning hI h
  have hko := (hp.sampled_iff (hp.planned_iff.1 hk)).1 hnp
  obtain ⟨pre, post, he⟩ := List.append_of_mem hko
  rw [← hp.refBack_iff he, ← hp.refFwd_iff he]
  rcases hp.shape.order.dir pre k post he with ⟨h1, h2⟩ | ⟨h1, h2, h3⟩
  · exact .inl ⟨h1, h2⟩
  · exact .inr ⟨h2, h3, h1⟩

/-! ### C10 -/

/-- C10 for targets with an `amount` (or `percent` not above 0): exactly the union of both row
sets.  Missing: targets without `amount`, see `c10_without_amount_everything`. -/
theorem c10_union_partial {cfg : PlannerConfig} {T : Tables} (hI : Input cfg T)
    {p : Plan} (h : planInternal cfg T = .ok p)
    {E : Engine} {Ts : Tables} {src S : Key → List Row} (hpk : PkOK Ts src)
    (hS : IsSample E Ts src p S) {k : Key} {x : TargetConfig}
    (hx : dget cfg.targets k.str = some x) (hk : ∃ q, Planned p k q) (ha : x.all = false)
    (hlim : x.amount ≠ none ∨ ∃ pc, x.percent = some pc ∧ pc ≤ 0) (r : Row) :
    r ∈ S k ↔ r ∈ targetRows E src k x ∨ (r ∈ src k ∧ ∃ a fk, Earlier p a k ∧ UsedFk cfg T a fk k ∧
      ∃ c ∈ S a, Refers fk.columns fk.dstColumns c r) := by
  obtain ⟨ign, pass, T₁, T₂, found, ord, hp⟩ := planning hI h
  have hin := hp.planned_iff.1 hk
  have hko : k ∈ ord := by
    obtain ⟨k', hk', e⟩ := hp.shape.order.targets_mem k.str (dget_isSome_iff.1 (by rw [hx]; rfl))
    have := str_inj (hp.nodot (List.mem_append.2 (.inr hk'))) (hp.nodot hin) e
    exact this ▸ hk'
  obtain ⟨pre, post, he⟩ := List.append_of_mem hko
  rw [← hp.relatedBack_iff he]
  rcases hp.shape.rows_cases hp.ok hpk hS he with ⟨-, h1, -⟩ | ⟨-, -, h1, -⟩ | ⟨-, x', h1, h2, h3⟩ |
    ⟨-, x', h1, h2, -, -, h3⟩
  · exact absurd (dget_isSome_iff.1 (by rw [hx]; rfl)) h1
  · exact absurd (dget_isSome_iff.1 (by rw [hx]; rfl)) h1
  · rw [hx] at h1; cases h1
    rcases h2 with h2 | h2
    · rw [ha] at h2; cases h2
    · rw [h3]
      refine ⟨.inl, ?_⟩
      rintro (h4 | ⟨-, a, h5, fk, h6, -⟩)
      · exact h4
      · exact absurd ⟨a, h5, fk, h6⟩ h2
  · rw [hx] at h1; cases h1
    rcases h3 with ⟨h3, h4, -⟩ | ⟨-, h3⟩
    · rcases hlim with h5 | ⟨pc, h5, h6⟩
      · exact absurd h3 h5
      · exact absurd (h4 pc h5) (not_lt.2 h6)
    · rw [h3]; exact or_comm

/-- C10, one inclusion, for all targets without `all`: both row sets are sampled. -/
theorem c10_both_sets_included {cfg : PlannerConfig} {T : Tables} (hI : Input cfg T)
    {p : Plan} (h : planInternal cfg T = .ok p)
    {E : Engine} {Ts : Tables} {src S : Key → List Row} (hpk : PkOK Ts src)
    (hS : IsSample E Ts src p S) {k : Key} {x : TargetConfig}
    (hx : dget cfg.targets k.str = some x) (hk : ∃ q, Planned p k q) (ha : x.all = false) (r : Row)
    (hr : r ∈ targetRows E src k x ∨ (r ∈ src k ∧ ∃ a fk, Earlier p a k ∧ UsedFk cfg T a fk k ∧
      ∃ c ∈ S a, Refers fk.columns fk.dstColumns c r)) : r ∈ S k := by
  by_cases hlim : x.amount ≠ none ∨ ∃ pc, x.percent = some pc ∧ pc ≤ 0
  · exact (c10_union_partial hI h hpk hS hx hk ha hlim r).2 hr
  · obtain ⟨ign, pass, T₁, T₂, found, ord, hp⟩ := planning hI h
    have hin := hp.planned_iff.1 hk
    have hsrc : r ∈ src k := by
      rcases hr with hr | hr
      · exact PlanShape.targetRows_subset hr
      · exact hr.1
    have hko : k ∈ ord := by
      obtain ⟨k', hk', e⟩ := hp.shape.order.targets_mem k.str (dget_isSome_iff.1 (by rw [hx]; rfl))
      have := str_inj (hp.nodot (List.mem_append.2 (.inr hk'))) (hp.nodot hin) e
      exact this ▸ hk'
    obtain ⟨pre, post, he⟩ := List.append_of_mem hko
    rw [← hp.relatedBack_iff he] at hr
    rcases hp.shape.rows_cases hp.ok hpk hS he with ⟨-, h1, -⟩ | ⟨-, -, h1, -⟩ | ⟨-, x', h1, h2, h3⟩ |
      ⟨-, x', h1, h2, -, -, h3⟩
    · exact absurd (dget_isSome_iff.1 (by rw [hx]; rfl)) h1
    · exact absurd (dget_isSome_iff.1 (by rw [hx]; rfl)) h1
    · rw [hx] at h1; cases h1
      rcases h2 with h2 | h2
      · rw [ha] at h2; cases h2
      · rw [h3]
        rcases hr with h4 | ⟨-, a, h5, fk, h6, -⟩
        · exact h4
        · exact absurd ⟨a, h5, fk, h6⟩ h2
    · rw [hx] at h1; cases h1
      rcases h3 with ⟨-, -, h3⟩ | ⟨h3, -⟩
      · rw [h3]; exact hsrc
      · exact absurd h3 hlim

/-- What happens otherwise: a target without `amount` that sampled tables refer to is copied in
full, whatever its filters. -/
theorem c10_without_amount_everything {cfg : PlannerConfig} {T : Tables} (hI : Input cfg T)
    {p : Plan} (h : planInternal cfg T = .ok p)
    {E : Engine} {Ts : Tables} {src S : Key → List Row} (hpk : PkOK Ts src)
    (hS : IsSample E Ts src p S) {k : Key} {x : TargetConfig}
    (hx : dget cfg.targets k.str = some x) (hk : ∃ q, Planned p k q) (ha : x.all = false)
    (hn : x.amount = none) (hpc : ∀ pc, x.percent = some pc → 0 < pc)
    (hf : ∃ a, Earlier p a k ∧ UsedRef cfg T a k) : S k = src k := by
  obtain ⟨ign, pass, T₁, T₂, found, ord, hp⟩ := planning hI h
  have hin := hp.planned_iff.1 hk
  have hko : k ∈ ord := by
    obtain ⟨k', hk', e⟩ := hp.shape.order.targets_mem k.str (dget_isSome_iff.1 (by rw [hx]; rfl))
    have := str_inj (hp.nodot (List.mem_append.2 (.inr hk'))) (hp.nodot hin) e
    exact this ▸ hk'
  obtain ⟨pre, post, he⟩ := List.append_of_mem hko
  have hf' := (hp.refBack_iff he).2 hf
  rcases hp.shape.rows_cases hp.ok hpk hS he with ⟨-, h1, -⟩ | ⟨-, -, h1, -⟩ | ⟨-, x', h1, h2, h3⟩ |
    ⟨-, x', h1, h2, -, -, h3⟩
  · exact absurd (dget_isSome_iff.1 (by rw [hx]; rfl)) h1
  · exact absurd (dget_isSome_iff.1 (by rw [hx]; rfl)) h1
  · rw [hx] at h1; cases h1
    rcases h2 with h2 | h2
    · rw [ha] at h2; cases h2
    · exact absurd hf' h2
  · rw [hx] at h1; cases h1
    rcases h3 with ⟨-, -, h3⟩ | ⟨h3 | ⟨pc, h3, h4⟩, -⟩
    · exact h3
    · exact absurd hn h3
    · exact absurd (hpc pc h3) (not_lt.2 h4)

/-- The missing part of C10 is false: target `s.u` asks for user 2 only, orders of user 2 only are
sampled, and yet user 1 is in the sample. -/
theorem c10_excess_rows :
    planExec { targets := [(str! "s.o", { in_ := [(str! "uid", [.int 2])] }), (str! "s.u", { in_ := [(str! "id", [.int 2])] })] } exTables exSrc [str! "s.u", str! "s.o"] =
    .ok (.ok
    [((str! "s", str! "u"), [[(str! "id", .int 1)], [(str! "id", .int 2)]]),
     ((str! "s", str! "o"), [[(str! "id", .int 8), (str! "uid", .int 2)]])]) := by decide +kernel

/-- With an amount it is the union: user 2 is wanted, user 1 is referred to by order 7. -/
example : planExec { targets := [(str! "s.o", { in_ := [(str! "uid", [.int 1])] }), (str! "s.u", { in_ := [(str! "id", [.int 2])], amount := some 5 })] } exTables
      (fun k => if k = (str! "s", str! "u") then
        [[(str! "id", .int 1)], [(str! "id", .int 2)], [(str! "id", .int 3)]] else exSrc k)
      [str! "s.u", str! "s.o"] =
    .ok (.ok
    [((str! "s", str! "u"), [[(str! "id", .int 1)], [(str! "id", .int 2)]]),
     ((str! "s", str! "o"), [[(str! "id", .int 7), (str! "uid", .int 1)]])]) := by decide +kernel

/-! ### C11 -/

/-- C11 for targets without `amount`: `all` samples the table in full whatever the other options.
Missing: `amount`. -/
theorem c11_all_overrides_partial {cfg : PlannerConfig} {T : Tables} (hI : Input cfg T)
    {p : Plan} (h : planInternal cfg T = .ok p)
    {E : Engine} {Ts : Tables} {src S : Key → List Row} (hpk : PkOK Ts src)
    (hS : IsSample E Ts src p S) {k : Key} {x : TargetConfig}
    (hx : dget cfg.targets k.str = some x) (hk : ∃ q, Planned p k q) (ha : x.all = true)
    (hn : x.amount = none) : S k = src k := by
  obtain ⟨ign, pass, T₁, T₂, found, ord, hp⟩ := planning hI h
  have hin := hp.planned_iff.1 hk
  have hko : k ∈ ord := by
    obtain ⟨k', hk', e⟩ := hp.shape.order.targets_mem k.str (dget_isSome_iff.1 (by rw [hx]; rfl))
    have := str_inj (hp.nodot (List.mem_append.2 (.inr hk'))) (hp.nodot hin) e
    exact this ▸ hk'
  obtain ⟨pre, post, he⟩ := List.append_of_mem hko
  rcases hp.shape.rows_cases hp.ok hpk hS he with ⟨-, h1, -⟩ | ⟨-, -, h1, -⟩ | ⟨-, x', h1, h2, h3⟩ |
    ⟨-, x', h1, h2, -, -, h3⟩
  · exact absurd (dget_isSome_iff.1 (by rw [hx]; rfl)) h1
  · exact absurd (dget_isSome_iff.1 (by rw [hx]; rfl)) h1
  · rw [hx] at h1; cases h1
    rw [h3, PlanShape.targetRows_all ha hn]
  · rw [hx] at h1; cases h1
    rw [ha] at h2; cases h2

/-- Every target is part of the plan. -/
theorem c11_targets_planned {cfg : PlannerConfig} {T : Tables} (hI : Input cfg T)
    {p : Plan} (h : planInternal cfg T = .ok p) {s : Str} (hs : s ∈ dkeys cfg.targets) :
    ∃ k q, k.str = s ∧ Planned p k q := by
  obtain ⟨ign, pass, T₁, T₂, found, ord, hp⟩ := planning hI h
  obtain ⟨k, hk, e⟩ := hp.shape.order.targets_mem s hs
  obtain ⟨q, hq⟩ := hp.planned_iff.2 (List.mem_append.2 (.inr hk))
  exact ⟨k, q, e, hq⟩

/-- `all` wins against a filter that accepts nothing. -/
example : planExec { targets := [(str! "s.u", { all := true, percent := some 0, in_ := [(str! "id", [])] })] } exTables exSrc [str! "s.u"] = .ok (.ok
    [((str! "s", str! "u"), [[(str! "id", .int 1)], [(str! "id", .int 2)]])]) := by decide +kernel

/-- The missing part of C11 is false: `amount` cuts off a target with `all`. -/
theorem c11_amount_not_overridden :
    planExec { targets := [(str! "s.u", { all := true, amount := some 1 })] } exTables exSrc
      [str! "s.u"] = .ok (.ok [((str! "s", str! "u"), [[(str! "id", .int 1)]])]) := by decide +kernel

/-! ### C12 -/

/-- C12 for tables that are neither target nor passthrough: sampled rows satisfy the constraints.
Missing: targets and passthrough tables. -/
theorem c12_constraints_partial {cfg : PlannerConfig} {T : Tables} (hI : Input cfg T)
    {p : Plan} (h : planInternal cfg T = .ok p)
    {E : Engine} {Ts : Tables} {src S : Key → List Row} (hpk : PkOK Ts src)
    (hS : IsSample E Ts src p S) {k : Key} (hk : ∃ q, Planned p k q) (hnp : k.str ∉ p.passthrough)
    (hnt : k.str ∉ dkeys cfg.targets) :
    ∀ r ∈ S k, MeetsConstraints E ((dget cfg.tableConstraints k.str).getD []) r := by
  obtain ⟨ign, pass, T₁, T₂, found, ord, hp⟩ := planning hI h
  have hko := (hp.sampled_iff (hp.planned_iff.1 hk)).1 hnp
  obtain ⟨pre, post, he⟩ := List.append_of_mem hko
  intro r hr
  rcases hp.shape.rows_cases hp.ok hpk hS he with ⟨-, -, h1⟩ | ⟨-, -, -, h1, -⟩ | ⟨-, x, h1, -⟩ |
    ⟨-, x, h1, -⟩
  · rw [h1] at hr
    have := (List.mem_filter.1 hr).2
    simp only [decide_eq_true_eq] at this
    exact this.2
  · rw [h1]; intro c hc; cases hc
  · exact absurd (dget_isSome_iff.1 (by rw [h1]; rfl)) hnt
  · exact absurd (dget_isSome_iff.1 (by rw [h1]; rfl)) hnt

/-- The missing part of C12 is false: constraints on a target are ignored. -/
theorem c12_target_constraints_ignored :
    planExec { targets := [(str! "s.u", { all := true })], tableConstraints := [(str! "s.u", [⟨str! "id", .eq, .int 1⟩])] } exTables exSrc
      [str! "s.u"] = .ok (.ok
      [((str! "s", str! "u"), [[(str! "id", .int 1)], [(str! "id", .int 2)]])]) := by decide +kernel

/-- Constraints on a table sampled because others refer to it are rejected. -/
example : planError (planInternal { targets := [(str! "s.o", { all := true })], tableConstraints := [(str! "s.u", [⟨str! "id", .eq, .int 1⟩])] } exTables) = some (.constraintReverse (str! "s", str! "u")) := by decide +kernel

/-! ### C13 -/

/-- C13: every configured passthrough table that exists is planned, is copied in full, and refers to
passthrough tables only. -/
theorem c13_passthrough {cfg : PlannerConfig} {T : Tables} (hI : Input cfg T)
    {p : Plan} (h : planInternal cfg T = .ok p)
    {k : Key} (hk : Named cfg.passthrough k) (hin : (dget T k).isSome) :
    (∃ q, Planned p k q) ∧ k.str ∈ p.passthrough ∧
      (∀ b, UsedRef cfg T k b → Named cfg.passthrough b ∧ (dget T b).isSome) ∧
      ∀ (E : Engine) (Ts : Tables) (src S : Key → List Row), IsSample E Ts src p S → S k = src k := by
  obtain ⟨ign, pass, T₁, T₂, found, ord, hp⟩ := planning hI h
  have hf : k ∈ found := hp.mem_found.2 ⟨(hp.pass_iff k).2 hk, hp.isSome_iff.2 hin⟩
  refine ⟨hp.planned_iff.2 (List.mem_append.2 (.inl hf)), ?_, ?_, ?_⟩
  · rw [hp.shape.passthrough]; exact List.mem_map_of_mem hf
  · rintro b ⟨fk, hu⟩
    obtain ⟨t, h1, h2, h3⟩ := (hp.used _ _ _).2 hu
    have := hp.shape.found_fks k t hf (hp.ok.get.2 h1) fk h2
    rw [show fk.dst = b from h3] at this
    exact ⟨(hp.pass_iff b).1 this, hp.isSome_iff.1 (hp.shape.closed k fk b ⟨t, h1, h2, h3⟩)⟩
  · intro E Ts src S hS
    exact hp.shape.rows_pass hp.ok hS hf

/-- A passthrough table referring to another table is rejected. -/
example : planError (planInternal { passthrough := [str! "s.o"] } exTables) = some (.passthroughFk (str! "s", str! "o") (str! "s", str! "u")) := by decide +kernel

/-- With the referenced table also passthrough, both are copied. -/
example : planExec { passthrough := [str! "s.o", str! "s.u"] } exTables exSrc
    [str! "s.u", str! "s.o"] = .ok (.ok
    [((str! "s", str! "u"), [[(str! "id", .int 1)], [(str! "id", .int 2)]]),
     ((str! "s", str! "o"), [[(str! "id", .int 7), (str! "uid", .int 1)],
       [(str! "id", .int 8), (str! "uid", .int 2)]])]) := by decide +kernel

/-! ### C14 -/

/-- C14: ignored tables are not planned (unless they are also passthrough); with
`include_dependencies` no table that is not ignored refers to an ignored one. -/
theorem c14_ignored {cfg : PlannerConfig} {T : Tables} (hI : Input cfg T)
    {p : Plan} (h : planInternal cfg T = .ok p) :
    (∀ k q, Planned p k q → Named cfg.ignore k → Named cfg.passthrough k) ∧
    (cfg.includeDependencies = true → ∀ a b, UsedRef cfg T a b → ¬ Named cfg.ignore a →
      ¬ Named cfg.ignore b) := by
  obtain ⟨ign, pass, T₁, T₂, found, ord, hp⟩ := planning hI h
  refine ⟨fun k q hq hi => ?_, fun hinc a b hab ha hb => ?_⟩
  · rcases List.mem_append.1 (hp.planned_iff.1 ⟨q, hq⟩) with hk | hk
    · exact (hp.pass_iff k).1 (hp.mem_found.1 hk).1
    · exact absurd ((hp.ign_iff k).2 hi) (hp.shape.order.avail k hk).2.2
  · have hc := hp.shape.ignoreCheck hinc
    rcases checkIgnore_iff (ign := ign) (ts := T₁.map Prod.snd) with ⟨-, h1⟩ | ⟨t, -, fk, -, -, -, h1⟩
    · obtain ⟨fk, t, h2, h3, h4⟩ := hp.ref_iff.2 hab
      have hkey : t.key = a := hp.ok.key_eq a t h2
      have := h1 t (List.mem_map_of_mem (f := Prod.snd) h2)
        (by rw [hkey]; exact fun hm => ha ((hp.ign_iff a).1 hm)) fk h3
      rw [show fk.dst = b from h4] at this
      exact this ((hp.ign_iff b).2 hb)
    · rw [hc] at h1; cases h1

example : planError (planInternal { targets := [(str! "s.o", { all := true })], ignore := [str! "s.u"] } exTables) = some (.ignoredFk (str! "s", str! "o") (str! "s", str! "u")) := by decide +kernel

/-- Ignoring the referring table is fine: it is left out. -/
example : planExec { targets := [(str! "s.u", { all := true })], ignore := [str! "s.o"] } exTables
    exSrc [str! "s.u", str! "s.o"] = .ok (.ok
    [((str! "s", str! "u"), [[(str! "id", .int 1)], [(str! "id", .int 2)]])]) := by decide +kernel

/-! ### C15 -/

/-- C15: the keys after `infer_foreign_keys`, `ignore_fks` and `extra_fks` are exactly those
specified, and nothing else about the tables changes. -/
theorem c15_rewritten_keys {cfg : PlannerConfig} {T T' : Tables} (hI : Input cfg T)
    (h : rewriteFks cfg T = .ok T') :
    (∀ a fk b, HasFk T' a fk b ↔ UsedFk cfg T a fk b) ∧ T'.map Prod.fst = T.map Prod.fst ∧
      ∀ k t', dget T' k = some t' → ∃ t, dget T k = some t ∧
        t = { t' with foreignKeys := t.foreignKeys } := by
  obtain ⟨h1, h2⟩ := rewriteFks_ok hI.tables hI.extra h
  refine ⟨rewriteFks_used hI.tables hI.extra h, h2.keys, fun k t' ht => ?_⟩
  obtain ⟨t, h3, h4⟩ := h2.same k t' ht
  exact ⟨t, h3, by rw [h4]⟩

/-- C15 without inference, in the words of the property. -/
theorem c15_ignore_extra {cfg : PlannerConfig} {T T' : Tables} (hI : Input cfg T)
    (hinf : cfg.infer = .none) (h : rewriteFks cfg T = .ok T') (a : Key) (fk : ForeignKey) (b : Key) :
    HasFk T' a fk b ↔ (HasFk T a fk b ∧ ¬ IgnoredFk cfg a b) ∨ ExtraKey cfg T a fk b := by
  rw [(c15_rewritten_keys hI h).1]
  unfold UsedFk
  simp [hinf, InferMode.everywhere]

/-- Only malformed names make this step fail. -/
theorem c15_fails_only_on_bad_names {cfg : PlannerConfig} {T : Tables} {e : PlanErr}
    (h : rewriteFks cfg T = .error e) : e = .badName := rewriteFks_error h

/-- The key of orders is dropped, a key from users to orders is added, an entry naming an unknown
column is skipped. -/
def exRewrite : PlannerConfig where
  ignoreFks := [(str! "s.o", str! "s.u")]
  extraFks := [⟨str! "s.u", [str! "id"], str! "s.o", [str! "uid"]⟩,
    ⟨str! "s.u", [str! "nope"], str! "s.o", [str! "uid"]⟩]

example : Input exRewrite exTables := by
  refine ⟨exTables_ok, ?_, by decide⟩
  intro x hx
  simp only [exRewrite, List.mem_cons, List.not_mem_nil, or_false] at hx
  rcases hx with rfl | rfl <;> exact ⟨by simp, rfl, by simp, by simp⟩

example : (rewriteFks exRewrite exTables).toOption.map (fun T => T.map fun p => p.2.foreignKeys) =
    some [[], [⟨[str! "id"], str! "s", str! "o", [str! "uid"]⟩]] := by decide +kernel

/-! ### C16 -/

/-- C16 is false: without `include_dependencies` any reference of a loaded table to a table that is
not loaded makes planning fail. -/
theorem c16_open_reference_fails {cfg : PlannerConfig} {T : Tables} (hI : Input cfg T) {a b : Key}
    {fk : ForeignKey} (hfk : UsedFk cfg T a fk b) (hb : (dget T b).isSome = false) :
    ∀ p, planInternal cfg T ≠ .ok p := by
  intro p h
  obtain ⟨ign, pass, T₁, T₂, found, ord, hp⟩ := planning hI h
  have := hp.isSome_iff.1 (hp.shape.closed a fk b ((hp.used _ _ _).2 hfk))
  rw [hb] at this; cases this

/-- A concrete instance: planning orders alone raises `KeyError`. -/
theorem c16_key_error :
    planError (planInternal { targets := [(str! "s.o", { all := true })], includeDependencies := false }
      [((str! "s", str! "o"), exTableO)]) = some .keyError := by decide +kernel

/-- The part of C16 that holds: if the keys the planner uses refer to loaded tables only (say because
the others are listed in `ignore_fks`), only the documented checks can fail. -/
theorem c16_closed_selection_partial {cfg : PlannerConfig} {T : Tables} (hI : Input cfg T)
    (hcl : ∀ a fk b, UsedFk cfg T a fk b → (dget T b).isSome) :
    (∃ p, planInternal cfg T = .ok p) ∨ ∃ e, planInternal cfg T = .error e ∧ (e = .badName ∨
      ∃ ign pass, (∀ k, k ∈ ign ↔ Named cfg.ignore k) ∧
      (∀ k, k ∈ pass ↔ Named cfg.passthrough k) ∧ Cause cfg ign pass T (UsedRef cfg T) e) := by
  cases h : planInternal cfg T with
  | ok p => exact .inl ⟨p, rfl⟩
  | error e => exact .inr ⟨e, rfl, planInternal_error hI hcl h⟩

/-- With the open reference ignored, planning succeeds. -/
example : (planInternal { targets := [(str! "s.o", { all := true })], includeDependencies := false, ignoreFks := [(str! "s.o", str! "s.u")] } [((str! "s", str! "o"), exTableO)]).toOption.isSome =
    true := by decide +kernel

/-! ### C17 -/

/-- C17: inference keeps the keys of each table and adds exactly the documented ones that are not
present yet, each once. -/
theorem c17_inference_exact {T : Tables} (hT : TablesOK T) (everywhere : Bool) {a : Key}
    {t : TableMeta} (ht : dget T a = some t) :
    ∃ added, dget (inferMissing everywhere T) a =
        some { t with foreignKeys := t.foreignKeys ++ added } ∧
      (∀ fk, fk ∈ added ↔ fk ∉ t.foreignKeys ∧ ∃ b, Inferred T everywhere a fk b) ∧
      (t.columns.Nodup → added.Nodup) := by
  refine ⟨_, by rw [inferMissing_get, ht]; rfl, fun fk => mem_inferredFks hT (hT.get.1 ht), ?_⟩
  intro hnd
  unfold inferredFks
  refine List.Nodup.filterMap ?_ hnd
  intro c c' fk h1 h2
  have key : ∀ {c : Str} {fk : ForeignKey}, fk ∈ (match dget (pkMapLoop everywhere (T.map Prod.snd) [])
      (keyPk everywhere t.schema [c]) with
    | some (some dst) =>
      if dst ≠ t.key ∧ (⟨[c], dst.1, dst.2, [c]⟩ : ForeignKey) ∉ t.foreignKeys then
        some (⟨[c], dst.1, dst.2, [c]⟩ : ForeignKey) else none
    | _ => none) → fk.columns = [c] := by
    intro c fk h
    split at h
    · split at h
      · simp only [Option.mem_def, Option.some.injEq] at h; subst h; rfl
      · cases h
    · cases h
  have e1 := key (c := c) (fk := fk) h1
  have e2 := key (c := c') (fk := fk) h2
  rw [e1] at e2
  exact List.head_eq_of_cons_eq e2

/-- Users have a single-column key `uid`; orders have a column `uid` but no foreign key. -/
def exInfer : Tables := [((str! "s", str! "o"),
    { schema := str! "s", name := str! "o", columns := [str! "id", str! "uid"], primaryKey := [str! "id"] }),
  ((str! "s", str! "u"),
    { schema := str! "s", name := str! "u", columns := [str! "uid"], primaryKey := [str! "uid"] }),
  ((str! "r", str! "v"),
    { schema := str! "r", name := str! "v", columns := [str! "uid"], primaryKey := [str! "uid"] })]

/-- Within the schema the key is inferred; across schemas `uid` is ambiguous. -/
example : (inferMissing false exInfer).map (fun p => p.2.foreignKeys) =
      [[⟨[str! "uid"], str! "s", str! "u", [str! "uid"]⟩], [], []] ∧
    (inferMissing true exInfer).map (fun p => p.2.foreignKeys) = [[], [], []] := by decide +kernel

/-! ### C18 -/

/-- C18: the loaded tables are those matching a pattern and those reachable from these, each once;
the additional tables are those that match no pattern. -/
theorem c18_selection_closure {fnmatch : Str → Str → Bool} {db : Dict Str TableMeta} (hdb : DbOK db)
    (hcl : DbClosed db) (select : List Str) (fwd bwd : Bool) :
    ∃ l, fromEngine fnmatch db select fwd bwd = some (some l) ∧ (l.tables.map Prod.fst).Nodup ∧
      (∀ k t, (k, t) ∈ l.tables → (∃ n, (n, t) ∈ db) ∧ (t.schema, t.name) = k) ∧
      (∀ k, k ∈ l.tables.map Prod.fst ↔
        ∃ s, Selected fnmatch db select s ∧ Relation.ReflTransGen (Pulls db fwd bwd) s k) ∧
      ∀ k, k ∈ l.extra ↔ k ∈ l.tables.map Prod.fst ∧ ¬ Selected fnmatch db select k := by
  rcases fromEngine_spec (fnmatch := fnmatch) hdb select fwd bwd with
    ⟨l, h1, h2, h3, h4, h5⟩ | ⟨h1, s, k, h2, h3, h4⟩
  · refine ⟨l, h1, h2, h4, h5, fun k => ?_⟩
    rw [h3] at h2 ⊢
    have hnd := List.nodup_append.1 h2
    rw [List.mem_append, mem_selectedKeys]
    constructor
    · intro hk
      exact ⟨.inr hk, fun hs => hnd.2.2 k (mem_selectedKeys.2 hs) k hk rfl⟩
    · rintro ⟨h6 | h6, h7⟩
      · exact absurd h6 h7
      · exact h6
  · exfalso
    apply h4
    rcases Relation.ReflTransGen.cases_tail h3 with h | ⟨c, -, h⟩
    · subst h
      obtain ⟨n, t, h5, h6, -⟩ := h2
      exact ⟨n, t, h5, h6⟩
    · rcases h with ⟨-, h⟩ | ⟨-, n, t, fk, h5, h6, -⟩
      · exact hcl _ _ h
      · exact ⟨n, t, h5, h6⟩

/-- The database of the examples. -/
def exDb : Dict Str TableMeta := [(str! "s.o", exTableO), (str! "s.u", exTableU)]

theorem exDb_ok : DbOK exDb := by
  refine ⟨by decide, ?_, ?_, ?_, ?_⟩ <;> intro n t h <;>
    simp only [exDb, List.mem_cons, Prod.mk.injEq, List.not_mem_nil, or_false] at h <;>
    rcases h with ⟨rfl, rfl⟩ | ⟨rfl, rfl⟩ <;> decide

theorem exDb_closed : DbClosed exDb := by
  rintro a b ⟨n, t, fk, h, rfl, h2, rfl⟩
  simp only [exDb, List.mem_cons, Prod.mk.injEq, List.not_mem_nil, or_false] at h
  rcases h with ⟨rfl, rfl⟩ | ⟨rfl, rfl⟩
  · simp only [exTableO, List.mem_singleton] at h2
    subst h2
    exact ⟨_, exTableU, .tail _ (.head _), rfl⟩
  · simp [exTableU] at h2

/-- Selecting orders pulls in users; selecting users pulls in orders only backwards. -/
example : (fromEngine (fun a b => decide (a = b)) exDb [str! "s.o"] true false).map
      (Option.map fun l => (l.tables.map Prod.fst, l.extra)) =
        some (some ([(str! "s", str! "o"), (str! "s", str! "u")], [(str! "s", str! "u")])) ∧
    (fromEngine (fun a b => decide (a = b)) exDb [str! "s.u"] true false).map
      (Option.map fun l => (l.tables.map Prod.fst, l.extra)) = some (some ([(str! "s", str! "u")], [])) ∧
    (fromEngine (fun a b => decide (a = b)) exDb [str! "s.u"] false true).map
      (Option.map fun l => (l.tables.map Prod.fst, l.extra)) =
        some (some ([(str! "s", str! "u"), (str! "s", str! "o")], [(str! "s", str! "o")])) := by
  decide +kernel

/-! ### C19 -/

/-- C19: planning from a database with `include_dependencies` returns a plan or one of the
documented errors, the latter with its cause; never an assertion, lookup or index error. -/
theorem c19_no_internal_error {fnmatch : Str → Str → Bool} {db : Dict Str TableMeta} (hdb : DbOK db)
    (hcl : DbClosed db) {cfg : PlannerConfig} (hinc : cfg.includeDependencies = true)
    (hx : ∀ x ∈ cfg.extraFks, x.Valid) (hn : [] ∉ dkeys cfg.targets) :
    (∃ p, plan fnmatch db cfg = .ok p) ∨
    (plan fnmatch db cfg = .error .badName) ∨
    ∃ l e ign pass, fromEngine fnmatch db (cfg.select ++ cfg.passthrough) true false = some (some l) ∧
      plan fnmatch db cfg = .error e ∧ (∀ k, k ∈ ign ↔ Named cfg.ignore k) ∧
      (∀ k, k ∈ pass ↔ Named cfg.passthrough k) ∧
      Cause cfg ign pass l.tables (UsedRef cfg l.tables) e := by
  obtain ⟨l, h1, -⟩ := c18_selection_closure (fnmatch := fnmatch) hdb hcl
    (cfg.select ++ cfg.passthrough) true false
  obtain ⟨h2, h3⟩ := loaded_ok hdb h1
  have hI : Input cfg l.tables := ⟨h2, hx, hn⟩
  have hpl : plan fnmatch db cfg = planInternal cfg l.tables := by
    unfold plan; rw [hinc, h1]
  rw [hpl]
  cases h : planInternal cfg l.tables with
  | ok p => exact .inl ⟨p, rfl⟩
  | error e =>
    right
    rcases planInternal_error hI (fun a fk b hu => usedFk_closed h2 (h3 rfl) hu) h with
      rfl | ⟨ign, pass, h4, h5, h6⟩
    · exact .inl rfl
    · exact .inr ⟨l, e, ign, pass, h1, rfl, h4, h5, h6⟩

/-- C19: no internal error. -/
theorem c19_errors_documented {fnmatch : Str → Str → Bool} {db : Dict Str TableMeta} (hdb : DbOK db)
    (hcl : DbClosed db) {cfg : PlannerConfig} (hinc : cfg.includeDependencies = true)
    (hx : ∀ x ∈ cfg.extraFks, x.Valid) (hn : [] ∉ dkeys cfg.targets) {e : PlanErr}
    (h : plan fnmatch db cfg = .error e) :
    e ≠ .keyError ∧ e ≠ .assertion ∧ e ≠ .index ∧ e ≠ .fuel := by
  rcases c19_no_internal_error (fnmatch := fnmatch) hdb hcl hinc hx hn with
    ⟨p, h1⟩ | h1 | ⟨l, e', ign, pass, -, h1, -, -, h2⟩
  · rw [h] at h1; cases h1
  · rw [h] at h1; cases h1; simp
  · rw [h] at h1; cases h1
    cases e <;> simp [Cause] at h2 ⊢

/-- Both outcomes occur: a plan, and a cycle through a self-reference. -/
example : (plan (fun a b => decide (a = b)) exDb { exCfg with select := [str! "s.o"] }).toOption.isSome =
      true ∧
    planError (plan (fun a b => decide (a = b)) exDb { exCfg with select := [str! "s.o"], extraFks := [⟨str! "s.u", [str! "id"], str! "s.o", [str! "id"]⟩] }) = some (.cycle [str! "s.o", str! "s.u"]) := by
  decide +kernel

/-- The hypothesis on target names is needed: a target with the empty name, which names no table, is
accepted without the error for unknown targets. -/
theorem c19_empty_target_name_accepted :
    (planInternal { targets := [([], { all := true }), (str! "s.u", { all := true })] }
      exTables).toOption.isSome = true := by decide +kernel

end Subsetter.Props
