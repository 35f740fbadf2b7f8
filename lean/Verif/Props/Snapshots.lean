import Verif.Model.Snapshots
import Verif.Spec.Snapshots
import Verif.Proofs.Snapshots
import Verif.Proofs.PlanUses
import Verif.Props.Planner

/-
Property C48: sampling while the source changes.
-/
namespace Subsetter.Props
open Subsetter Spec

/-- C48 in full: whatever is committed between the statements, as long as the source satisfies its keys at all
times, so does what is written. It is false, see the counterexamples below. -/
def C48 : Prop :=
  ∀ (cfg : PlannerConfig) (T : Tables), Input cfg T → ∀ p, planInternal cfg T = .ok p →
    ∀ (E : Engine) (snap : Nat → Key → List Row), (∀ i, PkOK T (snap i)) →
    (∀ a fk b, UsedFk cfg T a fk b → FkHolds snap a fk b) →
    ∀ (ks : List Key), ks.Nodup → (∀ k ∈ ks, ∃ q, Planned p k q) →
    ∃ out, execPlanAt E T [] snap false p (ks.map Key.str) = .ok out ∧
      ∀ a fk b, UsedFk cfg T a fk b → WrittenFk out a fk b

theorem execPlanAt_run {cfg : PlannerConfig} {T : Tables} {p : Plan} {ign pass : List Key} {T₁ T₂ : Tables}
    {found ord : List Key} (hp : Planning cfg T p ign pass T₁ T₂ found ord) {Ts : Tables}
    (hTs : ∀ k q, Planned p k q → (dget Ts k).isSome) (E : Engine) (compact : Dict Key (List Str))
    (snap : Nat → Key → List Row) (reopen : Bool) {ks : List Key} (hnd : ks.Nodup)
    (hks : ∀ k ∈ ks, ∃ q, Planned p k q) :
    ∃ (S : Key → List Row) (τ : Key → Nat),
      (∀ k q, Planned p k q → S k = q.eval E (sampleEnv Ts (snap (τ k)) S)) ∧
      (∀ k d, Needs p k d → τ d < τ k) ∧
      execPlanAt E Ts compact snap reopen p (ks.map Key.str) = .ok (ks.map fun k => (k, S k)) := by
  have hok : PlanOK Ts p := hp.shape.planOK hp.ok fun k hk => by
    obtain ⟨q, hq⟩ := hp.planned_iff.2 hk; exact hTs k q hq
  exact execPlanAt_spec hok (hp.shape.acyclic hp.ok) E compact snap reopen hnd fun k hk =>
    ⟨parse_of_nodot (hp.nodot (hp.planned_iff.1 (hks k hk))), hks k hk⟩

/-- A run over a changing source never fails, and a row written for `a` refers to a row written for every table
`b` listed before `a` and not passthrough: such rows are selected by joining the rows already fixed. -/
theorem c48_earlier_tables {cfg : PlannerConfig} {T : Tables} (hI : Input cfg T)
    {p : Plan} (h : planInternal cfg T = .ok p) {E : Engine} {Ts : Tables} {snap : Nat → Key → List Row}
    (hpk : ∀ i, PkOK Ts (snap i)) (hTs : ∀ k q, Planned p k q → (dget Ts k).isSome)
    (compact : Dict Key (List Str)) (reopen : Bool) {ks : List Key} (hnd : ks.Nodup)
    (hks : ∀ k ∈ ks, ∃ q, Planned p k q) :
    ∃ out, execPlanAt E Ts compact snap reopen p (ks.map Key.str) = .ok out ∧ out.map Prod.fst = ks ∧
      ∀ a fk b ra rb, UsedFk cfg T a fk b → Earlier p b a → (a, ra) ∈ out → (b, rb) ∈ out →
        ∀ r ∈ ra, ∃ m ∈ rb, Refers fk.columns fk.dstColumns r m := by
  obtain ⟨ign, pass, T₁, T₂, found, ord, hp⟩ := planning hI h
  obtain ⟨S, τ, h1, -, h2⟩ := execPlanAt_run hp hTs E compact snap reopen hnd hks
  refine ⟨_, h2, by simp [Function.comp_def], ?_⟩
  intro a fk b ra rb hu hab hra hrb r hr
  obtain ⟨a', ha, e1⟩ := List.mem_map.1 hra
  obtain ⟨b', hb, e2⟩ := List.mem_map.1 hrb
  cases e1; cases e2
  have hb' := hp.planned_iff.1 (hks _ hb)
  have hao : a ∈ ord := by
    refine (List.mem_append.1 (hp.planned_iff.1 (hks _ ha))).resolve_left fun hf => ?_
    obtain ⟨t, h3, h4, h5⟩ := (hp.used a fk b).2 hu
    have h6 := hp.shape.found_fks a t hf (hp.ok.get.2 h3) fk h4
    have hbf : b ∈ found := by
      rw [hp.shape.found_eq]
      refine List.mem_filter.2 ⟨?_, hp.shape.closed a fk b ⟨t, h3, h4, h5⟩⟩
      rw [← h5]; exact h6
    have hbs := (hp.sampled_iff hb').1 (by obtain ⟨_, _, _, _, h7⟩ := hab; exact h7)
    exact (List.nodup_append.1 hp.shape.nodup).2.2 b hbf b hbs rfl
  obtain ⟨pre, post, he⟩ := List.append_of_mem hao
  have hbpre := (hp.earlier_iff he (hp.nodot hb')).1 hab
  have href : ∃ v ∈ pre, Ref T₁ a v := ⟨b, hbpre, fk, (hp.used a fk b).2 hu⟩
  rcases hp.shape.rows_cases_at hp.ok (hpk (τ a)) (h1 a) he with ⟨-, -, h3⟩ | ⟨h3, -⟩ | ⟨h3, -⟩ | ⟨h3, -⟩
  · rw [h3] at hr
    have := (List.mem_filter.1 hr).2
    simp only [decide_eq_true_eq] at this
    exact this.1 fk b ((hp.used a fk b).2 hu) hbpre
  all_goals exact absurd href h3

/-- C48 as far as it holds: if the source satisfies the key from `a` to `b` at all times and referenced values are
not removed, what is written satisfies the key. Missing: referenced rows that disappear; passthrough tables and
targets with `all` or without `amount`, which are read without regard to the rows referring to them. -/
theorem c48_growing_source_partial {cfg : PlannerConfig} {T : Tables} (hI : Input cfg T)
    {p : Plan} (h : planInternal cfg T = .ok p) {E : Engine} {Ts : Tables} {snap : Nat → Key → List Row}
    (hpk : ∀ i, PkOK Ts (snap i)) (hTs : ∀ k q, Planned p k q → (dget Ts k).isSome)
    (compact : Dict Key (List Str)) (reopen : Bool) {ks : List Key} (hnd : ks.Nodup)
    (hks : ∀ k ∈ ks, ∃ q, Planned p k q) :
    ∃ out, execPlanAt E Ts compact snap reopen p (ks.map Key.str) = .ok out ∧ out.map Prod.fst = ks ∧
      ∀ a fk b, UsedFk cfg T a fk b → FkHolds snap a fk b → KeysStay snap b fk.dstColumns →
        ¬ Named cfg.passthrough b →
        (∀ x, dget cfg.targets b.str = some x → x.all = false ∧ x.amount ≠ none) → WrittenFk out a fk b := by
  obtain ⟨ign, pass, T₁, T₂, found, ord, hp⟩ := planning hI h
  obtain ⟨S, τ, h1, hτ, h2⟩ := execPlanAt_run hp hTs E compact snap reopen hnd hks
  refine ⟨_, h2, by simp [Function.comp_def], ?_⟩
  intro a fk b hu hfk hstay hnp hx ra rb hra hrb r hr hnn
  obtain ⟨a', ha, e1⟩ := List.mem_map.1 hra
  obtain ⟨b', hb, e2⟩ := List.mem_map.1 hrb
  cases e1; cases e2
  have hf := (hp.used a fk b).2 hu
  have ha := hp.planned_iff.1 (hks _ ha)
  have hb := hp.planned_iff.1 (hks _ hb)
  have hbf : b ∉ found := fun h => hnp ((hp.pass_iff b).1 (hp.mem_found.1 h).1)
  have hbo := (List.mem_append.1 hb).resolve_left hbf
  rcases List.mem_append.1 ha with ha | hao
  · obtain ⟨t, h3, h4, h5⟩ := hf
    have := hp.shape.found_fks a t ha (hp.ok.get.2 h3) fk h4
    refine absurd ?_ hbf
    rw [hp.shape.found_eq]
    refine List.mem_filter.2 ⟨?_, hp.shape.closed a fk b ⟨t, h3, h4, h5⟩⟩
    rw [← h5]; exact this
  have hab : a ≠ b := by
    rintro rfl
    exact hp.shape.order.noself a hao ⟨fk, hf⟩
  obtain ⟨pre, post, he⟩ := List.append_of_mem hbo
  by_cases hpre : a ∈ pre
  · have hlt := hτ b a (hp.shape.needs_back hp.ok he hpre ⟨fk, hf⟩ hx)
    have href : ∃ v ∈ pre, Ref T₁ v b := ⟨a, hpre, fk, hf⟩
    have hsub : r ∈ snap (τ a) a := hp.shape.sample_subset_at hp.ok (hpk _) (h1 a) ha hr
    obtain ⟨m₀, hm₀, hr₀⟩ := hfk (τ a) r hsub hnn
    obtain ⟨m, hm, hmc⟩ := hstay _ _ hlt.le m₀ hm₀
    have hrm : Refers fk.columns fk.dstColumns r m := fun p hp' => by
      obtain ⟨h3, h4⟩ := hr₀ p hp'
      exact ⟨h3, h4.trans (hmc p.2 (List.of_mem_zip hp').2).symm⟩
    have hrel : RelatedBack T₁ S pre b m := ⟨a, hpre, fk, hf, r, hr, hrm⟩
    rcases hp.shape.rows_cases_at hp.ok (hpk (τ b)) (h1 b) he with ⟨h0, -⟩ | ⟨-, -, -, -, h3⟩ | ⟨-, x, h0, h3, -⟩ |
      ⟨-, x, h0, -, -, -, ⟨h3, -⟩ | ⟨-, h3⟩⟩
    · rcases hp.shape.order.dir pre b post he with ⟨-, h3⟩ | ⟨-, -, h3⟩
      · exact absurd h0 h3
      · exact absurd href h3
    · refine ⟨m, ?_, hrm⟩
      rw [h3]; exact List.mem_filter.2 ⟨hm, by simpa using hrel⟩
    · rcases h3 with h3 | h3
      · have := (hx x h0).1
        rw [h3] at this
        cases this
      · exact absurd href h3
    · exact absurd h3 (hx x h0).2
    · exact ⟨m, (h3 m).2 (.inl ⟨hm, hrel⟩), hrm⟩
  · have hpost : a ∈ post := by
      rw [he] at hao
      rcases List.mem_append.1 hao with h | h
      · exact absurd h hpre
      · exact (List.mem_cons.1 h).resolve_left hab
    obtain ⟨p1, p2, hpost⟩ := List.append_of_mem hpost
    have he' : ord = (pre ++ b :: p1) ++ a :: p2 := by rw [he, hpost]; simp
    have hbin : b ∈ pre ++ b :: p1 := by simp
    rcases hp.shape.rows_cases_at hp.ok (hpk (τ a)) (h1 a) he' with ⟨-, -, h3⟩ | ⟨h3, -⟩ | ⟨h3, -⟩ | ⟨h3, -⟩
    · rw [h3] at hr
      have := (List.mem_filter.1 hr).2
      simp only [decide_eq_true_eq] at this
      exact this.1 fk b hf hbin
    all_goals exact absurd ⟨b, hbin, fk, hf⟩ h3

/-- If nothing is committed in the meantime, the run is the one of C07. -/
theorem c48_constant_source (E : Engine) (T : Tables) (compact : Dict Key (List Str)) (src : Key → List Row)
    (reopen : Bool) (p : Plan) (names : List Str) :
    execPlanAt E T compact (fun _ => src) reopen p names = execPlan E T compact src reopen p names :=
  execPlanAt_const E T compact src reopen p names

/-! ### Examples: orders refer to users -/

/-- Plan and execute over a changing source. -/
def planExecAt (cfg : PlannerConfig) (T : Tables) (snap : Nat → Key → List Row) (names : List Str) :
    Except PlanErr (Except ExecErr (List (Key × List Row))) :=
  match planInternal cfg T with
  | .error e => .error e
  | .ok p => .ok (execPlanAt exEngine T [] snap false p names)

/-- Rows of users and orders. -/
def sxRows (us os : List Row) : Key → List Row := fun k =>
  if k = (str! "s", str! "u") then us else if k = (str! "s", str! "o") then os else []

def sxUser (i : Int) : Row := [(str! "id", .int i)]
def sxOrder (i u : Int) : Row := [(str! "id", .int i), (str! "uid", .int u)]

/-- After the first statement, user 3 and an order of this user are added. -/
def sxGrow : Nat → Key → List Row
  | 0 => sxRows [sxUser 1, sxUser 2] [sxOrder 7 1, sxOrder 8 2]
  | _ => sxRows [sxUser 1, sxUser 2, sxUser 3] [sxOrder 7 1, sxOrder 8 2, sxOrder 9 3]

/-- After the first statement, user 1 is deleted with all orders. -/
def sxShrink : Nat → Key → List Row
  | 0 => sxRows [sxUser 1, sxUser 2] [sxOrder 7 1, sxOrder 8 2]
  | _ => sxRows [sxUser 2] [sxOrder 8 2]

def sxFk : ForeignKey := ⟨[str! "uid"], str! "s", str! "u", [str! "id"]⟩

theorem sx_used {cfg : PlannerConfig} (h1 : cfg.infer = .none) (h2 : cfg.extraFks = []) {a fk b}
    (h : UsedFk cfg exTables a fk b) : a = (str! "s", str! "o") ∧ fk = sxFk ∧ b = (str! "s", str! "u") := by
  rcases h with ⟨h | ⟨e, h, -⟩, -⟩ | ⟨x, hx, -⟩
  · obtain ⟨t, h3, h4, h5⟩ := h
    simp only [exTables, List.mem_cons, Prod.mk.injEq, List.not_mem_nil, or_false] at h3
    rcases h3 with ⟨rfl, rfl⟩ | ⟨rfl, rfl⟩
    · simp only [exTableO, List.mem_singleton] at h4
      subst h4
      exact ⟨rfl, rfl, h5.symm⟩
    · simp [exTableU] at h4
  · rw [h1] at h; cases h
  · rw [h2] at hx; cases hx

theorem sx_pk {us os : List Row} (h1 : (us.map fun r => [r.get (str! "id")]).Nodup)
    (h2 : (os.map fun r => [r.get (str! "id")]).Nodup) : PkOK exTables (sxRows us os) := by
  intro k t h _
  have := exTables_ok.get.1 h
  simp only [exTables, List.mem_cons, Prod.mk.injEq, List.not_mem_nil, or_false] at this
  rcases this with ⟨rfl, rfl⟩ | ⟨rfl, rfl⟩
  · exact h2
  · exact h1

theorem sxGrow_pk : ∀ i, PkOK exTables (sxGrow i)
  | 0 => sx_pk (by decide +kernel) (by decide +kernel)
  | _ + 1 => sx_pk (by decide +kernel) (by decide +kernel)

theorem sxShrink_pk : ∀ i, PkOK exTables (sxShrink i)
  | 0 => sx_pk (by decide +kernel) (by decide +kernel)
  | _ + 1 => sx_pk (by decide +kernel) (by decide +kernel)

/-- A decidable form of the key. -/
theorem sx_fk {us os : List Row}
    (h : ∀ r ∈ os, r.get (str! "uid") = .null ∨ ∃ m ∈ us, r.get (str! "uid") = m.get (str! "id")) :
    ∀ r ∈ sxRows us os (str! "s", str! "o"), (∀ c ∈ sxFk.columns, r.get c ≠ .null) →
      ∃ m ∈ sxRows us os (str! "s", str! "u"), Refers sxFk.columns sxFk.dstColumns r m := by
  intro r hr hn
  have hn' := hn (str! "uid") (by simp [sxFk])
  rcases h r hr with h | ⟨m, hm, h⟩
  · exact absurd h hn'
  · refine ⟨m, hm, ?_⟩
    intro p hp
    simp only [sxFk, List.zip_cons_cons, List.zip_nil_left, List.mem_singleton] at hp
    subst hp
    exact ⟨hn', h⟩

theorem sxGrow_fk : FkHolds sxGrow (str! "s", str! "o") sxFk (str! "s", str! "u")
  | 0 => sx_fk (by decide +kernel)
  | _ + 1 => sx_fk (by decide +kernel)

theorem sxShrink_fk : FkHolds sxShrink (str! "s", str! "o") sxFk (str! "s", str! "u")
  | 0 => sx_fk (by decide +kernel)
  | _ + 1 => sx_fk (by decide +kernel)

theorem sxGrow_stay : KeysStay sxGrow (str! "s", str! "u") sxFk.dstColumns := by
  intro i j hij m hm
  have h0 : ∀ m ∈ [sxUser 1, sxUser 2], m ∈ [sxUser 1, sxUser 2, sxUser 3] := by decide +kernel
  refine ⟨m, ?_, fun c _ => rfl⟩
  cases i with
  | zero =>
    cases j with
    | zero => exact hm
    | succ j => exact h0 m hm
  | succ i =>
    cases j with
    | zero => omega
    | succ j => exact hm

/-- The growing source meets the hypotheses of the theorem; orders of users 1 and 3 are asked for. Orders are read
first, users are read when user 3 exists, and the sample is consistent. -/
def sxCfg : PlannerConfig where
  targets := [(str! "s.o", { in_ := [(str! "uid", [.int 1, .int 3])] })]

example : planExecAt sxCfg exTables sxGrow [str! "s.u", str! "s.o"] = .ok (.ok
    [((str! "s", str! "u"), [sxUser 1]), ((str! "s", str! "o"), [sxOrder 7 1])]) := by decide +kernel

example {p : Plan} (h : planInternal sxCfg exTables = .ok p)
    (ho : ∃ q, Planned p (str! "s", str! "o") q) (hu : ∃ q, Planned p (str! "s", str! "u") q)
    (hTs : ∀ k q, Planned p k q → (dget exTables k).isSome) :
    ∃ out, execPlanAt exEngine exTables [] sxGrow false p [str! "s.u", str! "s.o"] = .ok out ∧
      WrittenFk out (str! "s", str! "o") sxFk (str! "s", str! "u") := by
  obtain ⟨out, h1, -, h2⟩ := c48_growing_source_partial (E := exEngine) (cfg := sxCfg)
    ⟨exTables_ok, (fun _ h => nomatch h), by decide⟩ h
    sxGrow_pk hTs [] false (ks := [(str! "s", str! "u"), (str! "s", str! "o")]) (by decide)
    (by intro k hk; simp only [List.mem_cons, List.not_mem_nil, or_false] at hk; rcases hk with rfl | rfl <;> assumption)
  refine ⟨out, h1, h2 _ _ _ ?_ sxGrow_fk sxGrow_stay ?_ ?_⟩
  · exact .inl ⟨.inl ⟨exTableO, by simp [exTables], by simp [exTableO, sxFk], rfl⟩, by rintro ⟨x, hx, -⟩; cases hx⟩
  · rintro ⟨n, hn, -⟩; cases hn
  · intro x hx
    have : dget sxCfg.targets (Key.str (str! "s", str! "u")) = none := by decide
    rw [this] at hx
    cases hx

/-- Rows deleted while sampling: order 7 is written, user 1 it refers to is not. -/
theorem c48_deleted_rows :
    planExecAt exCfg exTables sxShrink [str! "s.u", str! "s.o"] = .ok (.ok
      [((str! "s", str! "u"), []), ((str! "s", str! "o"), [sxOrder 7 1])]) := by decide +kernel

def sxPlanned : Except PlanErr Plan → Key → Bool
  | .ok p, k => (dget p.queries k.str).isSome
  | .error _, _ => false

/-- C48 is false: keys hold at all times, and the sample violates them. -/
theorem c48_fails : ¬ C48 := by
  intro h
  cases hp : planInternal exCfg exTables with
  | error e =>
    have := c48_deleted_rows
    unfold planExecAt at this
    rw [hp] at this
    cases this
  | ok p =>
    have hrun := c48_deleted_rows
    unfold planExecAt at hrun
    rw [hp] at hrun
    simp only [Except.ok.injEq] at hrun
    have hex : ∀ k ∈ ([(str! "s", str! "u"), (str! "s", str! "o")] : List Key), ∃ q, Planned p k q := by
      have hd : (∀ k ∈ ([(str! "s", str! "u"), (str! "s", str! "o")] : List Key), parseTableName k.str = some k ∧
          sxPlanned (planInternal exCfg exTables) k = true) := by decide +kernel
      intro k hk
      obtain ⟨h1, h2⟩ := hd k hk
      rw [hp] at h2
      obtain ⟨q, hq⟩ := Option.isSome_iff_exists.1 h2
      exact ⟨q, k.str, dget_some_mem hq, h1⟩
    obtain ⟨out, h1, h2⟩ := h exCfg exTables exCfg_input p hp exEngine sxShrink sxShrink_pk
      (by intro a fk b hu; obtain ⟨rfl, rfl, rfl⟩ := sx_used rfl rfl hu; exact sxShrink_fk)
      [(str! "s", str! "u"), (str! "s", str! "o")] (by decide) hex
    have h1' : execPlanAt exEngine exTables [] sxShrink false p [str! "s.u", str! "s.o"] = .ok out := h1
    rw [hrun] at h1'
    cases h1'
    obtain ⟨m, hm, -⟩ := h2 (str! "s", str! "o") sxFk (str! "s", str! "u")
      (.inl ⟨.inl ⟨exTableO, by simp [exTables], by simp [exTableO, sxFk], rfl⟩, by rintro ⟨x, hx, -⟩; cases hx⟩)
      [sxOrder 7 1] [] (by simp) (by simp) (sxOrder 7 1) (by simp)
      (by simp [sxFk, sxOrder, Row.get, dget])
    cases hm

/-- Rows only added while sampling: users are passed through and read first, so order 9 is written without its
user. -/
theorem c48_added_rows_passthrough :
    planExecAt { targets := [(str! "s.o", { all := true })], passthrough := [str! "s.u"] } exTables sxGrow
      [str! "s.u", str! "s.o"] = .ok (.ok
      [((str! "s", str! "u"), [sxUser 1, sxUser 2]),
       ((str! "s", str! "o"), [sxOrder 7 1, sxOrder 8 2, sxOrder 9 3])]) := by decide +kernel

/-- The same when all users are a target. -/
theorem c48_added_rows_all :
    planExecAt { targets := [(str! "s.o", { all := true }), (str! "s.u", { all := true })] } exTables sxGrow
      [str! "s.u", str! "s.o"] = .ok (.ok
      [((str! "s", str! "u"), [sxUser 1, sxUser 2]),
       ((str! "s", str! "o"), [sxOrder 7 1, sxOrder 8 2, sxOrder 9 3])]) := by decide +kernel

end Subsetter.Props
