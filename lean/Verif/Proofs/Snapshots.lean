import Verif.Model.Snapshots
import Verif.Proofs.Materialize

/- Execution of a plan against a changing source. -/
set_option linter.unusedSimpArgs false
namespace Subsetter
open Spec

/-- Queries can be built when what they use has been materialised. -/
theorem runQuery_ok' {E : Engine} {T : Tables} {src : Key → List Row} {reopen : Bool} {p : Plan}
    (hp : PlanOK T p) {done : List (Key × Nat)} {temps : Temps}
    (hcopies : ∀ k n, (k, n) ∈ done → ∀ i, (i = 0 ∨ (reopen = false ∧ i < n)) → (dget temps (k, i)).isSome)
    {k : Key} {q : TableQuery} (hq : Planned p k q) (huse : ∀ d, Uses q d → d ∈ done.map Prod.fst)
    (hcnt : ∀ x n, (x, n) ∈ done → (sampledRefs q).count x ≤ n) :
    runQuery E T src reopen temps q = .ok (q.eval E (execEnv T src temps)) := by
  obtain ⟨l, hl⟩ := buildContext_ok T temps reopen q.refs []
    (fun x hx _ => hp.refs_known k q hq x hx)
    (by
      intro x hx hs i hi1 hi2
      obtain ⟨⟨x', n⟩, hn, hxn⟩ := List.mem_map.1 (huse x.key ⟨x, hx, hs, rfl⟩)
      simp only at hxn
      subst hxn
      refine hcopies _ n hn i ?_
      cases hre : reopen
      · refine Or.inr ⟨rfl, ?_⟩
        have h1 := (hi2 hre).2
        have h2 := hcnt _ _ hn
        simp only [gd, dget_nil, Option.getD_none, Nat.zero_add] at h1
        unfold sampledRefs at h2
        omega
      · exact Or.inl (hi1 hre))
  simp only [runQuery, hl]

/-- State of materialisation after the tables `done`. -/
structure MatInvAt (E : Engine) (T : Tables) (snap : Nat → Key → List Row) (reopen : Bool) (p : Plan)
    (done : List (Key × Nat)) (temps : Temps) : Prop where
  copies : ∀ k n, (k, n) ∈ done → ∀ i, (i = 0 ∨ (reopen = false ∧ i < n)) →
    (dget temps (k, i)).isSome
  only : ∀ k i, (dget temps (k, i)).isSome → k ∈ done.map Prod.fst
  rows : ∀ k rows, dget temps (k, 0) = some rows → ∃ q, Planned p k q ∧
    rows = q.eval E (execEnv T (snap ((done.map Prod.fst).idxOf k)) temps) ∧
    ∀ d, Uses q d → d ∈ done.map Prod.fst ∧ (done.map Prod.fst).idxOf d < (done.map Prod.fst).idxOf k
  same : ∀ k i rows, dget temps (k, i) = some rows → dget temps (k, 0) = some rows

theorem materializeAt_spec {E : Engine} {T : Tables} {snap : Nat → Key → List Row} {reopen : Bool} {p : Plan}
    (hp : PlanOK T p) : ∀ (todo done : List (Key × Nat)) (temps : Temps),
    MatInvAt E T snap reopen p done temps →
    ((done ++ todo).map Prod.fst).Nodup →
    (∀ k ∈ todo.map Prod.fst, ∃ q, Planned p k q) →
    (∀ l₁ k n l₂, todo = l₁ ++ (k, n) :: l₂ → ∀ d, Needs p k d →
      d ∈ (done ++ l₁).map Prod.fst) →
    (∀ x n, (x, n) ∈ done ++ todo → ∀ k q, Planned p k q → (sampledRefs q).count x ≤ n) →
    ∃ temps', materializeAt E T snap reopen p done.length todo temps = .ok (temps', (done ++ todo).length) ∧
      MatInvAt E T snap reopen p (done ++ todo) temps' := by
  intro todo
  induction todo with
  | nil =>
    intro done temps hI _ _ _ _
    exact ⟨temps, by simp [materializeAt], by simpa using hI⟩
  | cons kn todo ih =>
    obtain ⟨k, n⟩ := kn
    intro done temps hI hnd hpl hdep hcnt
    obtain ⟨q, hq⟩ := hpl k (by simp)
    have huse : ∀ d, Uses q d → d ∈ done.map Prod.fst := by
      intro d hd
      simpa using hdep [] k n todo rfl d ⟨q, hq, hd⟩
    have hrun := runQuery_ok' (E := E) (src := snap done.length) hp hI.copies hq huse
      (fun x m hx => hcnt x m (by simp [hx]) k q hq)
    have hk : k ∉ done.map Prod.fst := by
      intro hk
      simp only [List.map_append, List.map_cons] at hnd
      rw [List.nodup_append] at hnd
      exact hnd.2.2 k hk k (by simp) rfl
    have hT : (dget T k).isSome := by
      obtain ⟨nm, h1, h2⟩ := hq
      obtain ⟨k', h3, h4⟩ := hp.known nm q h1
      rw [h2] at h3; cases h3; exact h4
    obtain ⟨t, ht⟩ := Option.isSome_iff_exists.1 hT
    set rows := q.eval E (execEnv T (snap done.length) temps) with hrows
    have hget := addTemp_get reopen temps k n rows
    have hidx : ∀ d, d ∈ done.map Prod.fst →
        ((done ++ [(k, n)]).map Prod.fst).idxOf d = (done.map Prod.fst).idxOf d := by
      intro d hd
      rw [List.map_append, List.idxOf_append_of_mem hd]
    have hidxk : ((done ++ [(k, n)]).map Prod.fst).idxOf k = done.length := by
      rw [List.map_append, List.idxOf_append_of_notMem hk]
      simp
    -- queries that only use materialised tables see the same rows afterwards
    have hsame : ∀ (src : Key → List Row) (q' : TableQuery), (∀ d, Uses q' d → d ∈ done.map Prod.fst) →
        q'.eval E (execEnv T src temps) =
          q'.eval E (execEnv T src (addTemp reopen temps k n rows)) := by
      intro src q' h'
      refine TableQuery.eval_congr E (execEnv_pk T src _ _) q' fun x hx => ?_
      simp only [execEnv]
      by_cases hs : x.sampled = true
      · rw [if_pos hs, if_pos hs, hget, if_neg]
        rintro ⟨rfl, -⟩
        exact hk (h' _ ⟨x, hx, hs, rfl⟩)
      · rw [if_neg hs, if_neg hs]
    have hI' : MatInvAt E T snap reopen p (done ++ [(k, n)]) (addTemp reopen temps k n rows) := by
      refine ⟨?_, ?_, ?_, ?_⟩
      · intro k' n' hm i hi
        rw [hget]
        rcases List.mem_append.1 hm with hm' | hm
        · rw [if_neg]
          · exact hI.copies k' n' hm' i hi
          · rintro ⟨h9, -⟩
            simp only at h9
            exact hk (h9 ▸ List.mem_map_of_mem (f := Prod.fst) hm')
        · simp only [List.mem_singleton, Prod.mk.injEq] at hm
          obtain ⟨rfl, rfl⟩ := hm
          rw [if_pos ⟨rfl, hi⟩]; rfl
      · intro k' i hs
        rw [hget] at hs
        simp only [List.map_append, List.mem_append, List.map_cons, List.map_nil,
          List.mem_singleton]
        by_cases he : k' = k
        · exact Or.inr he
        · rw [if_neg (by simp [he])] at hs
          exact Or.inl (hI.only k' i hs)
      · intro k' rows' hr
        rw [hget] at hr
        by_cases he : k' = k
        · subst he
          rw [if_pos ⟨rfl, Or.inl rfl⟩] at hr
          refine ⟨q, hq, ?_, fun d hd => ?_⟩
          · rw [hidxk, ← hsame _ q huse]; exact (Option.some.inj hr).symm
          · refine ⟨by rw [List.map_append]; exact List.mem_append_left _ (huse d hd), ?_⟩
            rw [hidxk, hidx d (huse d hd)]
            have := List.idxOf_lt_length_of_mem (huse d hd)
            simpa using this
        · rw [if_neg (by simp [he])] at hr
          obtain ⟨q', h1, h2, h3⟩ := hI.rows k' rows' hr
          have hk' := hI.only k' 0 (by rw [hr]; rfl)
          refine ⟨q', h1, ?_, fun d hd => ?_⟩
          · rw [hidx k' hk', ← hsame _ q' (fun d hd => (h3 d hd).1)]; exact h2
          · refine ⟨by rw [List.map_append]; exact List.mem_append_left _ (h3 d hd).1, ?_⟩
            rw [hidx k' hk', hidx d (h3 d hd).1]
            exact (h3 d hd).2
      · intro k' i rows' hr
        rw [hget] at hr ⊢
        by_cases he : k' = k
        · subst he
          rw [if_pos ⟨rfl, Or.inl rfl⟩]
          by_cases hi : i = 0 ∨ (reopen = false ∧ i < n)
          · rw [if_pos ⟨rfl, hi⟩] at hr; exact hr
          · rw [if_neg (fun h => hi h.2)] at hr
            exact absurd (hI.only k' i (by rw [hr]; rfl)) hk
        · rw [if_neg (by simp [he])] at hr
          rw [if_neg (by simp [he])]
          exact hI.same k' i rows' hr
    obtain ⟨temps', h1, h2⟩ := ih (done ++ [(k, n)]) _ hI' (by simpa using hnd)
      (fun k' hk' => hpl k' (by simp only [List.map_cons, List.mem_cons]; exact Or.inr hk'))
      (by
        intro l₁ k' n' l₂ hl d hd
        have := hdep ((k, n) :: l₁) k' n' l₂ (by rw [hl]; rfl) d hd
        simpa using this)
      (by
        intro x m hx; exact hcnt x m (by simpa using hx))
    refine ⟨temps', ?_, by simpa using h2⟩
    simp only [materializeAt, ht, Planned.get hp hq, hrun]
    rw [show (done ++ [(k, n)]).length = done.length + 1 by simp,
      show (done ++ [(k, n)] ++ todo) = done ++ (k, n) :: todo by simp] at h1
    exact h1

theorem copyResultsAt_spec {E : Engine} {T : Tables} {snap : Nat → Key → List Row} {reopen : Bool}
    {p : Plan} {temps : Temps} {S : Key → List Row} : ∀ (ks : List Key) (now : Nat),
    (∀ k ∈ ks, parseTableName k.str = some k) → ks.Nodup →
    (∀ k ∈ ks, ∃ q, dget p.queries k.str = some q ∧
      sampleRows E T (snap (now + ks.idxOf k)) reopen temps k q = .ok (S k)) →
    copyResultsAt E T snap reopen p temps now (ks.map Key.str) = .ok (ks.map fun k => (k, S k)) := by
  intro ks
  induction ks with
  | nil => intro now _ _ _; rfl
  | cons k ks ih =>
    intro now hn hnd h
    obtain ⟨q, h1, h2⟩ := h k (by simp)
    rw [List.nodup_cons] at hnd
    have := ih (now + 1) (fun k' hk' => hn k' (by simp [hk'])) hnd.2 (by
      intro k' hk'
      obtain ⟨q', h3, h4⟩ := h k' (by simp [hk'])
      refine ⟨q', h3, ?_⟩
      have hne : k ≠ k' := by rintro rfl; exact hnd.1 hk'
      rw [List.idxOf_cons_ne _ hne] at h4
      rw [show now + 1 + ks.idxOf k' = now + (ks.idxOf k' + 1) by omega]
      exact h4)
    rw [List.idxOf_cons_self, Nat.add_zero] at h2
    simp only [List.map_cons, copyResultsAt, hn k (by simp), h1, h2, this]

/-- When each table is read, and what is written. -/
theorem execPlanAt_spec {T : Tables} {p : Plan} (hp : PlanOK T p) (ha : Acyclic p) (E : Engine)
    (compact : Dict Key (List Str)) (snap : Nat → Key → List Row) (reopen : Bool) {ks : List Key}
    (hnd : ks.Nodup) (hks : ∀ k ∈ ks, parseTableName k.str = some k ∧ ∃ q, Planned p k q) :
    ∃ (S : Key → List Row) (τ : Key → Nat),
      (∀ k q, Planned p k q → S k = q.eval E (sampleEnv T (snap (τ k)) S)) ∧
      (∀ k d, Needs p k d → τ d < τ k) ∧
      execPlanAt E T compact snap reopen p (ks.map Key.str) = .ok (ks.map fun k => (k, S k)) := by
  rcases materializationOrder_spec hp compact with ⟨order, h1, -, h3, h4, h5, h6⟩ | ⟨h1, h2⟩
  swap
  · exact absurd ha h2
  obtain ⟨temps, h7, h8⟩ := materializeAt_spec (E := E) (snap := snap) (reopen := reopen) hp order [] []
    ⟨by simp, by simp, by simp, by simp⟩ (by simpa using h3)
    (fun k hk => ((h4 k).1 hk).1)
    (by intro l₁ k n l₂ hl d hd; simpa using h5 l₁ k n l₂ hl d hd)
    (by
      intro x n hx k q hq
      have := h6 x n (by simpa using hx) k q hq
      unfold useCount at this; omega)
  simp only [List.nil_append, List.length_nil] at h7 h8
  have hall : ∀ k q, Planned p k q → ∀ d, Uses q d → d ∈ order.map Prod.fst := by
    intro k q hq d hd
    exact (h4 d).2 ⟨hp.uses_planned k d ⟨q, hq, hd⟩, k, q, hq, Or.inl hd⟩
  have htemp : ∀ d, d ∈ order.map Prod.fst → (dget temps (d, 0)).isSome := by
    intro d hd
    obtain ⟨⟨d', n⟩, hm, rfl⟩ := List.mem_map.1 hd
    exact h8.copies _ n hm 0 (Or.inl rfl)
  let τ : Key → Nat := fun k =>
    if k ∈ order.map Prod.fst then (order.map Prod.fst).idxOf k else order.length + ks.idxOf k
  let S : Key → List Row := fun k =>
    match dget temps (k, 0) with
    | some rows => rows
    | none =>
      match dget p.queries k.str with
      | some q => q.eval E (execEnv T (snap (τ k)) temps)
      | none => []
  have hSsome : ∀ k rows, dget temps (k, 0) = some rows → S k = rows := by
    intro k rows hr
    simp only [S, hr]
  have hSnone : ∀ k q, Planned p k q → dget temps (k, 0) = none → S k = q.eval E (execEnv T (snap (τ k)) temps) := by
    intro k q hq hr
    simp only [S, hr, Planned.get hp hq]
  have hτm : ∀ k ∈ order.map Prod.fst, τ k = (order.map Prod.fst).idxOf k := fun k hk => if_pos hk
  have hτn : ∀ k, k ∉ order.map Prod.fst → τ k = order.length + ks.idxOf k := fun k hk => if_neg hk
  have hev : ∀ (src : Key → List Row) k q, Planned p k q →
      q.eval E (sampleEnv T src S) = q.eval E (execEnv T src temps) := by
    intro src k q hq
    refine TableQuery.eval_congr E (D := _) (D' := _) (by rfl) q fun x hx => ?_
    simp only [sampleEnv, execEnv]
    by_cases hs : x.sampled = true
    · rw [if_pos hs, if_pos hs]
      obtain ⟨rows, hr⟩ := Option.isSome_iff_exists.1 (htemp x.key (hall k q hq x.key ⟨x, hx, hs, rfl⟩))
      have e : (x.schema, x.name) = x.key := rfl
      rw [e, hSsome _ _ hr, hr]
      rfl
    · rw [if_neg hs, if_neg hs]; rfl
  refine ⟨S, τ, ?_, ?_, ?_⟩
  · intro k q hq
    rw [hev _ k q hq]
    cases hr : dget temps (k, 0) with
    | some rows =>
      obtain ⟨q', hq', h9, -⟩ := h8.rows k rows hr
      rw [hSsome k rows hr, Planned.unique hp hq hq', hτm k (h8.only k 0 (by rw [hr]; rfl))]
      exact h9
    | none => exact hSnone k q hq hr
  · rintro k d ⟨q, hq, hd⟩
    have hdm := hall k q hq d hd
    rw [hτm d hdm]
    by_cases hk : k ∈ order.map Prod.fst
    · rw [hτm k hk]
      obtain ⟨rows, hr⟩ := Option.isSome_iff_exists.1 (htemp k hk)
      obtain ⟨q', hq', -, h9⟩ := h8.rows k rows hr
      exact (h9 d (Planned.unique hp hq hq' ▸ hd)).2
    · rw [hτn k hk]
      have := List.idxOf_lt_length_of_mem hdm
      rw [List.length_map] at this
      omega
  · simp only [execPlanAt, h1, h7]
    refine copyResultsAt_spec ks order.length (fun k hk => (hks k hk).1) hnd fun k hk => ?_
    obtain ⟨q, hq⟩ := (hks k hk).2
    refine ⟨q, Planned.get hp hq, ?_⟩
    unfold sampleRows
    cases hr : dget temps (k, 0) with
    | some rows => simp only [hSsome k rows hr]
    | none =>
      simp only
      have hk' : k ∉ order.map Prod.fst := fun h => by
        have := htemp k h
        rw [hr] at this
        cases this
      rw [runQuery_ok' hp h8.copies hq (hall k q hq), hSnone k q hq hr, hτn k hk']
      intro x n hx
      have := h6 x n hx k q hq
      unfold useCount at this; omega

/-- With a source that does not change, execution is as before. -/
theorem materializeAt_const (E : Engine) (T : Tables) (src : Key → List Row) (reopen : Bool) (p : Plan) :
    ∀ (order : List (Key × Nat)) (now : Nat) (temps : Temps),
    (materializeAt E T (fun _ => src) reopen p now order temps).map Prod.fst = materialize E T src reopen p order temps
  | [], now, temps => rfl
  | (k, n) :: order, now, temps => by
    rw [materializeAt, materialize]
    cases dget T k with
    | none => rfl
    | some t =>
      dsimp only
      cases dget p.queries k.str with
      | none => rfl
      | some q =>
        dsimp only
        cases runQuery E T src reopen temps q with
        | error e => rfl
        | ok rows =>
          dsimp only
          exact materializeAt_const E T src reopen p order (now + 1) _

theorem copyResultsAt_const (E : Engine) (T : Tables) (src : Key → List Row) (reopen : Bool) (p : Plan)
    (temps : Temps) : ∀ (names : List Str) (now : Nat),
    copyResultsAt E T (fun _ => src) reopen p temps now names = copyResults E T src reopen p temps names
  | [], now => rfl
  | n :: names, now => by
    have ih := copyResultsAt_const E T src reopen p temps names (now + 1)
    rw [copyResultsAt, copyResults]
    cases parseTableName n with
    | none => rfl
    | some k =>
      dsimp only
      cases dget p.queries n with
      | none => exact ih
      | some q =>
        dsimp only
        cases sampleRows E T src reopen temps k q with
        | error e => rfl
        | ok rows =>
          dsimp only
          rw [ih]
          cases copyResults E T src reopen p temps names <;> rfl

theorem execPlanAt_const (E : Engine) (T : Tables) (compact : Dict Key (List Str)) (src : Key → List Row)
    (reopen : Bool) (p : Plan) (names : List Str) :
    execPlanAt E T compact (fun _ => src) reopen p names = execPlan E T compact src reopen p names := by
  unfold execPlanAt execPlan
  cases materializationOrder T compact p with
  | error e => rfl
  | ok order =>
    dsimp only
    have h := materializeAt_const E T src reopen p order 0 []
    cases hm : materializeAt E T (fun _ => src) reopen p 0 order [] with
    | error e =>
      rw [hm] at h
      rw [← show Except.error e = materialize E T src reopen p order [] from h]
    | ok x =>
      rw [hm] at h
      rw [← show Except.ok x.1 = materialize E T src reopen p order [] from h]
      exact copyResultsAt_const E T src reopen p x.1 names x.2

end Subsetter
