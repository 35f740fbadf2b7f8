import Verif.Proofs.Exec

/- Evaluation of a plan against its own sample. -/
set_option linter.unusedSimpArgs false
namespace Subsetter
open Spec

/-! ### The build context -/

/-- Every reference resolves if enough copies exist. -/
theorem buildContext_ok (T : Tables) (temps : Temps) (reopen : Bool) :
    ∀ (ts : List TableId) (counts : Dict Key Nat),
    (∀ x ∈ ts, x.sampled = false → (dget T x.key).isSome) →
    (∀ x ∈ ts, x.sampled = true → ∀ i, (reopen = true → i = 0) →
      (reopen = false → gd counts x.key ≤ i ∧
        i < gd counts x.key + ((ts.filter fun t => t.sampled).map TableId.key).count x.key) →
      (dget temps (x.key, i)).isSome) →
    ∃ l, buildContext T temps reopen counts ts = some l := by
  intro ts
  induction ts with
  | nil => intro counts _ _; exact ⟨[], rfl⟩
  | cons t ts ih =>
    intro counts h1 h2
    by_cases hs : t.sampled = true
    · simp only [buildContext, if_pos hs]
      have hidx : (dget temps (t.key, if reopen then 0 else (dget counts t.key).getD 0)).isSome := by
        refine h2 t (by simp) hs _ (fun h => by simp [h]) (fun h => ?_)
        simp [h, gd, hs]
      obtain ⟨rows, hr⟩ := Option.isSome_iff_exists.1 hidx
      rw [hr]
      simp only
      obtain ⟨l, hl⟩ := ih (if reopen then counts else
          dset counts t.key ((if reopen then 0 else (dget counts t.key).getD 0) + 1))
        (fun x hx => h1 x (by simp [hx])) (by
          intro x hx hxs i hi1 hi2
          refine h2 x (by simp [hx]) hxs i hi1 (fun hre => ?_)
          have := hi2 hre
          subst hre
          simp only [Bool.false_eq_true, if_false, gd_dset] at this
          simp only [List.filter_cons, hs, if_true, List.map_cons, List.count_cons]
          by_cases he : t.key = x.key
          · rw [if_pos he] at this
            have e : gd counts x.key = (dget counts t.key).getD 0 := by rw [he]; rfl
            simp only [he, beq_self_eq_true, if_true]
            rw [he] at this
            unfold gd; omega
          · rw [if_neg he] at this
            simp only [beq_iff_eq, he, if_false]
            omega)
      rw [hl]
      exact ⟨_, rfl⟩
    · have hs' : t.sampled = false := by simpa using hs
      simp only [buildContext, hs', Bool.false_eq_true, if_false]
      obtain ⟨d, hd⟩ := Option.isSome_iff_exists.1 (h1 t (by simp) hs')
      rw [hd]
      obtain ⟨l, hl⟩ := ih counts (fun x hx => h1 x (by simp [hx])) (by
          intro x hx hxs i hi1 hi2
          refine h2 x (by simp [hx]) hxs i hi1 (fun hre => ?_)
          have := hi2 hre
          simpa [hs'] using this)
      simp only
      rw [hl]
      exact ⟨_, rfl⟩

/-- Without reopening, each lookup returns a copy that was not returned before. -/
theorem buildContext_nodup (T : Tables) (temps : Temps) :
    ∀ (ts : List TableId) (counts : Dict Key Nat) (l : List (Option (Key × Nat))),
    buildContext T temps false counts ts = some l →
    (l.filterMap id).Nodup ∧ (∀ k i, (k, i) ∈ l.filterMap id → gd counts k ≤ i) ∧
    ∀ k i, (k, i) ∈ l.filterMap id → (dget temps (k, i)).isSome := by
  intro ts
  induction ts with
  | nil => intro counts l h; simp only [buildContext, Option.some.injEq] at h; subst h; simp
  | cons t ts ih =>
    intro counts l h
    by_cases hs : t.sampled = true
    · simp only [buildContext, if_pos hs, Bool.false_eq_true, if_false] at h
      cases hr : dget temps (t.key, (dget counts t.key).getD 0) with
      | none => rw [hr] at h; simp at h
      | some rows =>
        rw [hr] at h
        simp only [Option.map_eq_some_iff] at h
        obtain ⟨l', h1, rfl⟩ := h
        obtain ⟨h2, h3, h4⟩ := ih _ _ h1
        simp only [List.filterMap_cons, id, List.nodup_cons, List.mem_cons, Prod.mk.injEq]
        refine ⟨⟨fun hm => ?_, h2⟩, ?_, ?_⟩
        · have := h3 _ _ hm
          rw [gd_dset, if_pos rfl] at this; omega
        · rintro k i (⟨rfl, rfl⟩ | hm)
          · exact le_refl _
          · have := h3 _ _ hm
            rw [gd_dset] at this
            by_cases he : t.key = k
            · rw [if_pos he] at this; subst he; unfold gd; omega
            · rwa [if_neg he] at this
        · rintro k i (⟨rfl, rfl⟩ | hm)
          · rw [hr]; rfl
          · exact h4 k i hm
    · have hs' : t.sampled = false := by simpa using hs
      simp only [buildContext, hs', Bool.false_eq_true, if_false] at h
      cases hr : dget T t.key with
      | none => rw [hr] at h; simp at h
      | some d =>
        rw [hr] at h
        simp only [Option.map_eq_some_iff] at h
        obtain ⟨l', h1, rfl⟩ := h
        simpa using ih _ _ h1

/-! ### Temporary tables -/

theorem addCopies_get (temps : Temps) (k : Key) (rows : List Row) : ∀ (is : List Nat) (x : Key × Nat),
    dget (addCopies temps k rows is) x =
      if x.1 = k ∧ x.2 ∈ is then some rows else dget temps x := by
  intro is
  induction is generalizing temps with
  | nil => intro x; simp [addCopies]
  | cons i is ih =>
    intro x
    rw [addCopies, ih, dget_dset]
    obtain ⟨a, b⟩ := x
    by_cases h1 : a = k
    · subst h1
      by_cases h2 : b ∈ is
      · simp [h2]
      · by_cases h3 : i = b
        · simp [h3]
        · simp [h2, h3, Ne.symm h3]
    · simp [h1, Ne.symm h1]

/-- The temporary tables after materialising one more table. -/
def addTemp (reopen : Bool) (temps : Temps) (k : Key) (n : Nat) (rows : List Row) : Temps :=
  if reopen then dset temps (k, 0) rows
  else addCopies (dset temps (k, 0) rows) k rows (List.range' 1 (n - 1))

theorem addTemp_get (reopen : Bool) (temps : Temps) (k : Key) (n : Nat) (rows : List Row)
    (x : Key × Nat) : dget (addTemp reopen temps k n rows) x =
      if x.1 = k ∧ (x.2 = 0 ∨ (reopen = false ∧ x.2 < n)) then some rows else dget temps x := by
  obtain ⟨a, b⟩ := x
  unfold addTemp
  cases reopen
  · simp only [Bool.false_eq_true, if_false, addCopies_get, dget_dset, List.mem_range'_1,
      Prod.mk.injEq, true_and]
    by_cases h1 : a = k
    · subst h1
      by_cases h2 : b = 0
      · subst h2; simp
      · have hb : ¬ 0 = b := fun h => h2 h.symm
        simp only [true_and, hb, if_false, h2, false_or]
        by_cases h3 : b < n
        · rw [if_pos (by omega), if_pos h3]
        · rw [if_neg (by omega), if_neg h3]
    · simp [h1, Ne.symm h1]
  · simp only [if_true, dget_dset, Prod.mk.injEq, Bool.true_eq_false, false_and, or_false]
    by_cases h1 : a = k
    · subst h1; by_cases h2 : b = 0
      · simp [h2]
      · simp [h2, Ne.symm h2]
    · simp [h1, Ne.symm h1]

theorem execEnv_pk (T : Tables) (src : Key → List Row) (temps temps' : Temps) :
    (execEnv T src temps).pk = (execEnv T src temps').pk := rfl

/-- State of materialisation after the tables `done`. -/
structure MatInv (E : Engine) (T : Tables) (src : Key → List Row) (reopen : Bool) (p : Plan)
    (done : List (Key × Nat)) (temps : Temps) : Prop where
  copies : ∀ k n, (k, n) ∈ done → ∀ i, (i = 0 ∨ (reopen = false ∧ i < n)) →
    (dget temps (k, i)).isSome
  only : ∀ k i, (dget temps (k, i)).isSome → k ∈ done.map Prod.fst
  rows : ∀ k rows, dget temps (k, 0) = some rows → ∃ q, Planned p k q ∧
    rows = q.eval E (execEnv T src temps) ∧ ∀ d, Uses q d → d ∈ done.map Prod.fst
  same : ∀ k i rows, dget temps (k, i) = some rows → dget temps (k, 0) = some rows

/-- Queries can be built when what they use has been materialised. -/
theorem runQuery_ok {E : Engine} {T : Tables} {src : Key → List Row} {reopen : Bool} {p : Plan}
    (hp : PlanOK T p) {done : List (Key × Nat)} {temps : Temps}
    (hI : MatInv E T src reopen p done temps) {k : Key} {q : TableQuery} (hq : Planned p k q)
    (huse : ∀ d, Uses q d → d ∈ done.map Prod.fst)
    (hcnt : ∀ x n, (x, n) ∈ done → (sampledRefs q).count x ≤ n) :
    runQuery E T src reopen temps q = .ok (q.eval E (execEnv T src temps)) := by
  obtain ⟨l, hl⟩ := buildContext_ok T temps reopen q.refs []
    (fun x hx _ => hp.refs_known k q hq x hx)
    (by
      intro x hx hs i hi1 hi2
      obtain ⟨⟨x', n⟩, hn, hxn⟩ := List.mem_map.1 (huse x.key ⟨x, hx, hs, rfl⟩)
      simp only at hxn
      subst hxn
      refine hI.copies _ n hn i ?_
      cases hre : reopen
      · refine Or.inr ⟨rfl, ?_⟩
        have h1 := (hi2 hre).2
        have h2 := hcnt _ _ hn
        simp only [gd, dget_nil, Option.getD_none, Nat.zero_add] at h1
        unfold sampledRefs at h2
        omega
      · exact Or.inl (hi1 hre))
  simp only [runQuery, hl]

theorem materialize_spec {E : Engine} {T : Tables} {src : Key → List Row} {reopen : Bool} {p : Plan}
    (hp : PlanOK T p) : ∀ (todo done : List (Key × Nat)) (temps : Temps),
    MatInv E T src reopen p done temps →
    ((done ++ todo).map Prod.fst).Nodup →
    (∀ k ∈ todo.map Prod.fst, ∃ q, Planned p k q) →
    (∀ l₁ k n l₂, todo = l₁ ++ (k, n) :: l₂ → ∀ d, Needs p k d →
      d ∈ (done ++ l₁).map Prod.fst) →
    (∀ x n, (x, n) ∈ done ++ todo → ∀ k q, Planned p k q → (sampledRefs q).count x ≤ n) →
    ∃ temps', materialize E T src reopen p todo temps = .ok temps' ∧
      MatInv E T src reopen p (done ++ todo) temps' := by
  intro todo
  induction todo with
  | nil => intro done temps hI _ _ _ _; exact ⟨temps, rfl, by simpa using hI⟩
  | cons kn todo ih =>
    obtain ⟨k, n⟩ := kn
    intro done temps hI hnd hpl hdep hcnt
    obtain ⟨q, hq⟩ := hpl k (by simp)
    have huse : ∀ d, Uses q d → d ∈ done.map Prod.fst := by
      intro d hd
      simpa using hdep [] k n todo rfl d ⟨q, hq, hd⟩
    have hrun := runQuery_ok hp hI hq huse (fun x m hx => hcnt x m (by simp [hx]) k q hq)
    have hk : k ∉ done.map Prod.fst := by
      intro hk
      simp only [List.map_append, List.map_cons] at hnd
      rw [List.nodup_append] at hnd
      exact hnd.2.2 k hk k (by simp) rfl
    have hT : (dget T k).isSome := by
      obtain ⟨nm, h1, h2⟩ := hq
      obtain ⟨k', h3, h4⟩ := hp.known nm q h1
      rw [h2] at h3; cases h3; exact h4
    obtain ⟨t, ht⟩ := Option.isSome_iff_exists.1 hT
    set rows := q.eval E (execEnv T src temps) with hrows
    have hget := addTemp_get reopen temps k n rows
    -- queries that only use materialised tables see the same rows afterwards
    have hsame : ∀ q' : TableQuery, (∀ d, Uses q' d → d ∈ done.map Prod.fst) →
        q'.eval E (execEnv T src temps) =
          q'.eval E (execEnv T src (addTemp reopen temps k n rows)) := by
      intro q' h'
      refine TableQuery.eval_congr E (execEnv_pk T src _ _) q' fun x hx => ?_
      simp only [execEnv]
      by_cases hs : x.sampled = true
      · rw [if_pos hs, if_pos hs, hget, if_neg]
        rintro ⟨rfl, -⟩
        exact hk (h' _ ⟨x, hx, hs, rfl⟩)
      · rw [if_neg hs, if_neg hs]
    have hI' : MatInv E T src reopen p (done ++ [(k, n)]) (addTemp reopen temps k n rows) := by
      refine ⟨?_, ?_, ?_, ?_⟩
      · intro k' n' hm i hi
        rw [hget]
        rcases List.mem_append.1 hm with hm' | hm
        · rw [if_neg]
          · exact hI.copies k' n' hm' i hi
          · rintro ⟨h9, -⟩
            simp only at h9
            exact hk (h9 ▸ List.mem_map_of_mem (f := Prod.fst) hm')
        · simp only [List.mem_singleton, Prod.mk.injEq] at hm
          obtain ⟨rfl, rfl⟩ := hm
          rw [if_pos ⟨rfl, hi⟩]; rfl
      · intro k' i hs
        rw [hget] at hs
        simp only [List.map_append, List.mem_append, List.map_cons, List.map_nil,
          List.mem_singleton]
        by_cases he : k' = k
        · exact Or.inr he
        · rw [if_neg (by simp [he])] at hs
          exact Or.inl (hI.only k' i hs)
      · intro k' rows' hr
        rw [hget] at hr
        by_cases he : k' = k
        · subst he
          rw [if_pos ⟨rfl, Or.inl rfl⟩] at hr
          refine ⟨q, hq, ?_, fun d hd => ?_⟩
          · rw [← hsame q huse]; exact (Option.some.inj hr).symm
          · rw [List.map_append]; exact List.mem_append_left _ (huse d hd)
        · rw [if_neg (by simp [he])] at hr
          obtain ⟨q', h1, h2, h3⟩ := hI.rows k' rows' hr
          refine ⟨q', h1, ?_, fun d hd => ?_⟩
          · rw [← hsame q' h3]; exact h2
          · rw [List.map_append]; exact List.mem_append_left _ (h3 d hd)
      · intro k' i rows' hr
        rw [hget] at hr ⊢
        by_cases he : k' = k
        · subst he
          rw [if_pos ⟨rfl, Or.inl rfl⟩]
          by_cases hi : i = 0 ∨ (reopen = false ∧ i < n)
          · rw [if_pos ⟨rfl, hi⟩] at hr; exact hr
          · rw [if_neg (fun h => hi h.2)] at hr
            exact absurd (hI.only k' i (by rw [hr]; rfl)) hk
        · rw [if_neg (by simp [he])] at hr
          rw [if_neg (by simp [he])]
          exact hI.same k' i rows' hr
    obtain ⟨temps', h1, h2⟩ := ih (done ++ [(k, n)]) _ hI' (by simpa using hnd)
      (fun k' hk' => hpl k' (by simp only [List.map_cons, List.mem_cons]; exact Or.inr hk'))
      (by
        intro l₁ k' n' l₂ hl d hd
        have := hdep ((k, n) :: l₁) k' n' l₂ (by rw [hl]; rfl) d hd
        simpa using this)
      (by
        intro x m hx; exact hcnt x m (by simpa using hx))
    refine ⟨temps', ?_, by simpa using h2⟩
    simp only [materialize, ht, Planned.get hp hq, hrun]
    exact h1

theorem matInv_nil (E : Engine) (T : Tables) (src : Key → List Row) (reopen : Bool) (p : Plan) :
    MatInv E T src reopen p [] [] := by
  refine ⟨by simp, by simp, by simp, by simp⟩

/-- The rows sampled for a table once materialisation is done. -/
def sampleOf (E : Engine) (T : Tables) (src : Key → List Row) (p : Plan) (temps : Temps)
    (k : Key) : List Row :=
  match dget temps (k, 0) with
  | some rows => rows
  | none =>
    match dget p.queries k.str with
    | some q => q.eval E (execEnv T src temps)
    | none => []

theorem sampleEnv_eval {E : Engine} {T : Tables} {src : Key → List Row} {p : Plan} {temps : Temps}
    (q : TableQuery) (h : ∀ d, Uses q d → (dget temps (d, 0)).isSome) :
    q.eval E (sampleEnv T src (sampleOf E T src p temps)) = q.eval E (execEnv T src temps) := by
  refine TableQuery.eval_congr E (D := _) (D' := _) (by rfl) q fun x hx => ?_
  simp only [sampleEnv, execEnv]
  by_cases hs : x.sampled = true
  · rw [if_pos hs, if_pos hs]
    obtain ⟨rows, hr⟩ := Option.isSome_iff_exists.1 (h x.key ⟨x, hx, hs, rfl⟩)
    have e : (x.schema, x.name) = x.key := rfl
    rw [e]
    simp only [sampleOf, hr, Option.getD_some]
  · rw [if_neg hs, if_neg hs]; rfl

theorem copyResults_spec {E : Engine} {T : Tables} {src : Key → List Row} {reopen : Bool}
    {p : Plan} {temps : Temps}
    (hrun : ∀ k q, Planned p k q →
      sampleRows E T src reopen temps k q = .ok (sampleOf E T src p temps k)) :
    ∀ names : List Str, (∀ n ∈ names, ∃ k, parseTableName n = some k) →
    ∃ out, copyResults E T src reopen p temps names = .ok out ∧
      out = (names.filterMap fun n => if (dget p.queries n).isSome then parseTableName n else none).map
        fun k => (k, sampleOf E T src p temps k) := by
  intro names
  induction names with
  | nil => intro _; exact ⟨[], rfl, rfl⟩
  | cons n names ih =>
    intro h
    obtain ⟨k, hk⟩ := h n (by simp)
    obtain ⟨out, h1, h2⟩ := ih (fun m hm => h m (by simp [hm]))
    cases hq : dget p.queries n with
    | none =>
      refine ⟨out, by simp only [copyResults, hk, hq, h1], ?_⟩
      simpa [List.filterMap_cons, hq] using h2
    | some q =>
      refine ⟨(k, sampleOf E T src p temps k) :: out, ?_, ?_⟩
      · simp only [copyResults, hk, hq, hrun k q ⟨n, dget_some_mem hq, hk⟩, h1]
      · simp [List.filterMap_cons, hq, hk, h2]

/-- Execution of a sensible plan: fails exactly for cyclic plans; otherwise the rows written are
those of a sample described by the plan. -/
theorem execPlan_spec {T : Tables} {p : Plan} (hp : PlanOK T p) (E : Engine)
    (compact : Dict Key (List Str)) (src : Key → List Row) (reopen : Bool) (names : List Str)
    (hn : ∀ n ∈ names, ∃ k, parseTableName n = some k) :
    (Acyclic p ∧ ∃ S, IsSample E T src p S ∧
      execPlan E T compact src reopen p names =
        .ok ((names.filterMap fun n =>
          if (dget p.queries n).isSome then parseTableName n else none).map fun k => (k, S k))) ∨
    (¬ Acyclic p ∧ execPlan E T compact src reopen p names = .error .cycle) := by
  rcases materializationOrder_spec hp compact with ⟨order, h1, h2, h3, h4, h5, h6⟩ | ⟨h1, h2⟩
  · left
    refine ⟨h2, ?_⟩
    obtain ⟨temps, h7, h8⟩ := materialize_spec (E := E) (src := src) (reopen := reopen) hp order [] []
      (matInv_nil E T src reopen p) (by simpa using h3)
      (fun k hk => ((h4 k).1 hk).1)
      (by intro l₁ k n l₂ hl d hd; simpa using h5 l₁ k n l₂ hl d hd)
      (by
        intro x n hx k q hq
        have := h6 x n (by simpa using hx) k q hq
        unfold useCount at this; omega)
    simp only [List.nil_append] at h8
    have hall : ∀ k q, Planned p k q → ∀ d, Uses q d → d ∈ order.map Prod.fst := by
      intro k q hq d hd
      exact (h4 d).2 ⟨hp.uses_planned k d ⟨q, hq, hd⟩, k, q, hq, Or.inl hd⟩
    have htemp : ∀ d, d ∈ order.map Prod.fst → (dget temps (d, 0)).isSome := by
      intro d hd
      obtain ⟨⟨d', n⟩, hm, rfl⟩ := List.mem_map.1 hd
      exact h8.copies _ n hm 0 (Or.inl rfl)
    have hev : ∀ k q, Planned p k q →
        q.eval E (sampleEnv T src (sampleOf E T src p temps)) = q.eval E (execEnv T src temps) :=
      fun k q hq => sampleEnv_eval q fun d hd => htemp d (hall k q hq d hd)
    have hS : ∀ k q, Planned p k q → sampleOf E T src p temps k = q.eval E (execEnv T src temps) := by
      intro k q hq
      unfold sampleOf
      cases hr : dget temps (k, 0) with
      | some rows =>
        obtain ⟨q', hq', h9, -⟩ := h8.rows k rows hr
        rw [Planned.unique hp hq hq']; exact h9
      | none => simp only [Planned.get hp hq]
    refine ⟨sampleOf E T src p temps, fun k q hq => by rw [hS k q hq, hev k q hq], ?_⟩
    have hrun : ∀ k q, Planned p k q →
        sampleRows E T src reopen temps k q = .ok (sampleOf E T src p temps k) := by
      intro k q hq
      unfold sampleRows
      cases hr : dget temps (k, 0) with
      | some rows => simp only [sampleOf, hr]
      | none =>
        simp only
        rw [runQuery_ok hp h8 hq (hall k q hq), hS k q hq]
        intro x n hx
        have := h6 x n hx k q hq
        unfold useCount at this; omega
    obtain ⟨out, h9, h10⟩ := copyResults_spec hrun names hn
    simp only [execPlan, h1, h7, h9, h10]
  · right
    exact ⟨h2, by simp only [execPlan, h1]⟩

/-- The sample described by an acyclic plan is unique. -/
theorem isSample_unique {E : Engine} {T : Tables} {src : Key → List Row} {p : Plan}
    (hp : PlanOK T p) (ha : Acyclic p) {S S' : Key → List Row} (h : IsSample E T src p S)
    (h' : IsSample E T src p S') : ∀ k q, Planned p k q → S k = S' k := by
  obtain ⟨order, -, -, -, h4, h5, -⟩ | ⟨-, h2⟩ := materializationOrder_spec hp []
  swap
  · exact absurd ha h2
  have key : ∀ (l₁ l₂ : List (Key × Nat)), order = l₁ ++ l₂ →
      ∀ k ∈ l₁.map Prod.fst, S k = S' k := by
    intro l₁
    induction l₁ using List.reverseRecOn with
    | nil => simp
    | append_singleton l x ih =>
      obtain ⟨k, n⟩ := x
      intro l₂ hl k' hk'
      have hl' : order = l ++ (k, n) :: l₂ := by rw [hl]; simp
      rw [List.map_append, List.mem_append] at hk'
      rcases hk' with hk' | hk'
      · exact ih _ hl' k' hk'
      · simp only [List.map_cons, List.map_nil, List.mem_singleton] at hk'
        subst hk'
        obtain ⟨q, hq⟩ := ((h4 k').1 (by rw [hl']; simp)).1
        rw [h k' q hq, h' k' q hq]
        refine TableQuery.eval_congr E (D := _) (D' := _) (by rfl) q fun x hx => ?_
        simp only [sampleEnv]
        by_cases hs : x.sampled = true
        · rw [if_pos hs, if_pos hs]
          exact ih _ hl' _ (h5 l k' n l₂ hl' _ ⟨q, hq, x, hx, hs, rfl⟩)
        · rw [if_neg hs, if_neg hs]
  intro k q hq
  rw [h k q hq, h' k q hq]
  refine TableQuery.eval_congr E (D := _) (D' := _) (by rfl) q fun x hx => ?_
  simp only [sampleEnv]
  by_cases hs : x.sampled = true
  · rw [if_pos hs, if_pos hs]
    refine key order [] (by simp) _ ((h4 _).2 ⟨hp.uses_planned k _ ⟨q, hq, x, hx, hs, rfl⟩, k, q, hq, ?_⟩)
    exact Or.inl ⟨x, hx, hs, rfl⟩
  · rw [if_neg hs, if_neg hs]

end Subsetter
