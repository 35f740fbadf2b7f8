import Verif.Proofs.PlanGraph
import Verif.Proofs.PlanTable

/- The planner's main loop and the shape of its result. -/
set_option linter.unusedSimpArgs false
namespace Subsetter
open Spec Props

theorem setAdd_new {κ : Type} [DecidableEq κ] {s : List κ} {x : κ} (h : x ∉ s) :
    setAdd s x = s ++ [x] := by
  unfold setAdd; rw [if_neg h]

theorem planLoop_ok {T : Tables} {cfg : PlannerConfig} : ∀ {ord : List Key} {processed : List Key}
    {queries Q : Dict Str TableQuery},
    planLoop T cfg (ord.map Key.str) processed queries = .ok Q →
    (∀ k ∈ ord, '.' ∉ k.1) → (processed ++ ord).Nodup →
    (queries.map Prod.fst ++ ord.map Key.str).Nodup →
    Q.map Prod.fst = queries.map Prod.fst ++ ord.map Key.str ∧ (∀ p ∈ queries, p ∈ Q) ∧
    ∀ pre k post, ord = pre ++ k :: post → ∃ t q, dget T k = some t ∧
      planTable T cfg.tableConstraints t (processed ++ pre ++ [k]) (dget cfg.targets k.str) = .ok q ∧
      (k.str, q) ∈ Q := by
  intro ord
  induction ord with
  | nil =>
    intro processed queries Q h _ _ _
    simp only [List.map_nil, planLoop] at h
    cases h
    refine ⟨by simp, fun p hp => hp, ?_⟩
    intro pre k post h; simp at h
  | cons k ord ih =>
    intro processed queries Q h hdot hnd hndq
    simp only [List.map_cons, planLoop, parseName, parse_of_nodot (hdot k (by simp))] at h
    cases h1 : dget T k with
    | none => rw [h1] at h; cases h
    | some t =>
      rw [h1] at h
      simp only at h
      have hk : k ∉ processed := by
        intro hk
        exact (List.nodup_append.1 hnd).2.2 k hk k (by simp) rfl
      rw [setAdd_new hk] at h
      cases h2 : planTable T cfg.tableConstraints t (processed ++ [k]) (dget cfg.targets k.str) with
      | error e => rw [h2] at h; cases h
      | ok q =>
        rw [h2] at h
        simp only at h
        have hq : k.str ∉ queries.map Prod.fst := by
          intro hq
          exact (List.nodup_append.1 hndq).2.2 _ hq _ (by simp) rfl
        rw [dset_new hq] at h
        have hndq' : ((queries ++ [(k.str, q)]).map Prod.fst ++ ord.map Key.str).Nodup := by
          simpa using hndq
        obtain ⟨h3, h4, h5⟩ := ih h (fun x hx => hdot x (List.mem_cons_of_mem _ hx))
          (by simpa using hnd) hndq'
        refine ⟨by rw [h3]; simp, fun p hp => h4 p (by simp [hp]), ?_⟩
        intro pre x post he
        cases pre with
        | nil =>
          simp only [List.nil_append, List.cons.injEq] at he
          obtain ⟨rfl, rfl⟩ := he
          exact ⟨t, q, h1, by simpa using h2, h4 _ (by simp)⟩
        | cons y pre =>
          simp only [List.cons_append, List.cons.injEq] at he
          obtain ⟨rfl, rfl⟩ := he
          obtain ⟨t', q', e1, e2, e3⟩ := h5 pre x post rfl
          exact ⟨t', q', e1, by simpa using e2, e3⟩

theorem planLoop_error {T : Tables} {cfg : PlannerConfig} : ∀ {ord : List Key} {processed : List Key}
    {queries : Dict Str TableQuery} {e : PlanErr},
    planLoop T cfg (ord.map Key.str) processed queries = .error e →
    (∀ k ∈ ord, '.' ∉ k.1) → (∀ k ∈ ord, (dget T k).isSome) → (processed ++ ord).Nodup →
    ∃ pre k post t, ord = pre ++ k :: post ∧ dget T k = some t ∧
      planTable T cfg.tableConstraints t (processed ++ pre ++ [k]) (dget cfg.targets k.str)
        = .error e := by
  intro ord
  induction ord with
  | nil => intro _ _ _ h; simp [planLoop] at h
  | cons k ord ih =>
    intro processed queries e h hdot hin hnd
    simp only [List.map_cons, planLoop, parseName, parse_of_nodot (hdot k (by simp))] at h
    cases h1 : dget T k with
    | none => have := hin k (by simp); rw [h1] at this; cases this
    | some t =>
      rw [h1] at h
      simp only at h
      have hk : k ∉ processed := by
        intro hk
        exact (List.nodup_append.1 hnd).2.2 k hk k (by simp) rfl
      rw [setAdd_new hk] at h
      cases h2 : planTable T cfg.tableConstraints t (processed ++ [k]) (dget cfg.targets k.str) with
      | error e' =>
        rw [h2] at h; cases h
        exact ⟨[], k, ord, t, rfl, h1, by simpa using h2⟩
      | ok q =>
        rw [h2] at h
        simp only at h
        obtain ⟨pre, x, post, t', e1, e2, e3⟩ := ih h
          (fun x hx => hdot x (List.mem_cons_of_mem _ hx))
          (fun x hx => hin x (List.mem_cons_of_mem _ hx)) (by simpa using hnd)
        exact ⟨k :: pre, x, post, t', by simp [e1], e2, by simpa using e3⟩

theorem checkPassthrough_ok {T : Tables} {pass : List Key} : ∀ {todo found : List Key},
    checkPassthrough T pass todo = .ok found →
      found = (todo.filter fun k => (dget T k).isSome) ∧
      ∀ k t, k ∈ found → dget T k = some t → ∀ fk ∈ t.foreignKeys, fk.dst ∈ pass := by
  intro todo
  induction todo with
  | nil => intro found h; cases h; simp
  | cons k todo ih =>
    intro found h
    rw [checkPassthrough] at h
    cases h1 : dget T k with
    | none =>
      rw [h1] at h
      obtain ⟨h2, h3⟩ := ih h
      exact ⟨by simp [List.filter_cons, h1, h2], h3⟩
    | some t =>
      rw [h1] at h
      simp only at h
      cases h2 : firstFk (fun fk => decide (fk.dst ∉ pass)) t with
      | some fk => rw [h2] at h; cases h
      | none =>
        rw [h2] at h
        simp only at h
        cases h3 : checkPassthrough T pass todo with
        | error e => rw [h3] at h; cases h
        | ok found' =>
          rw [h3] at h
          cases h
          obtain ⟨h4, h5⟩ := ih h3
          refine ⟨by rw [List.filter_cons, h1]; simp [h4], ?_⟩
          intro k' t' hk' ht' fk hfk
          rcases List.mem_cons.1 hk' with rfl | hk'
          · rw [h1] at ht'; cases ht'
            have := List.find?_eq_none.1 h2 fk hfk
            simpa using this
          · exact h5 k' t' hk' ht' fk hfk

theorem checkPassthrough_error {T : Tables} {pass : List Key} : ∀ {todo : List Key} {e : PlanErr},
    checkPassthrough T pass todo = .error e → ∃ k ∈ todo, ∃ d, e = .passthroughFk k d ∧
      Ref T k d ∧ d ∉ pass := by
  intro todo
  induction todo with
  | nil => intro e h; cases h
  | cons k todo ih =>
    intro e h
    rw [checkPassthrough] at h
    cases h1 : dget T k with
    | none =>
      rw [h1] at h
      obtain ⟨x, hx, d, hd⟩ := ih h
      exact ⟨x, List.mem_cons_of_mem _ hx, d, hd⟩
    | some t =>
      rw [h1] at h
      simp only at h
      cases h2 : firstFk (fun fk => decide (fk.dst ∉ pass)) t with
      | some fk =>
        rw [h2] at h; cases h
        have h3 := List.find?_some h2
        have h4 := List.mem_of_find?_eq_some h2
        exact ⟨k, by simp, fk.dst, rfl, ⟨fk, t, dget_some_mem h1, h4, rfl⟩, by simpa using h3⟩
      | none =>
        rw [h2] at h
        simp only at h
        cases h3 : checkPassthrough T pass todo with
        | error e' =>
          rw [h3] at h; cases h
          obtain ⟨x, hx, d, hd⟩ := ih h3
          exact ⟨x, List.mem_cons_of_mem _ hx, d, hd⟩
        | ok found' => rw [h3] at h; cases h

theorem foldl_dset_new (f : Key → TableQuery) : ∀ (found : List Key) (q : Dict Str TableQuery),
    (q.map Prod.fst ++ found.map Key.str).Nodup →
    found.foldl (fun q k => dset q k.str (f k)) q = q ++ found.map fun k => (k.str, f k) := by
  intro found
  induction found with
  | nil => intro q _; simp
  | cons k found ih =>
    intro q h
    simp only [List.foldl_cons]
    have hq : k.str ∉ q.map Prod.fst := fun hq =>
      (List.nodup_append.1 h).2.2 _ hq _ (by simp) rfl
    rw [dset_new hq, ih]
    · simp
    · simpa using h

/-- The shape of a plan made for tables `T`; `T'` are the tables with reverse keys. -/
structure PlanShape (cfg : PlannerConfig) (ign pass : List Key) (T T' : Tables) (found ord : List Key)
    (p : Plan) : Prop where
  found_eq : found = pass.filter fun k => (dget T k).isSome
  found_fks : ∀ k t, k ∈ found → dget T k = some t → ∀ fk ∈ t.foreignKeys, fk.dst ∈ pass
  closed : ∀ a fk b, HasFk T a fk b → (dget T b).isSome
  rev_eq : T' = addRev (revOf T) T
  order : OrderFacts T (dkeys cfg.targets) found ign ord
  keys : p.queries.map Prod.fst = (found ++ ord).map Key.str
  nodup : (found ++ ord).Nodup
  passq : ∀ k ∈ found, (k.str, passthroughQuery k) ∈ p.queries
  ordq : ∀ pre k post, ord = pre ++ k :: post → ∃ t q, dget T' k = some t ∧
    planTable T' cfg.tableConstraints t (pre ++ [k]) (dget cfg.targets k.str) = .ok q ∧
    (k.str, q) ∈ p.queries
  passthrough : p.passthrough = found.map Key.str
  ignoreCheck : cfg.includeDependencies = true → checkIgnore ign (T.map Prod.snd) = .ok ()

theorem found_nodot {T : Tables} (hT : TablesOK T) {k : Key} (h : (dget T k).isSome) :
    '.' ∉ k.1 := by
  obtain ⟨t, ht⟩ := Option.isSome_iff_exists.1 h
  exact hT.no_dot k t (hT.get.1 ht)

theorem map_str_nodup {T : Tables} (hT : TablesOK T) {l : List Key} (h : ∀ k ∈ l, (dget T k).isSome)
    (hnd : l.Nodup) : (l.map Key.str).Nodup :=
  List.Nodup.map_on (fun a ha b hb e => str_inj (found_nodot hT (h a ha)) (found_nodot hT (h b hb)) e)
    hnd

theorem planTables_shape {cfg : PlannerConfig} {ign pass : List Key} {T : Tables} {p : Plan}
    (hT : TablesOK T) (hpass : pass.Nodup) (hne : [] ∉ dkeys cfg.targets)
    (h : planTables cfg ign pass T = .ok p) :
    ∃ T' found ord, PlanShape cfg ign pass T T' found ord p := by
  unfold planTables at h
  cases h0 : (if cfg.includeDependencies then checkIgnore ign (T.map Prod.snd) else .ok ()) with
  | error e => rw [h0] at h; cases h
  | ok u =>
    rw [h0] at h
    cases u
    simp only at h
    have hign : cfg.includeDependencies = true → checkIgnore ign (T.map Prod.snd) = .ok () := by
      intro hi; rw [if_pos hi] at h0; exact h0
    cases h1 : checkPassthrough T pass pass with
    | error e => rw [h1] at h; cases h
    | ok found =>
      rw [h1] at h
      simp only at h
      obtain ⟨hfound, hffk⟩ := checkPassthrough_ok h1
      cases h2 : solveOrder T (dkeys cfg.targets) found ign with
      | error e => rw [h2] at h; cases h
      | ok order =>
        rw [h2] at h
        simp only at h
        obtain ⟨ord, rfl, hord⟩ := solveOrder_facts hT hne h2
        cases h3 : computeReverseKeys T with
        | none => rw [h3] at h; cases h
        | some T' =>
          rw [h3] at h
          simp only at h
          rw [computeReverseKeys_spec] at h3
          by_cases hcl : ∀ a fk b, HasFk T a fk b → (dget T b).isSome
          · rw [if_pos hcl] at h3
            cases h3
            have hfsome : ∀ k ∈ found, (dget T k).isSome := by
              intro k hk; rw [hfound] at hk; exact (List.mem_filter.1 hk).2
            have hfnd : found.Nodup := by rw [hfound]; exact hpass.filter _
            have hnd : (found ++ ord).Nodup := by
              refine List.nodup_append.2 ⟨hfnd, hord.nodup, ?_⟩
              rintro a ha b hb rfl
              exact (hord.avail a hb).2.1 ha
            have hall : ∀ k ∈ found ++ ord, (dget T k).isSome := by
              intro k hk
              rcases List.mem_append.1 hk with hk | hk
              · exact hfsome k hk
              · exact (hord.avail k hk).1
            have hndq := map_str_nodup hT hall hnd
            rw [foldl_dset_new passthroughQuery found [] (by
              simpa using map_str_nodup hT hfsome hfnd)] at h
            simp only [List.nil_append] at h
            cases h4 : planLoop (addRev (revOf T) T) cfg (ord.map Key.str) []
                (found.map fun k => (k.str, passthroughQuery k)) with
            | error e => rw [h4] at h; cases h
            | ok queries =>
              rw [h4] at h
              cases h
              obtain ⟨h5, h6, h7⟩ := planLoop_ok h4
                (fun k hk => found_nodot hT (hord.avail k hk).1) (by simpa using hord.nodup)
                (by rw [List.map_map]; simpa [Function.comp_def] using hndq)
              refine ⟨_, found, ord, hfound, hffk, hcl, rfl, hord, ?_, hnd, ?_, ?_, rfl, hign⟩
              · rw [h5]; simp [Function.comp_def]
              · intro k hk
                exact h6 _ (List.mem_map.2 ⟨k, hk, rfl⟩)
              · simpa using h7
          · rw [if_neg hcl] at h3; cases h3

/-! ### No internal errors -/

theorem stmt_simplify_ok {ss : List Sel} (hne : ss ≠ []) (h : ∀ s ∈ ss, s.NoEmptyUnion) :
    ∃ st, (Stmt.union ss).simplify = .ok st := by
  have hn : (Stmt.union ss).NoEmptyUnion := by
    rw [Stmt.NoEmptyUnion, selNoEmptyUnions_iff]; exact ⟨hne, h⟩
  rcases (simp_total (Stmt.union ss).size).2.2 _ (le_refl _) with ⟨w', h', -⟩ | h'
  · exact ⟨w', h'⟩
  · exact absurd h' ((simp_noIndex _).2.2 _ hn).1

theorem relationSel_noEmptyUnion {k : Key} {joins : List Join} {outer : Bool} {ws : List Where}
    (h : ∀ w ∈ ws, w.Flat) : (relationSel k joins outer ws).NoEmptyUnion := by
  rw [sel_noEmptyUnion_iff]
  intro w hw
  simp only [relationSel, Sel.where_mk, Option.some.injEq] at hw
  subst hw; exact and_noEmptyUnion h

theorem targetSel_noEmptyUnion {k : Key} {x : TargetConfig} : (targetSel k x).NoEmptyUnion := by
  rw [sel_noEmptyUnion_iff]
  intro w hw
  simp only [targetSel, Sel.where_mk, Option.some.injEq] at hw
  subst hw; exact and_noEmptyUnion (targetClauses_flat x)

theorem fkJoins_ok {T : Tables} {t : TableMeta} : ∀ {l : List ForeignKey},
    (∀ fk ∈ l, (dget T fk.dst).isSome) → ∃ js, l.mapM (fkJoin T t) = .ok js := by
  intro l
  induction l with
  | nil => intro _; exact ⟨[], rfl⟩
  | cons fk l ih =>
    intro h
    obtain ⟨js, hjs⟩ := ih fun x hx => h x (List.mem_cons_of_mem _ hx)
    obtain ⟨d, hd⟩ := Option.isSome_iff_exists.1 (h fk (by simp))
    refine ⟨⟨fk.dst.id true, fk.columns, fk.dstColumns,
      isDistinct t fk.columns || isDistinct d fk.dstColumns⟩ :: js, ?_⟩
    rw [mapM_ok_iff] at hjs ⊢
    exact .cons (by simp [fkJoin, hd]) hjs

theorem constraintClauses_error {t : TableMeta} : ∀ {cs : List ColumnConstraint} {e : PlanErr},
    constraintClauses t cs = .error e → ∃ c ∈ cs, c.column ∉ t.columns ∧
      e = .constraintColumn t.key c.column := by
  intro cs
  induction cs with
  | nil => intro e h; cases h
  | cons c cs ih =>
    intro e h
    rw [constraintClauses] at h
    by_cases hc : c.column ∈ t.columns
    · rw [if_pos hc] at h
      cases h1 : constraintClauses t cs with
      | error e' =>
        rw [h1] at h; cases h
        obtain ⟨c', h2, h3⟩ := ih h1
        exact ⟨c', List.mem_cons_of_mem _ h2, h3⟩
      | ok ws => rw [h1] at h; cases h
    · rw [if_neg hc] at h; cases h
      exact ⟨c, by simp, hc, rfl⟩

/-- `_plan_table` only fails with the documented messages if the order is one-directional. -/
theorem planTable_error {T : Tables} {C : Dict Str (List ColumnConstraint)} {t : TableMeta}
    {processed : List Key} {target : Option TargetConfig} {e : PlanErr}
    (h : planTable T C t processed target = .error e)
    (h1 : fksTo t processed = [] ∨ revsTo t processed = [])
    (h2 : target = none → fksTo t processed ≠ [] ∨ revsTo t processed ≠ [])
    (h3 : target ≠ none → fksTo t processed = [])
    (hin : ∀ k ∈ processed, (dget T k).isSome) :
    (∃ c ∈ (dget C t.key.str).getD [], c.column ∉ t.columns ∧
      e = .constraintColumn t.key c.column) ∨
    ((dget C t.key.str).getD [] ≠ [] ∧ revsTo t processed ≠ [] ∧ e = .constraintReverse t.key) := by
  have nilF : ∀ l, sortFks l = [] ↔ l = [] := by
    intro l
    have := sortFks_isEmpty (l := l)
    rw [Bool.eq_iff_iff] at this
    simpa using this
  unfold planTable at h
  have eF : sortFks (t.foreignKeys.filter fun fk => decide (fk.dst ∈ processed)) =
    sortFks (fksTo t processed) := rfl
  have eR : sortFks (t.revForeignKeys.filter fun fk => decide (fk.dst ∈ processed)) =
    sortFks (revsTo t processed) := rfl
  rw [eF, eR] at h
  clear eF eR
  have nF := nilF (fksTo t processed)
  have nR := nilF (revsTo t processed)
  have hFin : ∀ fk ∈ sortFks (fksTo t processed), (dget T fk.dst).isSome := by
    intro fk hfk
    have := mem_sortFks.1 hfk
    unfold fksTo at this
    exact hin _ (by simpa using (List.mem_filter.1 this).2)
  have hRin : ∀ fk ∈ sortFks (revsTo t processed), (dget T fk.dst).isSome := by
    intro fk hfk
    have := mem_sortFks.1 hfk
    unfold revsTo at this
    exact hin _ (by simpa using (List.mem_filter.1 this).2)
  have c1 : (!(sortFks (fksTo t processed)).isEmpty && !(sortFks (revsTo t processed)).isEmpty)
      = false := by
    rcases h1 with h1 | h1
    · simp [nF.2 h1]
    · simp [nR.2 h1]
  have c2 : (target.isNone && (sortFks (fksTo t processed)).isEmpty &&
      (sortFks (revsTo t processed)).isEmpty) = false := by
    cases target with
    | some x => rfl
    | none =>
      rcases h2 rfl with h | h
      · have : sortFks (fksTo t processed) ≠ [] := fun e => h (nF.1 e)
        cases hh : sortFks (fksTo t processed) <;> simp_all
      · have : sortFks (revsTo t processed) ≠ [] := fun e => h (nR.1 e)
        cases hh : sortFks (revsTo t processed) <;> simp_all
  have c3 : (target.isSome && !(sortFks (fksTo t processed)).isEmpty) = false := by
    cases target with
    | none => rfl
    | some x => simp [nF.2 (h3 (by simp))]
  simp only [c1, c2, c3, Bool.false_eq_true, if_false] at h
  have hjs : ∀ b : List ForeignKey, (b = [] ∨ b = sortFks (revsTo t processed)) →
      ∃ js, (if (sortFks (fksTo t processed)).isEmpty = true then b
        else sortFks (fksTo t processed)).mapM (fkJoin T t) = .ok js := by
    intro b hb
    apply fkJoins_ok
    intro fk hfk
    split at hfk
    · rcases hb with rfl | rfl
      · simp at hfk
      · exact hRin fk hfk
    · exact hFin fk hfk
  have core : ∀ (b : List ForeignKey) (s2 : List Sel),
      (b = [] ∨ b = sortFks (revsTo t processed)) →
      (s2 = [] → ((sortFks (fksTo t processed)).isEmpty && b.isEmpty) = false) →
      (∀ s ∈ s2, s.NoEmptyUnion) →
      (match (if (sortFks (fksTo t processed)).isEmpty = true then b
          else sortFks (fksTo t processed)).mapM (fkJoin T t) with
        | .error e => (.error e : Except PlanErr TableQuery)
        | .ok joins =>
          if (!((dget C t.key.str).getD []).isEmpty && !b.isEmpty) = true then
            .error (.constraintReverse t.key)
          else
            match constraintClauses t ((dget C t.key.str).getD []) with
            | .error e => .error e
            | .ok cs =>
              match (Stmt.union ((if ((sortFks (fksTo t processed)).isEmpty && b.isEmpty) = true
                  then [] else [relationSel t.key joins (sortFks (fksTo t processed)).isEmpty cs])
                    ++ s2)).simplify with
              | .error e => .error (simpErr e)
              | .ok st => .ok (.statement st)) = .error e →
      (∃ c ∈ (dget C t.key.str).getD [], c.column ∉ t.columns ∧
        e = .constraintColumn t.key c.column) ∨
      ((dget C t.key.str).getD [] ≠ [] ∧ revsTo t processed ≠ [] ∧
        e = .constraintReverse t.key) := by
    intro b s2 hb' hs2 hs2' h
    obtain ⟨js, hjs'⟩ := hjs b hb'
    rw [hjs'] at h
    simp only at h
    by_cases hc : (!((dget C t.key.str).getD []).isEmpty && !b.isEmpty) = true
    · rw [if_pos hc] at h
      cases h
      right
      simp only [Bool.and_eq_true, Bool.not_eq_true', List.isEmpty_eq_false_iff] at hc
      refine ⟨hc.1, ?_, rfl⟩
      rcases hb' with h | h
      · exact absurd h hc.2
      · intro e; rw [nR.2 e] at h; exact hc.2 h
    · rw [if_neg hc] at h
      cases h4 : constraintClauses t ((dget C t.key.str).getD []) with
      | error e' =>
        rw [h4] at h; cases h
        exact .inl (constraintClauses_error h4)
      | ok ws =>
        rw [h4] at h
        simp only at h
        exfalso
        obtain ⟨st, hst⟩ := stmt_simplify_ok (ss := (if ((sortFks (fksTo t processed)).isEmpty &&
            b.isEmpty) = true then [] else
            [relationSel t.key js (sortFks (fksTo t processed)).isEmpty ws]) ++ s2) (by
          intro e
          obtain ⟨e1, e2⟩ := List.append_eq_nil_iff.1 e
          rw [hs2 e2] at e1
          simp at e1) (by
          intro s hs
          rcases List.mem_append.1 hs with hs | hs
          · split at hs
            · simp at hs
            · simp only [List.mem_singleton] at hs
              subst hs
              exact relationSel_noEmptyUnion (constraintClauses_flat h4)
          · exact hs2' s hs)
        rw [hst] at h; cases h
  cases target with
  | none => exact core _ [] (.inr rfl) (fun _ => by simpa using c2) (by simp) h
  | some x =>
    refine core (if x.all = true then [] else sortFks (revsTo t processed)) [targetSel t.key x]
      ?_ (by simp) ?_ h
    · split <;> simp
    · intro s hs
      simp only [List.mem_singleton] at hs
      subst hs
      exact targetSel_noEmptyUnion

end Subsetter
