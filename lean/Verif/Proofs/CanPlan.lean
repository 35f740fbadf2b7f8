import Verif.Proofs.PlanClosed
import Verif.Spec.CanPlan

/- When planning succeeds. -/
namespace Subsetter
open Spec Props

theorem parseTableName_isSome {s : Str} : (parseTableName s).isSome ↔ '.' ∈ s := by
  unfold parseTableName
  induction s with
  | nil => simp [splitDot]
  | cons c cs ih =>
    by_cases hc : c = '.'
    · subst hc; simp [splitDot]
    · rw [splitDot, if_neg hc, List.mem_cons]
      have hc' : '.' ≠ c := fun h => hc h.symm
      simp only [hc', false_or]
      rw [← ih]
      cases splitDot cs <;> simp

theorem parseName_isOk {s : Str} : (∃ k, parseName s = .ok k) ↔ '.' ∈ s := by
  rw [← parseTableName_isSome, Option.isSome_iff_exists]
  simp only [parseName_ok]

theorem parseSet_isOk {names : List Str} : (∃ ks, parseSet names = .ok ks) ↔ ∀ n ∈ names, '.' ∈ n := by
  unfold parseSet
  suffices h : (∃ ks, names.mapM parseName = .ok ks) ↔ ∀ n ∈ names, '.' ∈ n by
    rw [← h]
    cases names.mapM parseName <;> simp
  induction names with
  | nil => simp; exact ⟨[], rfl⟩
  | cons n names ih =>
    rw [List.mapM_cons]
    simp only [List.mem_cons, forall_eq_or_imp]
    rw [← ih, ← parseName_isOk]
    cases parseName n with
    | error e => simp; intro x hx; cases hx
    | ok k =>
      cases names.mapM parseName with
      | error e => simp; intro x hx; cases hx
      | ok ks => simp; exact ⟨_, rfl⟩

theorem removeIgnoreFk_isOk {T : Tables} {x : Str × Str} :
    (∃ T', removeIgnoreFk T x = .ok T') ↔ '.' ∈ x.1 ∧ '.' ∈ x.2 := by
  rw [← parseName_isOk, ← parseName_isOk]
  unfold removeIgnoreFk
  cases parseName x.1 with
  | error e => simp
  | ok a =>
    cases parseName x.2 with
    | error e => simp
    | ok b =>
      simp only [Except.ok.injEq, exists_eq', true_and, iff_true]
      cases dget T a <;> exact ⟨_, rfl⟩

theorem removeIgnoreFks_isOk {xs : List (Str × Str)} : ∀ {T : Tables},
    (∃ T', removeIgnoreFks xs T = .ok T') ↔ ∀ x ∈ xs, '.' ∈ x.1 ∧ '.' ∈ x.2 := by
  induction xs with
  | nil => intro T; simp [removeIgnoreFks]
  | cons x xs ih =>
    intro T
    rw [removeIgnoreFks]
    simp only [List.mem_cons, forall_eq_or_imp]
    rw [← removeIgnoreFk_isOk (T := T)]
    cases removeIgnoreFk T x with
    | error e => simp
    | ok T' => simp only [Except.ok.injEq, exists_eq', true_and]; exact ih

theorem addExtraFk_isOk {T : Tables} {x : ExtraFk} :
    (∃ T', addExtraFk T x = .ok T') ↔ '.' ∈ x.srcTable ∧ '.' ∈ x.dstTable := by
  rw [← parseName_isOk, ← parseName_isOk]
  unfold addExtraFk
  cases parseName x.srcTable with
  | error e => simp
  | ok a =>
    cases parseName x.dstTable with
    | error e => simp
    | ok b =>
      simp only [Except.ok.injEq, exists_eq', true_and, iff_true]
      cases dget T a with
      | none => exact ⟨_, rfl⟩
      | some t =>
        simp only
        split
        · cases dget T b with
          | none => exact ⟨_, rfl⟩
          | some d =>
            simp only
            split <;> exact ⟨_, rfl⟩
        · exact ⟨_, rfl⟩

theorem addExtraFks_isOk {xs : List ExtraFk} : ∀ {T : Tables},
    (∃ T', addExtraFks xs T = .ok T') ↔ ∀ x ∈ xs, '.' ∈ x.srcTable ∧ '.' ∈ x.dstTable := by
  induction xs with
  | nil => intro T; simp [addExtraFks]
  | cons x xs ih =>
    intro T
    rw [addExtraFks]
    simp only [List.mem_cons, forall_eq_or_imp]
    rw [← addExtraFk_isOk (T := T)]
    cases addExtraFk T x with
    | error e => simp
    | ok T' => simp only [Except.ok.injEq, exists_eq', true_and]; exact ih

theorem rewriteFks_isOk {cfg : PlannerConfig} {T : Tables} : (∃ T', rewriteFks cfg T = .ok T') ↔
    (∀ x ∈ cfg.ignoreFks, '.' ∈ x.1 ∧ '.' ∈ x.2) ∧ ∀ x ∈ cfg.extraFks, '.' ∈ x.srcTable ∧ '.' ∈ x.dstTable := by
  have key : ∀ T₀ : Tables, (∃ T', (match removeIgnoreFks cfg.ignoreFks T₀ with
      | .error e => (Except.error e : Except PlanErr Tables)
      | .ok T' => addExtraFks cfg.extraFks T') = .ok T') ↔ (∀ x ∈ cfg.ignoreFks, '.' ∈ x.1 ∧ '.' ∈ x.2) ∧
        ∀ x ∈ cfg.extraFks, '.' ∈ x.srcTable ∧ '.' ∈ x.dstTable := by
    intro T₀
    rw [← removeIgnoreFks_isOk (T := T₀)]
    cases removeIgnoreFks cfg.ignoreFks T₀ with
    | error e => simp
    | ok T' => simp only [Except.ok.injEq, exists_eq', true_and]; exact addExtraFks_isOk
  unfold rewriteFks
  cases cfg.infer <;> exact key _

theorem fkJoin_error {T : Tables} {t : TableMeta} : ∀ {fks : List ForeignKey} {e : PlanErr},
    fks.mapM (fkJoin T t) = .error e → e = .keyError := by
  intro fks
  induction fks with
  | nil => intro e h; cases h
  | cons fk fks ih =>
    intro e h
    rw [List.mapM_cons] at h
    cases h1 : fkJoin T t fk with
    | error e' =>
      rw [h1] at h; cases h
      unfold fkJoin at h1
      cases h2 : dget T fk.dst with
      | none => rw [h2] at h1; cases h1; rfl
      | some d => rw [h2] at h1; cases h1
    | ok j =>
      rw [h1] at h
      cases h2 : fks.mapM (fkJoin T t) with
      | error e' => rw [h2] at h; cases h; exact ih h2
      | ok js => rw [h2] at h; cases h

theorem simpErr_no_cycle {e : SimpErr} {c : List Str} : simpErr e ≠ .cycle c := by cases e <;> exact (fun h => nomatch h)

theorem of_ite_eq {α : Type} {q : Prop} [Decidable q] {a b v : α} (h : (if q then a else b) = v) : a = v ∨ b = v := by
  split at h
  · exact .inl h
  · exact .inr h

theorem planTable_no_cycle {T : Tables} {cs : Dict Str (List ColumnConstraint)} {t : TableMeta} {pr : List Key}
    {x : Option TargetConfig} {c : List Str} : planTable T cs t pr x ≠ .error (.cycle c) := by
  intro h
  unfold planTable at h
  dsimp only at h
  split at h
  · cases h
  split at h
  · cases h
  split at h
  · cases h
  generalize hj : List.mapM (fkJoin T t) _ = js at h
  cases js with
  | error e => cases h; cases fkJoin_error hj
  | ok js =>
    dsimp only at h
    rcases of_ite_eq h with h | h
    · cases h
    cases hc : constraintClauses t ((dget cs t.key.str).getD []) with
    | error e =>
      rw [hc] at h; cases h
      obtain ⟨_, _, _, g⟩ := constraintClauses_error hc
      cases g
    | ok ws =>
      rw [hc] at h
      dsimp only at h
      generalize Stmt.simplify _ = st at h
      cases st with
      | error e => exact simpErr_no_cycle (Except.error.inj h)
      | ok st => cases h

section
variable {T : Tables} {targets : List Str} {pass ign : List Key}

/-- A cycle the solver reports is one of tables connected to a target. -/
theorem solveOrder_cycle (hT : TablesOK T) (hne : [] ∉ targets) {c : List Str} (N : Key → Prop)
    (hN : ∀ k, N k ↔ (dget T k).isSome ∧ k ∉ pass ∧ k ∉ ign) (L : Key → Prop) (hL : ∀ k, k.str ∈ targets → N k → L k)
    (hs : ∀ a b, L a → N a → N b → (Ref T a b ∨ Ref T b a) → L b)
    (h : solveOrder T targets pass ign = .error (.cycle c)) :
    ∃ k, k.str ∈ c ∧ L k ∧ Relation.TransGen (fun a b => Ref T a b ∧ N a ∧ N b) k k := by
  unfold solveOrder at h
  simp only at h
  cases hf : targets.find? (fun t => (dget (planGraph T targets pass ign) t).isNone) with
  | some s => rw [hf] at h; cases h
  | none =>
    rw [hf] at h
    simp only at h
    have ht : ∀ s ∈ targets, Node (planGraph T targets pass ign) s := by
      intro s hs
      have := List.find?_eq_none.1 hf s hs
      unfold Node
      rw [← dget_isSome_iff]
      cases h : dget (planGraph T targets pass ign) s <;> simp_all
    have hG := planGraph_isGraph hT ht
    have hsn : Node (planGraph T targets pass ign) [] := (planGraph_node hT).2 (.inl rfl)
    have hsrc : ∀ v, ¬ Edge (planGraph T targets pass ign) v [] := by
      intro v hv
      rcases (planGraph_edge hT).1 hv with ⟨-, h⟩ | ⟨k, k', -, h, -⟩
      · exact hne h
      · exact str_ne_nil k' h.symm
    cases ho : orderGraph (planGraph T targets pass ign) sourceNode with
    | ok l => rw [ho] at h; cases h
    | error e =>
      rw [ho] at h
      have he : e = .cycle c := by
        cases e <;> simp [solverErr] at h; subst h; rfl
      subst he
      obtain ⟨h2, h3⟩ := c03_reported_cycle_real hG hsn hsrc ho
      obtain ⟨x, hx, hc⟩ := closedChain_rev_onCycle h2
      have hdot : ∀ k, (dget T k).isSome → '.' ∉ k.1 := fun k hk => found_nodot hT hk
      have hstr : ∀ k k', N k → N k' → k.str = k'.str → k = k' := fun k k' h h' e =>
        str_inj (hdot _ ((hN k).1 h).1) (hdot _ ((hN k').1 h').1) e
      have hedge : ∀ {a b}, Edge (planGraph T targets pass ign) a b → (a = [] ∧ b ∈ targets) ∨
          ∃ k k', a = k.str ∧ b = k'.str ∧ Ref T k k' ∧ N k ∧ N k' := by
        intro a b hab
        rcases (planGraph_edge hT).1 hab with h | ⟨k, k', h1, h2, h3, h4, h5, h6⟩
        · exact .inl h
        · exact .inr ⟨k, k', h1, h2, h3, (hN k).2 ⟨ref_isSome hT h3, h4⟩, (hN k').2 ⟨h6, h5⟩⟩
      have hnode : ∀ s, s ∈ targets → ∃ k, s = k.str ∧ N k := by
        intro s hs
        rcases (planGraph_node hT).1 (ht s hs) with h | ⟨k, h1, h2, h3, h4⟩
        · rw [h] at hs; exact absurd hs hne
        · exact ⟨k, h4, (hN k).2 ⟨h1, h2, h3⟩⟩
      have hconn : ∀ s, Connected (planGraph T targets pass ign) sourceNode s → s = [] ∨
          ∃ k, s = k.str ∧ N k ∧ L k := by
        intro s hc
        induction hc with
        | refl => exact .inl rfl
        | @tail b c _ hbc ih =>
          rcases ih with rfl | ⟨k, rfl, hk, hl⟩
          · right
            rcases hbc with h | h
            · rcases hedge h with ⟨-, h⟩ | ⟨k, k', h, -⟩
              · obtain ⟨k, rfl, hk⟩ := hnode c h
                exact ⟨k, rfl, hk, hL k h hk⟩
              · exact absurd h.symm (str_ne_nil k)
            · exact absurd h (hsrc _)
          · rcases hbc with h | h
            · rcases hedge h with ⟨h, -⟩ | ⟨k₁, k₂, e1, e2, h3, h4, h5⟩
              · exact absurd h (str_ne_nil k)
              · have := hstr k k₁ hk h4 e1
                subst this
                exact .inr ⟨k₂, e2, h5, hs _ _ hl h4 h5 (.inl h3)⟩
            · rcases hedge h with ⟨h, -⟩ | ⟨k₁, k₂, e1, e2, h3, h4, h5⟩
              · exact .inl h
              · have := hstr k k₂ hk h5 e2
                subst this
                exact .inr ⟨k₁, e1, h4, hs _ _ hl h5 h4 (.inr h3)⟩
      have hpath : ∀ {a b}, Relation.TransGen (Edge (planGraph T targets pass ign)) a b → a ≠ [] →
          ∃ k k', a = k.str ∧ b = k'.str ∧ N k ∧ N k' ∧ Relation.TransGen (fun a b => Ref T a b ∧ N a ∧ N b) k k' := by
        intro a b hab hne
        induction hab with
        | single h =>
          rcases hedge h with ⟨h, -⟩ | ⟨k, k', h1, h2, h3, h4, h5⟩
          · exact absurd h hne
          · exact ⟨k, k', h1, h2, h4, h5, .single ⟨h3, h4, h5⟩⟩
        | tail _ h ih =>
          obtain ⟨k, k', h1, rfl, h3, h4, h5⟩ := ih
          rcases hedge h with ⟨h, -⟩ | ⟨k₁, k₂, e1, e2, h6, h7, h8⟩
          · exact absurd h (str_ne_nil k')
          · have := hstr k' k₁ h4 h7 e1
            subst this
            exact ⟨k, k₂, h1, e2, h3, h8, h5.tail ⟨h6, h7, h8⟩⟩
      have hxn : x ≠ [] := by
        rintro rfl
        obtain ⟨b, -, hb⟩ := Relation.TransGen.tail'_iff.1 hc
        exact hsrc b hb
      obtain ⟨k, k', h4, h5, h6, h7, h8⟩ := hpath hc hxn
      rw [h4] at h5
      have := hstr k k' h6 h7 h5
      subst this
      rcases hconn x (h3 x hx) with h9 | ⟨k', h9, h10, h11⟩
      · exact absurd h9 hxn
      · rw [h4] at h9
        have := hstr k k' h6 h10 h9
        subst this
        exact ⟨k, h4 ▸ hx, h11, h8⟩
end

/-- The whole planner reports a cycle only among tables linked to a target. -/
theorem planInternal_cycle {cfg : PlannerConfig} {T : Tables} (hI : Input cfg T) {c : List Str}
    (h : planInternal cfg T = .error (.cycle c)) :
    ∃ k, k.str ∈ c ∧ Linked cfg T k ∧ Relation.TransGen (Link cfg T) k k := by
  unfold planInternal at h
  rcases parseSet_cases cfg.ignore with ⟨ign, h1, -, h2⟩ | ⟨h1, -⟩
  swap
  · rw [h1] at h; cases h
  rw [h1] at h
  rcases parseSet_cases cfg.passthrough with ⟨pass, h3, h3', h4⟩ | ⟨h3, -⟩
  swap
  · rw [h3] at h; cases h
  rw [h3] at h
  simp only at h
  cases h5 : rewriteFks cfg T with
  | error e => rw [h5] at h; cases h; cases rewriteFks_error h5
  | ok T₁ =>
    rw [h5] at h
    simp only at h
    obtain ⟨h6, h7⟩ := rewriteFks_ok hI.tables hI.extra h5
    have hu := rewriteFks_used hI.tables hI.extra h5
    have href : ∀ a b, Ref T₁ a b ↔ UsedRef cfg T a b := by
      intro a b; unfold Ref UsedRef; simp only [hu]
    unfold planTables at h
    have hci := checkIgnore_iff (ign := ign) (ts := T₁.map Prod.snd)
    generalize hi : (if cfg.includeDependencies = true then checkIgnore ign (T₁.map Prod.snd) else .ok ()) = ri at h
    cases ri with
    | error e =>
      cases h
      split at hi
      · rcases hci with ⟨g, -⟩ | ⟨_, _, _, _, _, _, g⟩ <;> rw [hi] at g <;> cases g
      · cases hi
    | ok u =>
      cases u
      simp only at h
      cases h8 : checkPassthrough T₁ pass pass with
      | error e =>
        rw [h8] at h; cases h
        obtain ⟨_, _, _, g, _⟩ := checkPassthrough_error h8
        cases g
      | ok found =>
        rw [h8] at h
        simp only at h
        obtain ⟨hfound, -⟩ := checkPassthrough_ok h8
        have hN : ∀ k, Ordinary cfg T k ↔ (dget T₁ k).isSome ∧ k ∉ found ∧ k ∉ ign := by
          intro k
          unfold Ordinary
          rw [dget_isSome_iff, h7.keys, hfound, List.mem_filter, h2, h4]
          constructor
          · rintro ⟨g1, g2, g3⟩; exact ⟨g1, fun g => g2 g.1, g3⟩
          · rintro ⟨g1, g2, g3⟩
            exact ⟨g1, fun g => g2 ⟨g, by rw [dget_isSome_iff, h7.keys]; exact g1⟩, g3⟩
        cases h9 : solveOrder T₁ (dkeys cfg.targets) found ign with
        | error e =>
          rw [h9] at h; cases h
          obtain ⟨k, g1, g2, g3⟩ := solveOrder_cycle h6 hI.named (Ordinary cfg T) hN (Linked cfg T)
            (fun k h1 h2 => .target h1 h2)
            (by
              rintro a b g1 g2 g3 (g4 | g4)
              · exact .along g1 ⟨(href _ _).1 g4, g2, g3⟩
              · exact .against g1 ⟨(href _ _).1 g4, g3, g2⟩) h9
          exact ⟨k, g1, g2, Relation.TransGen.mono (fun a b hab => ⟨(href _ _).1 hab.1, hab.2⟩) _ _ g3⟩
        | ok order =>
          exfalso
          rw [h9] at h
          simp only at h
          obtain ⟨ord, rfl, hord⟩ := solveOrder_facts h6 hI.named h9
          cases hr : computeReverseKeys T₁ with
          | none => rw [hr] at h; cases h
          | some T₂ =>
            rw [hr] at h
            simp only at h
            rw [computeReverseKeys_spec] at hr
            split at hr
            swap
            · cases hr
            cases hr
            cases h10 : planLoop (addRev (revOf T₁) T₁) cfg (ord.map Key.str) []
              (found.foldl (fun q k => dset q k.str (passthroughQuery k)) []) with
            | ok q => rw [h10] at h; cases h
            | error e' =>
              rw [h10] at h
              cases h
              obtain ⟨pre, k, post, t, he, ht, hpt⟩ := planLoop_error h10
                (fun k hk => found_nodot h6 (hord.avail k hk).1)
                (fun k hk => by
                  rw [addRev_get]
                  obtain ⟨t, ht⟩ := Option.isSome_iff_exists.1 (hord.avail k hk).1
                  rw [ht]; rfl)
                (by simpa using hord.nodup)
              exact planTable_no_cycle hpt

/-- A bad name is among those configured. -/
theorem planInternal_badName {cfg : PlannerConfig} {T : Tables} (hI : Input cfg T)
    (hcl : ∀ a fk b, UsedFk cfg T a fk b → (dget T b).isSome) (h : planInternal cfg T = .error .badName) :
    ∃ n ∈ cfg.ignore ++ cfg.passthrough ++ (cfg.ignoreFks.map Prod.fst ++ cfg.ignoreFks.map Prod.snd) ++
      (cfg.extraFks.map ExtraFk.srcTable ++ cfg.extraFks.map ExtraFk.dstTable), '.' ∉ n := by
  by_contra hno
  push Not at hno
  simp only [List.mem_append, List.mem_map] at hno
  unfold planInternal at h
  obtain ⟨ign, h1⟩ := parseSet_isOk.2 (fun n hn => hno n (.inl (.inl (.inl hn))))
  obtain ⟨pass, h2⟩ := parseSet_isOk.2 (fun n hn => hno n (.inl (.inl (.inr hn))))
  obtain ⟨T₁, h3⟩ := (rewriteFks_isOk (cfg := cfg) (T := T)).2
    ⟨fun x hx => ⟨hno _ (.inl (.inr (.inl ⟨x, hx, rfl⟩))), hno _ (.inl (.inr (.inr ⟨x, hx, rfl⟩)))⟩,
      fun x hx => ⟨hno _ (.inr (.inl ⟨x, hx, rfl⟩)), hno _ (.inr (.inr ⟨x, hx, rfl⟩))⟩⟩
  rw [h1, h2, h3] at h
  simp only at h
  obtain ⟨h6, h7⟩ := rewriteFks_ok hI.tables hI.extra h3
  have hu := rewriteFks_used hI.tables hI.extra h3
  refine planTables_error h6 hI.named (fun a fk b hf => ?_) h
  have := hcl a fk b ((hu a fk b).1 hf)
  rw [dget_isSome_iff] at this ⊢
  rw [h7.keys]; exact this

/-- Names of a plan that was made are of the form `schema.table`. -/
theorem planInternal_names {cfg : PlannerConfig} {T : Tables} {p : Plan} (h : planInternal cfg T = .ok p) :
    ∀ n ∈ cfg.ignore ++ cfg.passthrough ++ (cfg.ignoreFks.map Prod.fst ++ cfg.ignoreFks.map Prod.snd) ++
      (cfg.extraFks.map ExtraFk.srcTable ++ cfg.extraFks.map ExtraFk.dstTable), '.' ∈ n := by
  unfold planInternal at h
  cases h1 : parseSet cfg.ignore with
  | error e => rw [h1] at h; cases h
  | ok ign =>
    rw [h1] at h
    simp only at h
    cases h2 : parseSet cfg.passthrough with
    | error e => rw [h2] at h; cases h
    | ok pass =>
      rw [h2] at h
      simp only at h
      cases h3 : rewriteFks cfg T with
      | error e => rw [h3] at h; cases h
      | ok T₁ =>
        have g1 := parseSet_isOk.1 ⟨_, h1⟩
        have g2 := parseSet_isOk.1 ⟨_, h2⟩
        have g3 := rewriteFks_isOk.1 ⟨_, h3⟩
        intro n hn
        simp only [List.mem_append, List.mem_map] at hn
        rcases hn with ((hn | hn) | (⟨x, hx, rfl⟩ | ⟨x, hx, rfl⟩)) | (⟨x, hx, rfl⟩ | ⟨x, hx, rfl⟩)
        · exact g1 n hn
        · exact g2 n hn
        · exact (g3.1 x hx).1
        · exact (g3.1 x hx).2
        · exact (g3.2 x hx).1
        · exact (g3.2 x hx).2

/-- Tables a plan samples are those linked to a target. -/
theorem Planning.linked_iff {cfg : PlannerConfig} {T T₁ T₂ : Tables} {p : Plan} {ign pass found ord : List Key}
    (hp : Planning cfg T p ign pass T₁ T₂ found ord) {k : Key} : k ∈ ord ↔ Linked cfg T k := by
  have hN : ∀ k, Ordinary cfg T k ↔ (dget T₁ k).isSome ∧ k ∉ found ∧ k ∉ ign := by
    intro k
    unfold Ordinary
    rw [hp.mem_found, hp.isSome_iff, dget_isSome_iff, hp.ign_iff, hp.pass_iff]
    constructor
    · rintro ⟨g1, g2, g3⟩; exact ⟨g1, fun g => g2 g.1, g3⟩
    · rintro ⟨g1, g2, g3⟩; exact ⟨g1, fun g => g2 ⟨g, g1⟩, g3⟩
  have ho : ∀ a, a ∈ ord → Ordinary cfg T a := fun a ha => (hN a).2 (hp.shape.order.avail a ha)
  constructor
  · intro hk
    obtain ⟨k₀, h1, h2, h3⟩ := hp.shape.order.conn k hk
    have : Linked cfg T k ∧ Ordinary cfg T k := by
      clear hk
      induction h3 with
      | refl => exact ⟨.target h2 (ho k₀ h1), ho k₀ h1⟩
      | tail _ h4 ih =>
        have hb := (hN _).2 h4.2
        refine ⟨?_, hb⟩
        rcases h4.1 with h5 | h5
        · exact .along ih.1 ⟨hp.ref_iff.1 h5, ih.2, hb⟩
        · exact .against ih.1 ⟨hp.ref_iff.1 h5, hb, ih.2⟩
    exact this.1
  · intro hk
    induction hk with
    | @target k h1 h2 =>
      obtain ⟨k', h3, h4⟩ := hp.shape.order.targets_mem (Key.str k) h1
      have g1 := found_nodot hp.ok ((hN k).1 h2).1
      have g2 := found_nodot hp.ok (hp.shape.order.avail k' h3).1
      rw [← str_inj g2 g1 h4]; exact h3
    | along _ h ih =>
      have := (hN _).1 h.2.2
      exact hp.shape.order.closed _ ih _ this.1 this.2.1 this.2.2 (.inl (hp.ref_iff.2 h.1))
    | against _ h ih =>
      have := (hN _).1 h.2.1
      exact hp.shape.order.closed _ ih _ this.1 this.2.1 this.2.2 (.inr (hp.ref_iff.2 h.1))

end Subsetter
