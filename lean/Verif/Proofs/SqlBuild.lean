import Verif.Spec.SqlRun
import Verif.Proofs.Build

/- When the statements of a plan can be built. -/
namespace Subsetter
open Spec

/-- `reference_count` after the context was called on all identifiers. -/
def countsAfter (X : BuildCtx) : Dict Key Nat → List TableId → Option (Dict Key Nat)
  | c, [] => some c
  | c, t :: ts =>
    match X.call t ⟨c, 0⟩ with
    | .error _ => none
    | .ok (_, s) => countsAfter X s.counts ts

/-- Tables found have the columns of the tables of the source. -/
def Covers (X : BuildCtx) (T : Tables) : Prop :=
  ∀ t s o s', X.call t s = .ok (o, s') → ∀ c, HasCol T t c → c ∈ o.columns

/-- The result is an error if there are no counts, else it comes with these counts. -/
def Yields {α : Type} (r : Except BuildErr (α × BuildState)) : Option (Dict Key Nat) → Prop
  | none => ∃ e, r = .error e
  | some c => ∃ a f, r = .ok (a, ⟨c, f⟩)

variable {X : BuildCtx} {T : Tables}

theorem countsAfter_append (l l' : List TableId) : ∀ c, countsAfter X c (l ++ l') =
    (countsAfter X c l).bind fun c' => countsAfter X c' l' := by
  induction l with
  | nil => intro c; rfl
  | cons t l ih =>
    intro c
    rw [List.cons_append, countsAfter, countsAfter]
    split
    · rfl
    · rw [ih]

theorem call_yields (t : TableId) (s : BuildState) (ts : List TableId) :
    (∃ e, X.call t s = .error e ∧ countsAfter X s.counts (t :: ts) = none) ∨
    ∃ o s', X.call t s = .ok (o, s') ∧ countsAfter X s.counts (t :: ts) = countsAfter X s'.counts ts := by
  rw [countsAfter]
  unfold BuildCtx.call
  split
  · dsimp only
    split
    · exact .inl ⟨_, rfl, rfl⟩
    · refine .inr ⟨_, _, rfl, ?_⟩
      dsimp only
      by_cases h : X.reopen = true
      · simp only [if_pos h]
      · simp only [if_neg h]
  · split
    · exact .inl ⟨_, rfl, rfl⟩
    · exact .inr ⟨_, _, rfl, rfl⟩

theorem cols_exist {o : TableObj} {n : Name} : ∀ {cs : List Str}, (∀ c ∈ cs, c ∈ o.columns) → ∃ xs, cs.mapM (o.col n) = .ok xs
  | [], _ => ⟨[], rfl⟩
  | c :: cs, h => by
    obtain ⟨xs, e⟩ := cols_exist (n := n) fun d hd => h d (List.mem_cons_of_mem c hd)
    refine ⟨⟨n, c⟩ :: xs, ?_⟩
    rw [List.mapM_cons, e]
    unfold TableObj.col
    rw [if_pos (h c List.mem_cons_self)]
    rfl

theorem on_exists {o r : TableObj} {n : Name} : ∀ {l : List (Str × Str)}, (∀ e ∈ l, e.1 ∈ o.columns ∧ e.2 ∈ r.columns) →
    ∃ on, joinOn o r n l = .ok on
  | [], _ => ⟨[], rfl⟩
  | e :: l, h => by
    obtain ⟨on, g⟩ := on_exists (n := n) fun d hd => h d (List.mem_cons_of_mem e hd)
    have h1 := h e List.mem_cons_self
    refine ⟨(⟨.obj o.obj, e.1⟩, ⟨n, e.2⟩) :: on, ?_⟩
    unfold joinOn
    rw [g]
    unfold TableObj.col
    rw [if_pos h1.1, if_pos h1.2]

theorem joins_yield (hX : Covers X T) {o : TableObj} {outer : Bool} : ∀ {js : List Join} (J : Joined) (s : BuildState),
    (∀ j ∈ js, (∀ c ∈ j.leftColumns, c ∈ o.columns) ∧ ∀ c ∈ j.rightColumns, HasCol T j.right c) →
    Yields (buildJoins X o outer js J s) (countsAfter X s.counts (js.map Join.right))
  | [], J, s, _ => ⟨J, s.fresh, rfl⟩
  | j :: js, J, s, h => by
    rw [List.map_cons]
    obtain ⟨hl, hr⟩ := h j List.mem_cons_self
    rcases call_yields (X := X) j.right s (js.map Join.right) with ⟨e, h1, h2⟩ | ⟨r, s1, h1, h2⟩
    · rw [h2]
      exact ⟨e, by unfold buildJoins; rw [h1]⟩
    · have hr' : ∀ c ∈ j.rightColumns, c ∈ r.columns := fun c hc => hX _ _ _ _ h1 c (hr c hc)
      obtain ⟨on, h3⟩ := on_exists (o := o) (r := r) (n := .alias s1.fresh) (l := j.leftColumns.zip j.rightColumns)
        fun e he => ⟨hl _ (List.of_mem_zip he).1, hr' _ (List.of_mem_zip he).2⟩
      obtain ⟨xs, h4⟩ := cols_exist (n := .alias s1.fresh) hr'
      have ih := fun J => joins_yield hX (outer := outer) J ⟨s1.counts, s1.fresh + 1⟩ fun x hx => h x (List.mem_cons_of_mem j hx)
      rw [h2]
      unfold buildJoins
      rw [h1]
      dsimp only
      rw [h3]
      dsimp only
      split
      · rw [h4]
        exact ih _
      · exact ih _

theorem from_yields (hX : Covers X T) {o : TableObj} {outer : Bool} {joins : Option (List Join)} (s : BuildState)
    (h : ∀ j ∈ joins.getD [], (∀ c ∈ j.leftColumns, c ∈ o.columns) ∧ ∀ c ∈ j.rightColumns, HasCol T j.right c) :
    (∃ e, buildFrom X o outer joins s = .error e ∧ countsAfter X s.counts ((joins.getD []).map Join.right) = none) ∨
    ∃ f cs g s', buildFrom X o outer joins s = .ok (f, cs, g, s') ∧
      countsAfter X s.counts ((joins.getD []).map Join.right) = some s'.counts := by
  unfold buildFrom
  split
  · rename_i j js
    have := joins_yield hX (o := o) (outer := outer) ⟨.table o.obj, [], [], false⟩ s h
    rw [Option.getD_some]
    cases hc : countsAfter X s.counts ((j :: js).map Join.right) with
    | none =>
      rw [Option.getD_some, hc] at this
      obtain ⟨e, he⟩ := this
      rw [he]
      exact .inl ⟨e, rfl, rfl⟩
    | some c =>
      rw [Option.getD_some, hc] at this
      obtain ⟨J, f, he⟩ := this
      rw [he]
      exact .inr ⟨_, _, _, _, rfl, rfl⟩
  · rename_i hj
    have : joins.getD [] = [] := by
      rcases joins with _ | ⟨_ | ⟨j, js⟩⟩
      · rfl
      · rfl
      · exact absurd rfl (hj j js)
    rw [this]
    exact .inr ⟨_, _, _, _, rfl, rfl⟩

theorem items_exist {o : TableObj} {cols : Option (List Str)} (h : ∀ c ∈ cols.getD [], c ∈ o.columns) :
    ∃ xs, buildItems o cols = .ok xs := by
  unfold buildItems
  split
  · obtain ⟨xs, e⟩ := cols_exist (n := .obj o.obj) h
    rw [Option.getD_some] at e
    rw [e]
    exact ⟨_, rfl⟩
  · exact ⟨_, rfl⟩

theorem yields_map {α β : Type} {r : Except BuildErr (α × BuildState)} {r' : Except BuildErr (β × BuildState)}
    {c : Option (Dict Key Nat)} (h : Yields r c) (h1 : ∀ e, r = .error e → ∃ e', r' = .error e')
    (h2 : ∀ a s, r = .ok (a, s) → ∃ b f, r' = .ok (b, ⟨s.counts, f⟩)) : Yields r' c := by
  cases c with
  | none =>
    obtain ⟨e, he⟩ := h
    exact h1 e he
  | some c =>
    obtain ⟨a, f, he⟩ := h
    exact h2 _ _ he

mutual
theorem where_yields (hX : Covers X T) {t : TableId} {o : TableObj} (ho : ∀ c, HasCol T t c → c ∈ o.columns) :
    ∀ (w : Where) (s : BuildState), WherePlain T t w → Yields (Where.build X t o w s) (countsAfter X s.counts w.refs)
  | .false_, s, _ => by simp only [Where.build, Where.refs, countsAfter]; exact ⟨_, _, rfl⟩
  | .true_, s, _ => by simp only [Where.build, Where.refs, countsAfter]; exact ⟨_, _, rfl⟩
  | .random _ _, s, _ => by simp only [Where.build, Where.refs, countsAfter]; exact ⟨_, _, rfl⟩
  | .sql _, s, _ => by simp only [Where.build, Where.refs, countsAfter]; exact ⟨_, _, rfl⟩
  | .op x c v, s, h => by
    rw [WherePlain] at h
    simp only [Where.build, Where.refs, countsAfter, TableObj.col, if_pos (ho c h)]
    exact ⟨_, _, rfl⟩
  | .inVals cs vs neg, s, h => by
    rw [WherePlain] at h
    obtain ⟨xs, e⟩ := cols_exist (n := .obj o.obj) fun c hc => ho c (h c hc)
    simp only [Where.build, Where.refs, countsAfter, e]
    exact ⟨_, _, rfl⟩
  | .inStmt cs st neg, s, h => by
    rw [WherePlain] at h
    obtain ⟨xs, e⟩ := cols_exist (n := .obj o.obj) fun c hc => ho c (h.1 c hc)
    simp only [Where.build, Where.refs, e]
    refine yields_map (stmt_yields hX st s h.2) (fun e he => ?_) fun a s' he => ?_
    · rw [he]; exact ⟨_, rfl⟩
    · rw [he]; exact ⟨_, _, rfl⟩
  | .and cs, s, h => by
    rw [WherePlain] at h
    simp only [Where.build, Where.refs]
    refine yields_map (wheres_yield hX ho cs s h) (fun e he => ?_) fun a s' he => ?_
    · rw [he]; exact ⟨_, rfl⟩
    · rw [he]; exact ⟨_, _, rfl⟩
  | .or cs, s, h => by
    rw [WherePlain] at h
    simp only [Where.build, Where.refs]
    refine yields_map (wheres_yield hX ho cs s h) (fun e he => ?_) fun a s' he => ?_
    · rw [he]; exact ⟨_, rfl⟩
    · rw [he]; exact ⟨_, _, rfl⟩

theorem wheres_yield (hX : Covers X T) {t : TableId} {o : TableObj} (ho : ∀ c, HasCol T t c → c ∈ o.columns) :
    ∀ (ws : List Where) (s : BuildState), WheresPlain T t ws →
      Yields (Where.builds X t o ws s) (countsAfter X s.counts (Where.refss ws))
  | [], s, _ => by simp only [Where.builds, Where.refss, countsAfter]; exact ⟨_, _, rfl⟩
  | w :: ws, s, h => by
    rw [WheresPlain] at h
    simp only [Where.builds, Where.refss, countsAfter_append]
    have h1 := where_yields hX ho w s h.1
    cases hc : countsAfter X s.counts w.refs with
    | none =>
      rw [hc] at h1
      obtain ⟨e, he⟩ := h1
      rw [he]
      exact ⟨e, rfl⟩
    | some c =>
      rw [hc] at h1
      obtain ⟨a, f, he⟩ := h1
      rw [he]
      refine yields_map (wheres_yield hX ho ws ⟨c, f⟩ h.2) (fun e he => ?_) fun a s' he => ?_
      · dsimp only; rw [he]; exact ⟨_, rfl⟩
      · dsimp only; rw [he]; exact ⟨_, _, rfl⟩

theorem sel_yields (hX : Covers X T) : ∀ (x : Sel) (s : BuildState), SelPlain T x →
    Yields (Sel.build X x s) (countsAfter X s.counts x.refs)
  | .mk cols t none limit joins outer tag, s, h => by
    rw [SelPlain] at h
    simp only [Sel.build, Sel.refs]
    rcases call_yields (X := X) t s ((joins.getD []).map Join.right) with ⟨e, h1, h2⟩ | ⟨o, s1, h1, h2⟩
    · rw [h1, h2]
      exact ⟨e, rfl⟩
    · have ho := hX _ _ _ _ h1
      obtain ⟨items, h3⟩ := items_exist (o := o) (cols := cols) fun c hc => ho c (h.2.1 c hc)
      rw [h1, h2]
      dsimp only
      rw [h3]
      rcases from_yields hX (o := o) (outer := outer) (joins := joins) s1
        (fun j hj => ⟨fun c hc => ho c ((h.2.2 j hj).1 c hc), (h.2.2 j hj).2⟩) with ⟨e, h4, h5⟩ | ⟨f, cs, g, s2, h4, h5⟩
      · rw [h5]
        dsimp only
        rw [h4]
        exact ⟨e, rfl⟩
      · rw [h5]
        dsimp only
        rw [h4]
        exact ⟨_, _, rfl⟩
  | .mk cols t (some w) limit joins outer tag, s, h => by
    rw [SelPlain] at h
    simp only [Sel.build, Sel.refs]
    rcases call_yields (X := X) t s ((joins.getD []).map Join.right ++ w.refs) with ⟨e, h1, h2⟩ | ⟨o, s1, h1, h2⟩
    · rw [h1, h2]
      exact ⟨e, rfl⟩
    · have ho := hX _ _ _ _ h1
      obtain ⟨items, h3⟩ := items_exist (o := o) (cols := cols) fun c hc => ho c (h.2.1 c hc)
      rw [h1, h2, countsAfter_append]
      dsimp only
      rw [h3]
      rcases from_yields hX (o := o) (outer := outer) (joins := joins) s1
        (fun j hj => ⟨fun c hc => ho c ((h.2.2.1 j hj).1 c hc), (h.2.2.1 j hj).2⟩) with ⟨e, h4, h5⟩ | ⟨f, cs, g, s2, h4, h5⟩
      · rw [h5]
        dsimp only
        rw [h4]
        exact ⟨e, rfl⟩
      · rw [h5]
        dsimp only
        rw [h4]
        refine yields_map (where_yields hX ho w s2 h.2.2.2) (fun e he => ?_) fun a s' he => ?_
        · dsimp only; rw [he]; exact ⟨_, rfl⟩
        · dsimp only; rw [he]; exact ⟨_, _, rfl⟩

theorem sels_yield (hX : Covers X T) : ∀ (xs : List Sel) (s : BuildState), SelsPlain T xs →
    Yields (Sel.builds X xs s) (countsAfter X s.counts (Sel.refss xs))
  | [], s, _ => by simp only [Sel.builds, Sel.refss, countsAfter]; exact ⟨_, _, rfl⟩
  | x :: xs, s, h => by
    rw [SelsPlain] at h
    simp only [Sel.builds, Sel.refss, countsAfter_append]
    have h1 := sel_yields hX x s h.1
    cases hc : countsAfter X s.counts x.refs with
    | none =>
      rw [hc] at h1
      obtain ⟨e, he⟩ := h1
      rw [he]
      exact ⟨e, rfl⟩
    | some c =>
      rw [hc] at h1
      obtain ⟨a, f, he⟩ := h1
      rw [he]
      refine yields_map (sels_yield hX xs ⟨c, f⟩ h.2) (fun e he => ?_) fun a s' he => ?_
      · dsimp only; rw [he]; exact ⟨_, rfl⟩
      · dsimp only; rw [he]; exact ⟨_, _, rfl⟩

theorem stmt_yields (hX : Covers X T) : ∀ (x : Stmt) (s : BuildState), StmtPlain T x →
    Yields (Stmt.build X x s) (countsAfter X s.counts x.refs)
  | .select x, s, h => by
    rw [StmtPlain] at h
    simp only [Stmt.build, Stmt.refs]
    exact sel_yields hX x s h
  | .union xs, s, h => by
    rw [StmtPlain] at h
    simp only [Stmt.build, Stmt.refs]
    refine yields_map (sels_yield hX xs s h) (fun e he => ?_) fun a s' he => ?_
    · rw [he]; exact ⟨_, rfl⟩
    · rw [he]; exact ⟨_, _, rfl⟩
end

end Subsetter
