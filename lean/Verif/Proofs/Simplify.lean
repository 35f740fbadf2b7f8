import Verif.Spec.Sql
import Mathlib.Data.List.Forall2
import Mathlib.Data.List.Dedup
import Mathlib.Tactic.Ring
import Mathlib.Tactic.Linarith

/- Simplification preserves meaning; helper lemmas for C20, C21. -/
set_option linter.unusedSimpArgs false

namespace Subsetter

namespace Sel
variable (c : Option (List Str)) (f : TableId) (w : Option Where) (l : Option Nat)
  (j : Option (List Join)) (o : Bool) (g : Nat)
@[simp] theorem columns_mk : (mk c f w l j o g).columns = c := rfl
@[simp] theorem from_mk : (mk c f w l j o g).from_ = f := rfl
@[simp] theorem where_mk : (mk c f w l j o g).where_ = w := rfl
@[simp] theorem limit_mk : (mk c f w l j o g).limit = l := rfl
@[simp] theorem joins_mk : (mk c f w l j o g).joins = j := rfl
@[simp] theorem joinsOuter_mk : (mk c f w l j o g).joinsOuter = o := rfl
@[simp] theorem tag_mk : (mk c f w l j o g).tag = g := rfl
end Sel

theorem mapM_ok_iff {ε : Type} {α β : Type} {f : α → Except ε β} : ∀ {l : List α} {l' : List β},
    l.mapM f = .ok l' ↔ List.Forall₂ (fun a b => f a = .ok b) l l' := by
  intro l
  induction l with
  | nil =>
    intro l'
    simp only [List.mapM_nil, List.forall₂_nil_left_iff]
    constructor
    · intro h; cases h; rfl
    · rintro rfl; rfl
  | cons a l ih =>
    intro l'
    rw [List.mapM_cons, List.forall₂_cons_left_iff]
    constructor
    · intro h
      cases ha : f a with
      | error e => rw [ha] at h; cases h
      | ok b =>
        rw [ha] at h
        cases hl : l.mapM f with
        | error e => rw [hl] at h; cases h
        | ok bs =>
          rw [hl] at h; cases h
          exact ⟨b, bs, rfl, ih.1 hl, rfl⟩
    · rintro ⟨b, bs, h1, h2, rfl⟩
      rw [h1, ih.2 h2]; rfl

theorem any3_true {l : List (Option Bool)} : any3 l = some true ↔ some true ∈ l := by
  induction l with
  | nil => simp [any3]
  | cons a l ih =>
    have : any3 (a :: l) = or3 a (any3 l) := rfl
    rw [this, List.mem_cons, ← ih]
    rcases a with _ | _ | _ <;> rcases h : any3 l with _ | _ | _ <;> simp [or3]

theorem any3_false {l : List (Option Bool)} : any3 l = some false ↔ ∀ x ∈ l, x = some false := by
  induction l with
  | nil => simp [any3]
  | cons a l ih =>
    have : any3 (a :: l) = or3 a (any3 l) := rfl
    rw [this, List.forall_mem_cons, ← ih]
    rcases a with _ | _ | _ <;> rcases h : any3 l with _ | _ | _ <;> simp [or3]

theorem all3_true {l : List (Option Bool)} : all3 l = some true ↔ ∀ x ∈ l, x = some true := by
  induction l with
  | nil => simp [all3]
  | cons a l ih =>
    have : all3 (a :: l) = and3 a (all3 l) := rfl
    rw [this, List.forall_mem_cons, ← ih]
    rcases a with _ | _ | _ <;> rcases h : all3 l with _ | _ | _ <;> simp [and3]

theorem all3_false {l : List (Option Bool)} : all3 l = some false ↔ some false ∈ l := by
  induction l with
  | nil => simp [all3]
  | cons a l ih =>
    have : all3 (a :: l) = and3 a (all3 l) := rfl
    rw [this, List.mem_cons, ← ih]
    rcases a with _ | _ | _ <;> rcases h : all3 l with _ | _ | _ <;> simp [and3]

theorem opt_bool_ext {a b : Option Bool} (h1 : a = some true ↔ b = some true)
    (h2 : a = some false ↔ b = some false) : a = b := by
  rcases a with _ | _ | _ <;> rcases b with _ | _ | _ <;> simp_all

theorem any3_congr {l l' : List (Option Bool)} (h : ∀ x, x ∈ l ↔ x ∈ l') : any3 l = any3 l' :=
  opt_bool_ext (by rw [any3_true, any3_true, h]) (by simp only [any3_false, h])

theorem all3_congr {l l' : List (Option Bool)} (h : ∀ x, x ∈ l ↔ x ∈ l') : all3 l = all3 l' :=
  opt_bool_ext (by simp only [all3_true, h]) (by rw [all3_false, all3_false, h])

theorem any3_append (l l' : List (Option Bool)) : any3 (l ++ l') = or3 (any3 l) (any3 l') := by
  refine opt_bool_ext ?_ ?_
  · rw [any3_true]
    have h1 := any3_true (l := l); have h2 := any3_true (l := l')
    rw [List.mem_append, ← h1, ← h2]
    rcases any3 l with _ | _ | _ <;> rcases any3 l' with _ | _ | _ <;> simp [or3]
  · rw [any3_false]
    have h1 := any3_false (l := l); have h2 := any3_false (l := l')
    rw [List.forall_mem_append, ← h1, ← h2]
    rcases any3 l with _ | _ | _ <;> rcases any3 l' with _ | _ | _ <;> simp [or3]

theorem all3_append (l l' : List (Option Bool)) : all3 (l ++ l') = and3 (all3 l) (all3 l') := by
  refine opt_bool_ext ?_ ?_
  · rw [all3_true]
    have h1 := all3_true (l := l); have h2 := all3_true (l := l')
    rw [List.forall_mem_append, ← h1, ← h2]
    rcases all3 l with _ | _ | _ <;> rcases all3 l' with _ | _ | _ <;> simp [and3]
  · rw [all3_false]
    have h1 := all3_false (l := l); have h2 := all3_false (l := l')
    rw [List.mem_append, ← h1, ← h2]
    rcases all3 l with _ | _ | _ <;> rcases all3 l' with _ | _ | _ <;> simp [and3]

@[simp] theorem or3_true_left (b : Option Bool) : or3 (some true) b = some true := by
  rcases b with _ | _ | _ <;> rfl
@[simp] theorem or3_false_left (b : Option Bool) : or3 (some false) b = b := by
  rcases b with _ | _ | _ <;> rfl
@[simp] theorem or3_false_right (b : Option Bool) : or3 b (some false) = b := by
  rcases b with _ | _ | _ <;> rfl
@[simp] theorem and3_false_left (b : Option Bool) : and3 (some false) b = some false := by
  rcases b with _ | _ | _ <;> rfl
@[simp] theorem and3_true_left (b : Option Bool) : and3 (some true) b = b := by
  rcases b with _ | _ | _ <;> rfl
@[simp] theorem and3_true_right (b : Option Bool) : and3 b (some true) = b := by
  rcases b with _ | _ | _ <;> rfl

theorem in3_congr {vs : List Val} {l l' : List (List Val)} (h : ∀ x, x ∈ l ↔ x ∈ l') :
    in3 vs l = in3 vs l' := by
  unfold in3
  refine any3_congr fun x => ?_
  simp only [List.mem_map, h]

section
variable {E : Engine} {D : Env} {t : TableId} {i : Nat} {r : Row}

theorem evals_eq_map (cs : List Where) : Where.evals E D t i r cs = cs.map (Where.eval E D t i r) := by
  induction cs with
  | nil => rfl
  | cons c cs ih => rw [Where.evals, ih]; rfl

theorem selEvals_eq_map (ss : List Sel) : Sel.evals E D ss = ss.map (Sel.eval E D) := by
  induction ss with
  | nil => rfl
  | cons c cs ih => rw [Sel.evals, ih]; rfl

theorem eval_and (cs : List Where) :
    Where.eval E D t i r (.and cs) = all3 (cs.map (Where.eval E D t i r)) := by
  rw [Where.eval, evals_eq_map]

theorem eval_or (cs : List Where) :
    Where.eval E D t i r (.or cs) = any3 (cs.map (Where.eval E D t i r)) := by
  rw [Where.eval, evals_eq_map]

theorem all3_cons (a : Option Bool) (l) : all3 (a :: l) = and3 a (all3 l) := rfl
theorem any3_cons (a : Option Bool) (l) : any3 (a :: l) = or3 a (any3 l) := rfl

theorem eval_andParts (c : Where) :
    all3 (c.andParts.map (Where.eval E D t i r)) = Where.eval E D t i r c := by
  unfold Where.andParts
  split
  · rw [eval_and]
  · simp [all3]

theorem eval_orParts (c : Where) :
    any3 (c.orParts.map (Where.eval E D t i r)) = Where.eval E D t i r c := by
  unfold Where.orParts
  split
  · rw [eval_or]
  · simp [any3]

theorem isTrue_iff {c : Where} : c.isTrue = true ↔ c = .true_ := by
  cases c <;> simp [Where.isTrue]
theorem isFalse_iff {c : Where} : c.isFalse = true ↔ c = .false_ := by
  cases c <;> simp [Where.isFalse]

theorem eval_and_flat (cs : List Where) :
    all3 (((cs.filter fun c => !c.isTrue).flatMap Where.andParts).map (Where.eval E D t i r))
      = all3 (cs.map (Where.eval E D t i r)) := by
  induction cs with
  | nil => rfl
  | cons c cs ih =>
    rw [List.map_cons, all3_cons, ← ih, List.filter_cons]
    cases h : c.isTrue with
    | true =>
      rw [isTrue_iff] at h; subst h
      simp [Where.eval]
    | false =>
      simp only [Bool.not_false, if_true, List.flatMap_cons, List.map_append, all3_append,
        eval_andParts]

theorem eval_or_flat (cs : List Where) :
    any3 (((cs.filter fun c => !c.isFalse).flatMap Where.orParts).map (Where.eval E D t i r))
      = any3 (cs.map (Where.eval E D t i r)) := by
  induction cs with
  | nil => rfl
  | cons c cs ih =>
    rw [List.map_cons, any3_cons, ← ih, List.filter_cons]
    cases h : c.isFalse with
    | true =>
      rw [isFalse_iff] at h; subst h
      simp [Where.eval]
    | false =>
      simp only [Bool.not_false, if_true, List.flatMap_cons, List.map_append, any3_append,
        eval_orParts]

theorem eval_andFinish (cs : List Where) :
    Where.eval E D t i r (andFinish cs) = all3 (cs.map (Where.eval E D t i r)) := by
  rw [← eval_and_flat]
  unfold andFinish
  generalize (cs.filter fun c => !c.isTrue).flatMap Where.andParts = l
  by_cases h : l.any Where.isFalse = true
  · simp only [h, if_true]
    rw [List.any_eq_true] at h
    obtain ⟨c, hc, hf⟩ := h
    rw [isFalse_iff] at hf; subst hf
    rw [Where.eval, eq_comm, all3_false]
    exact List.mem_map.2 ⟨_, hc, by rw [Where.eval]⟩
  · simp only [h, if_false]
    rcases l with _ | ⟨a, _ | ⟨b, l⟩⟩
    · simp [Where.eval, all3]
    · simp [all3]
    · exact eval_and _

theorem eval_orFinish (cs : List Where) :
    Where.eval E D t i r (orFinish cs) = any3 (cs.map (Where.eval E D t i r)) := by
  rw [← eval_or_flat]
  unfold orFinish
  generalize (cs.filter fun c => !c.isFalse).flatMap Where.orParts = l
  by_cases h : l.any Where.isTrue = true
  · simp only [h, if_true]
    rw [List.any_eq_true] at h
    obtain ⟨c, hc, hf⟩ := h
    rw [isTrue_iff] at hf; subst hf
    rw [Where.eval, eq_comm, any3_true]
    exact List.mem_map.2 ⟨_, hc, by rw [Where.eval]⟩
  · simp only [h, if_false]
    rcases l with _ | ⟨a, _ | ⟨b, l⟩⟩
    · simp [Where.eval, any3]
    · simp [any3]
    · exact eval_or _

theorem eval_randomSimplify (thr : Rat) (tag : Nat) :
    Where.eval E D t i r (randomSimplify thr tag) = Where.eval E D t i r (.random thr tag) := by
  unfold randomSimplify
  by_cases ha : thr ≤ 0
  · rw [if_pos ha]
    simp only [Where.eval, Option.some.injEq]
    exact (E.below_zero thr t tag i ha).symm
  · rw [if_neg ha]
    by_cases hb : 1 ≤ thr
    · rw [if_pos hb]
      simp [Where.eval, E.below_one thr t tag i hb]
    · rw [if_neg hb]
end

/-! ### MergeSafe -/

theorem mergeSafes_iff {cs : List Where} : Where.MergeSafes cs ↔ ∀ c ∈ cs, c.MergeSafe := by
  induction cs with
  | nil => simp [Where.MergeSafes]
  | cons c cs ih => simp [Where.MergeSafes, ih]

theorem selMergeSafes_iff {cs : List Sel} : Sel.MergeSafes cs ↔ ∀ c ∈ cs, c.MergeSafe := by
  induction cs with
  | nil => simp [Sel.MergeSafes]
  | cons c cs ih => simp [Sel.MergeSafes, ih]

theorem andParts_mergeSafe {c : Where} (h : c.MergeSafe) : ∀ x ∈ c.andParts, x.MergeSafe := by
  unfold Where.andParts; split
  · simpa [Where.MergeSafe, mergeSafes_iff] using h
  · simpa using h

theorem orParts_mergeSafe {c : Where} (h : c.MergeSafe) : ∀ x ∈ c.orParts, x.MergeSafe := by
  unfold Where.orParts; split
  · simpa [Where.MergeSafe, mergeSafes_iff] using h
  · simpa using h

theorem andFinish_mergeSafe {cs : List Where} (h : ∀ c ∈ cs, c.MergeSafe) :
    (andFinish cs).MergeSafe := by
  have hl : ∀ c ∈ (cs.filter fun c => !c.isTrue).flatMap Where.andParts, c.MergeSafe := by
    intro c hc
    obtain ⟨a, ha, hca⟩ := List.mem_flatMap.1 hc
    exact andParts_mergeSafe (h a (List.mem_filter.1 ha).1) c hca
  unfold andFinish
  revert hl
  generalize (cs.filter fun c => !c.isTrue).flatMap Where.andParts = l
  intro hl
  by_cases h : l.any Where.isFalse = true
  · simp [h, Where.MergeSafe]
  · simp only [h, if_false]
    rcases l with _ | ⟨a, _ | ⟨b, l⟩⟩
    · simp [Where.MergeSafe]
    · exact hl a (by simp)
    · simpa [Where.MergeSafe, mergeSafes_iff] using hl

theorem orFinish_mergeSafe {cs : List Where} (h : ∀ c ∈ cs, c.MergeSafe) :
    (orFinish cs).MergeSafe := by
  have hl : ∀ c ∈ (cs.filter fun c => !c.isFalse).flatMap Where.orParts, c.MergeSafe := by
    intro c hc
    obtain ⟨a, ha, hca⟩ := List.mem_flatMap.1 hc
    exact orParts_mergeSafe (h a (List.mem_filter.1 ha).1) c hca
  unfold orFinish
  revert hl
  generalize (cs.filter fun c => !c.isFalse).flatMap Where.orParts = l
  intro hl
  by_cases h : l.any Where.isTrue = true
  · simp [h, Where.MergeSafe]
  · simp only [h, if_false]
    rcases l with _ | ⟨a, _ | ⟨b, l⟩⟩
    · simp [Where.MergeSafe]
    · exact hl a (by simp)
    · simpa [Where.MergeSafe, mergeSafes_iff] using hl

theorem sel_mergeSafe_iff {s : Sel} : s.MergeSafe ↔ ∀ w, s.where_ = some w → w.MergeSafe := by
  obtain ⟨c, f, w, l, j, o, g⟩ := s
  cases w <;> simp [Sel.MergeSafe]

/-! ### Selects -/

/-- Truth of the where clause of a select. -/
def Sel.cond (E : Engine) (D : Env) (s : Sel) (i : Nat) (r : Row) : Bool :=
  match s.where_ with
  | none => true
  | some w => Where.eval E D s.from_ i r w == some true

theorem sel_eval_eq (E : Engine) (D : Env) (s : Sel) :
    s.eval E D = (applyLimit E s.from_ s.tag s.limit
      (fromWhere D s.from_ s.joins s.joinsOuter (s.cond E D))).map (project s.columns) := by
  obtain ⟨c, f, w, l, j, o, g⟩ := s
  cases w <;> rfl

theorem fromWhere_joins_norm (D : Env) (t : TableId) (j : Option (List Join)) (o : Bool)
    (cond : Nat → Row → Bool) :
    fromWhere D t (match j with
      | none => none
      | some [] => none
      | some (j :: js) => some (j :: js))
      (match j with
      | none => false
      | some [] => false
      | some (_ :: _) => o) cond = fromWhere D t j o cond := by
  rcases j with _ | ⟨_ | ⟨a, l⟩⟩ <;> rfl

theorem selFinish_eval (E : Engine) (D : Env) (s : Sel) (w w' : Where) (hw : s.where_ = some w)
    (h : ∀ i r, Where.eval E D s.from_ i r w' = Where.eval E D s.from_ i r w) :
    (selFinish s w').eval E D = s.eval E D := by
  rw [sel_eval_eq, sel_eval_eq]
  have hc : (selFinish s w').cond E D = s.cond E D := by
    funext i r
    unfold Sel.cond
    rw [hw]
    simp only [selFinish, Sel.where_mk, Sel.from_mk]
    cases ht : w'.isTrue with
    | true =>
      rw [isTrue_iff] at ht; subst ht
      simp only [if_true]
      have := h i r
      rw [Where.eval] at this
      rw [← this]; rfl
    | false =>
      simp only [Bool.false_eq_true, if_false]
      rw [← h i r]
  rw [hc]
  have h2 := fromWhere_joins_norm D s.from_ s.joins s.joinsOuter (s.cond E D)
  simp only [selFinish, Sel.from_mk, Sel.tag_mk, Sel.limit_mk, Sel.columns_mk, Sel.joins_mk, Sel.joinsOuter_mk]
  exact congrArg (fun l => List.map (project s.columns) (applyLimit E s.from_ s.tag s.limit l)) h2

theorem applyLimit_nil (E : Engine) (t : TableId) (g : Nat) (l : Option Nat) :
    applyLimit E t g l [] = [] := by
  cases l with
  | none => rfl
  | some n =>
    have := E.shuffle_perm t g []
    simp only [applyLimit]
    rw [List.perm_nil.1 this]; simp

theorem groupBy_nil (key : Row → List Val) (s) : groupBy key [] s = [] := rfl

theorem fromWhere_false (D : Env) (t : TableId) (j : Option (List Join)) (o : Bool)
    (cond : Nat → Row → Bool) (h : ∀ i r, cond i r = false) : fromWhere D t j o cond = [] := by
  rcases j with _ | ⟨_ | ⟨a, l⟩⟩
  · simp [fromWhere, h]
  · simp [fromWhere, h]
  · simp only [fromWhere, h, Bool.and_false]
    have : ∀ l : List (Row × Nat), (l.flatMap fun _ => ([] : List Row)) = [] := by
      intro l; induction l <;> simp_all
    simp [groupBy, this]

theorem sel_eval_false {E : Engine} {D : Env} {s : Sel} (h : s.where_ = some .false_) :
    s.eval E D = [] := by
  rw [sel_eval_eq, fromWhere_false, applyLimit_nil]; rfl
  intro i r
  simp [Sel.cond, h, Where.eval]

theorem fromWhere_joinFree {D : Env} {t : TableId} {j : Option (List Join)} {o : Bool}
    {cond : Nat → Row → Bool} (h : j = none ∨ j = some []) :
    fromWhere D t j o cond = ((D.rows t).zipIdx.filter fun p => cond p.2 p.1).map Prod.fst := by
  rcases h with rfl | rfl <;> rfl

theorem mem_eval_joinFree {E : Engine} {D : Env} {s : Sel} (hj : s.JoinFree) (hl : s.limit = none)
    (r : Row) : r ∈ s.eval E D ↔
      ∃ p ∈ (D.rows s.from_).zipIdx, s.cond E D p.2 p.1 = true ∧ project s.columns p.1 = r := by
  rw [sel_eval_eq, hl, fromWhere_joinFree hj]
  simp only [applyLimit, List.map_map, List.mem_map, List.mem_filter, Function.comp]
  constructor
  · rintro ⟨p, ⟨h1, h2⟩, h3⟩; exact ⟨p, h1, h2, h3⟩
  · rintro ⟨p, h1, h2, h3⟩; exact ⟨p, ⟨h1, h2⟩, h3⟩

/-- Merging join-free selects of one table into one select with OR. -/
theorem mem_mergedSel {E : Engine} {D : Env} {s0 : Sel} {ss : List Sel}
    (hm : canMerge s0 ss = true) (hj : ∀ s ∈ ss, s.JoinFree) (r : Row) :
    r ∈ (mergedSel s0 ss).eval E D ↔ ∃ s ∈ ss, r ∈ s.eval E D := by
  have hm' : ∀ s ∈ ss, s.from_ = s0.from_ ∧ s.columns = s0.columns ∧ s.limit = none := by
    intro s hs
    have := (List.all_eq_true.1 hm) s hs
    simpa [and_assoc] using this
  rw [mem_eval_joinFree (Or.inl rfl) rfl]
  have hcond : ∀ i r, (mergedSel s0 ss).cond E D i r = true ↔ ∃ s ∈ ss, s.cond E D i r = true := by
    intro i r
    simp only [Sel.cond, mergedSel, Sel.where_mk, Sel.from_mk, eval_or, beq_iff_eq, any3_true,
      List.map_map, List.mem_map, Function.comp]
    constructor
    · rintro ⟨s, hs, h⟩
      refine ⟨s, hs, ?_⟩
      cases hw : s.where_ with
      | none => rfl
      | some w =>
        rw [hw] at h
        simp only [Option.getD_some] at h
        simp only [beq_iff_eq]
        have := (hm' s hs).1
        rw [this]; exact h
    · rintro ⟨s, hs, h⟩
      refine ⟨s, hs, ?_⟩
      cases hw : s.where_ with
      | none => simp [Where.eval]
      | some w =>
        rw [hw] at h
        simp only [beq_iff_eq] at h
        rw [(hm' s hs).1] at h
        exact h
  constructor
  · rintro ⟨p, hp, hc, hpr⟩
    obtain ⟨s, hs, hc⟩ := (hcond _ _).1 hc
    obtain ⟨h1, h2, h3⟩ := hm' s hs
    refine ⟨s, hs, (mem_eval_joinFree (hj s hs) h3 r).2 ⟨p, ?_, hc, ?_⟩⟩
    · rw [h1]; exact hp
    · rw [h2]; exact hpr
  · rintro ⟨s, hs, hr⟩
    obtain ⟨h1, h2, h3⟩ := hm' s hs
    obtain ⟨p, hp, hc, hpr⟩ := (mem_eval_joinFree (hj s hs) h3 r).1 hr
    refine ⟨p, ?_, (hcond _ _).2 ⟨s, hs, hc⟩, ?_⟩
    · rw [h1] at hp; exact hp
    · rw [h2] at hpr; exact hpr

theorem mem_union_eval {E : Engine} {D : Env} {ss : List Sel} {r : Row} :
    r ∈ Stmt.eval E D (.union ss) ↔ ∃ s ∈ ss, r ∈ s.eval E D := by
  rw [Stmt.eval, List.mem_dedup, selEvals_eq_map]
  simp

theorem mergedSel_mergeSafe {s0 : Sel} {ss : List Sel} (h : ∀ s ∈ ss, s.MergeSafe) :
    (mergedSel s0 ss).MergeSafe := by
  simp only [mergedSel, Sel.MergeSafe, Where.MergeSafe, mergeSafes_iff, List.mem_map]
  rintro c ⟨s, hs, rfl⟩
  cases hw : s.where_ with
  | none => simp [Where.MergeSafe]
  | some w => exact sel_mergeSafe_iff.1 (h s hs) w hw

theorem selFinish_mergeSafe {s : Sel} {w : Where} (h : w.MergeSafe) : (selFinish s w).MergeSafe := by
  rw [sel_mergeSafe_iff]
  intro w' hw'
  simp only [selFinish, Sel.where_mk] at hw'
  split at hw'
  · cases hw'
  · cases hw'; exact h

theorem selFinish_joinFree {s : Sel} {w : Where} (h : s.JoinFree) : (selFinish s w).JoinFree := by
  unfold Sel.JoinFree at *
  rcases h with h | h <;> simp [selFinish, h]

/-- What simplification of a select keeps. -/
structure SelSame (s s' : Sel) : Prop where
  from_ : s'.from_ = s.from_
  columns : s'.columns = s.columns
  limit : s'.limit = s.limit
  joinFree : s.JoinFree → s'.JoinFree
  safe : s'.MergeSafe
  eval : ∀ E D, s'.eval E D = s.eval E D

theorem forall₂_of_forall₂ {α β : Type} {R S : α → β → Prop} {l : List α} {l' : List β}
    (h : List.Forall₂ R l l') (hi : ∀ a b, a ∈ l → b ∈ l' → R a b → S a b) : List.Forall₂ S l l' := by
  induction h with
  | nil => exact .nil
  | cons hab _ ih =>
    refine .cons (hi _ _ (by simp) (by simp) hab) (ih fun a b ha hb => hi a b ?_ ?_)
    · exact List.mem_cons_of_mem _ ha
    · exact List.mem_cons_of_mem _ hb

theorem forall₂_exists_left {α β : Type} {R : α → β → Prop} {l : List α} {l' : List β}
    (h : List.Forall₂ R l l') {a : α} (ha : a ∈ l) : ∃ b ∈ l', R a b := by
  induction h with
  | nil => simp at ha
  | cons hab _ ih =>
    rcases List.mem_cons.1 ha with rfl | ha
    · exact ⟨_, by simp, hab⟩
    · obtain ⟨b, hb, h⟩ := ih ha; exact ⟨b, by simp [hb], h⟩

theorem forall₂_exists_right {α β : Type} {R : α → β → Prop} {l : List α} {l' : List β}
    (h : List.Forall₂ R l l') {b : β} (hb : b ∈ l') : ∃ a ∈ l, R a b := by
  induction h with
  | nil => simp at hb
  | cons hab _ ih =>
    rcases List.mem_cons.1 hb with rfl | hb
    · exact ⟨_, by simp, hab⟩
    · obtain ⟨a, ha, h⟩ := ih hb; exact ⟨a, by simp [ha], h⟩

theorem forall₂_map_eq {α β γ : Type} {f : α → γ} {g : β → γ} {l : List α} {l' : List β}
    (h : List.Forall₂ (fun a b => f a = g b) l l') : l.map f = l'.map g := by
  induction h with
  | nil => rfl
  | cons hab _ ih => simp [hab, ih]

theorem noLimit_count {l l' : List Sel} (h : List.Forall₂ (fun a b : Sel => b.limit = a.limit) l l') :
    (l'.filter fun s => s.limit.isNone).length = (l.filter fun s => s.limit.isNone).length := by
  induction h with
  | nil => rfl
  | cons hab _ ih => simp only [List.filter_cons, hab]; split <;> simp [ih]

theorem simp_correct : ∀ n : Nat,
    (∀ w w', simpW n w = .ok w' → w.MergeSafe →
      w'.MergeSafe ∧ ∀ E D t i r, Where.eval E D t i r w' = Where.eval E D t i r w) ∧
    (∀ s s', simpSel n s = .ok s' → s.MergeSafe → SelSame s s') ∧
    (∀ st st', simpStmt n st = .ok st' → st.MergeSafe →
      st'.MergeSafe ∧ ∀ E D r, r ∈ Stmt.eval E D st' ↔ r ∈ Stmt.eval E D st) := by
  intro n
  induction n with
  | zero =>
    refine ⟨?_, ?_, ?_⟩ <;> intro a b h <;> simp [simpW, simpSel, simpStmt] at h
  | succ n ih =>
    obtain ⟨ihW, ihS, ihT⟩ := ih
    have hmap : ∀ (cs cs' : List Where), cs.mapM (simpW n) = .ok cs' → Where.MergeSafes cs →
        (∀ c ∈ cs', c.MergeSafe) ∧
        ∀ E D t i r, cs'.map (Where.eval E D t i r) = cs.map (Where.eval E D t i r) := by
      intro cs cs' h hs
      rw [mapM_ok_iff] at h
      rw [mergeSafes_iff] at hs
      have h2 := forall₂_of_forall₂ (S := fun a b => b.MergeSafe ∧
        ∀ E D t i r, Where.eval E D t i r b = Where.eval E D t i r a) h
        (fun a b ha _ hab => ihW a b hab (hs a ha))
      refine ⟨fun c hc => ?_, fun E D t i r => ?_⟩
      · obtain ⟨a, -, h3, -⟩ := forall₂_exists_right h2 hc; exact h3
      · exact (forall₂_map_eq (forall₂_of_forall₂ h2
          (fun a b _ _ hab => (hab.2 E D t i r).symm))).symm
    refine ⟨?_, ?_, ?_⟩
    · intro w w' h hs
      cases w with
      | false_ => simp [simpW] at h; subst h; exact ⟨hs, fun _ _ _ _ _ => rfl⟩
      | true_ => simp [simpW] at h; subst h; exact ⟨hs, fun _ _ _ _ _ => rfl⟩
      | op o c v => simp [simpW] at h; subst h; exact ⟨hs, fun _ _ _ _ _ => rfl⟩
      | inVals cs vs neg => simp [simpW] at h; subst h; exact ⟨hs, fun _ _ _ _ _ => rfl⟩
      | sql s => simp [simpW] at h; subst h; exact ⟨hs, fun _ _ _ _ _ => rfl⟩
      | random thr tag =>
        simp [simpW] at h; subst h
        refine ⟨?_, fun _ _ _ _ _ => eval_randomSimplify thr tag⟩
        unfold randomSimplify
        split
        · simp [Where.MergeSafe]
        · split <;> simp [Where.MergeSafe]
      | inStmt cs st neg =>
        simp only [simpW] at h
        cases hst : simpStmt n st with
        | error e => rw [hst] at h; cases h
        | ok st' =>
          rw [hst] at h; cases h
          obtain ⟨h1, h2⟩ := ihT st st' hst (by simpa [Where.MergeSafe] using hs)
          refine ⟨by simpa [Where.MergeSafe] using h1, fun E D t i r => ?_⟩
          simp only [Where.eval]
          rw [in3_congr (l := (Stmt.eval E D st').map _) (l' := (Stmt.eval E D st).map _)]
          intro x
          simp only [List.mem_map, h2]
      | and cs =>
        simp only [simpW] at h
        cases hm : cs.mapM (simpW n) with
        | error e => rw [hm] at h; cases h
        | ok cs' =>
          rw [hm] at h; cases h
          obtain ⟨h1, h2⟩ := hmap cs cs' hm (by simpa [Where.MergeSafe] using hs)
          refine ⟨andFinish_mergeSafe h1, fun E D t i r => ?_⟩
          rw [eval_andFinish, eval_and, h2]
      | or cs =>
        simp only [simpW] at h
        cases hm : cs.mapM (simpW n) with
        | error e => rw [hm] at h; cases h
        | ok cs' =>
          rw [hm] at h; cases h
          obtain ⟨h1, h2⟩ := hmap cs cs' hm (by simpa [Where.MergeSafe] using hs)
          refine ⟨orFinish_mergeSafe h1, fun E D t i r => ?_⟩
          rw [eval_orFinish, eval_or, h2]
    · intro s s' h hs
      simp only [simpSel] at h
      cases hw : s.where_ with
      | none => rw [hw] at h; cases h; exact ⟨rfl, rfl, rfl, id, hs, fun _ _ => rfl⟩
      | some w =>
        rw [hw] at h
        simp only at h
        cases hw' : simpW n w with
        | error e => rw [hw'] at h; cases h
        | ok w' =>
          rw [hw'] at h; cases h
          obtain ⟨h1, h2⟩ := ihW w w' hw' (sel_mergeSafe_iff.1 hs w hw)
          exact ⟨rfl, rfl, rfl, selFinish_joinFree, selFinish_mergeSafe h1,
            fun E D => selFinish_eval E D s w w' hw fun i r => h2 E D _ i r⟩
    · intro st st' h hs
      cases st with
      | select s =>
        simp only [simpStmt] at h
        cases hs' : simpSel n s with
        | error e => rw [hs'] at h; cases h
        | ok s' =>
          rw [hs'] at h; cases h
          have := ihS s s' hs' (by simpa [Stmt.MergeSafe] using hs)
          exact ⟨by simpa [Stmt.MergeSafe] using this.safe,
            fun E D r => by rw [Stmt.eval, Stmt.eval, this.eval]⟩
      | union ss =>
        simp only [Stmt.MergeSafe, selMergeSafes_iff] at hs
        obtain ⟨hsafe, hmerge⟩ := hs
        simp only [simpStmt] at h
        cases hm : ss.mapM (simpSel n) with
        | error e => rw [hm] at h; cases h
        | ok all =>
          rw [hm] at h
          simp only at h
          have hF := forall₂_of_forall₂ (S := SelSame) (mapM_ok_iff.1 hm)
            (fun a b ha _ hab => ihS a b hab (hsafe a ha))
          have hall : ∀ E D r, (∃ s ∈ all, r ∈ s.eval E D) ↔ ∃ s ∈ ss, r ∈ s.eval E D := by
            intro E D r
            constructor
            · rintro ⟨b, hb, hr⟩
              obtain ⟨a, ha, hab⟩ := forall₂_exists_right hF hb
              exact ⟨a, ha, by rw [← hab.eval]; exact hr⟩
            · rintro ⟨a, ha, hr⟩
              obtain ⟨b, hb, hab⟩ := forall₂_exists_left hF ha
              exact ⟨b, hb, by rw [hab.eval]; exact hr⟩
          have hsafe' : ∀ s ∈ all, s.MergeSafe := by
            intro b hb
            obtain ⟨a, ha, hab⟩ := forall₂_exists_right hF hb
            exact hab.safe
          have hmerge' : (∀ s ∈ all, s.JoinFree) ∨
              (all.filter fun s => s.limit.isNone).length ≤ 1 := by
            rcases hmerge with h1 | h1
            · left
              intro b hb
              obtain ⟨a, ha, hab⟩ := forall₂_exists_right hF hb
              exact hab.joinFree (h1 a ha)
            · right
              rw [noLimit_count (forall₂_of_forall₂ hF fun a b _ _ hab => hab.limit)]
              exact h1
          have hfil : ∀ E D r, (∃ s ∈ all.filter (fun s => !(s.where_.getD .true_).isFalse),
              r ∈ s.eval E D) ↔ ∃ s ∈ all, r ∈ s.eval E D := by
            intro E D r
            constructor
            · rintro ⟨s, hs, hr⟩; exact ⟨s, (List.mem_filter.1 hs).1, hr⟩
            · rintro ⟨s, hs, hr⟩
              refine ⟨s, List.mem_filter.2 ⟨hs, ?_⟩, hr⟩
              cases hw : s.where_ with
              | none => rfl
              | some w =>
                simp only [Option.getD_some]
                cases hf : w.isFalse with
                | false => rfl
                | true =>
                  rw [isFalse_iff] at hf; subst hf
                  rw [sel_eval_false hw] at hr; simp at hr
          have hsub : ∀ s ∈ all.filter (fun s => !(s.where_.getD .true_).isFalse), s ∈ all :=
            fun s hs => (List.mem_filter.1 hs).1
          have hcnt : (((all.filter (fun s => !(s.where_.getD .true_).isFalse)).filter
              fun s => s.limit.isNone)).length ≤ (all.filter fun s => s.limit.isNone).length := by
            apply List.Sublist.length_le
            exact List.Sublist.filter _ (List.filter_sublist)
          revert h hfil hsub hcnt
          generalize all.filter (fun s => !(s.where_.getD .true_).isFalse) = kept
          intro h hfil hsub hcnt
          have key : ∀ E D r, (∃ s ∈ kept, r ∈ s.eval E D) ↔ r ∈ Stmt.eval E D (.union ss) := by
            intro E D r; rw [hfil, hall, mem_union_eval]
          rcases kept with _ | ⟨s0, _ | ⟨s1, rest⟩⟩
          · rcases ss with _ | ⟨s, ss⟩
            · simp at h
            · simp only at h
              cases hs' : simpSel n s with
              | error e => rw [hs'] at h; cases h
              | ok s' =>
                rw [hs'] at h; cases h
                have := ihS s s' hs' (hsafe s (by simp))
                refine ⟨by simpa [Stmt.MergeSafe] using this.safe, fun E D r => ?_⟩
                have hk := key E D r
                simp only [List.not_mem_nil, false_and, exists_false, false_iff] at hk
                rw [mem_union_eval] at hk ⊢
                rw [Stmt.eval, this.eval]
                constructor
                · intro hr; exact ⟨s, by simp, hr⟩
                · intro hr; exact absurd hr hk
          · simp only at h
            cases h
            refine ⟨by simpa [Stmt.MergeSafe] using hsafe' s0 (hsub s0 (by simp)), fun E D r => ?_⟩
            rw [← key E D r, Stmt.eval]; simp
          · simp only at h
            by_cases hc : canMerge s0 (s0 :: s1 :: rest) = true
            · rw [if_pos hc] at h
              cases hs' : simpSel n (mergedSel s0 (s0 :: s1 :: rest)) with
              | error e => rw [hs'] at h; cases h
              | ok s' =>
                rw [hs'] at h; cases h
                have hjf : ∀ s ∈ s0 :: s1 :: rest, s.JoinFree := by
                  rcases hmerge' with h1 | h1
                  · exact fun s hs => h1 s (hsub s hs)
                  · exfalso
                    have hlim : ∀ s ∈ s0 :: s1 :: rest, s.limit.isNone = true := by
                      intro s hs
                      have := (List.all_eq_true.1 hc) s hs
                      simp only [Bool.and_eq_true] at this
                      exact this.2
                    have h2 := List.filter_eq_self.2 hlim
                    rw [h2] at hcnt
                    simp only [List.length_cons] at hcnt
                    omega
                have := ihS _ s' hs' (mergedSel_mergeSafe fun s hs => hsafe' s (hsub s hs))
                refine ⟨by simpa [Stmt.MergeSafe] using this.safe, fun E D r => ?_⟩
                rw [Stmt.eval, this.eval, mem_mergedSel hc hjf, key]
            · rw [if_neg hc] at h
              cases h
              refine ⟨?_, fun E D r => ?_⟩
              · simp only [Stmt.MergeSafe, selMergeSafes_iff]
                refine ⟨fun s hs => hsafe' s (hsub s hs), ?_⟩
                rcases hmerge' with h1 | h1
                · exact Or.inl fun s hs => h1 s (hsub s hs)
                · exact Or.inr (le_trans hcnt h1)
              · rw [mem_union_eval, key]

end Subsetter
