import Verif.Spec.Planner
import Verif.Proofs.Simplify
import Verif.Proofs.SimplifyTotal
import Verif.Proofs.SimpRefs
import Verif.Proofs.JoinSem
import Mathlib.Data.List.Sort

/- What `_plan_table` produces. -/
set_option linter.unusedSimpArgs false
namespace Subsetter
open Spec

theorem mem_sortFks {l : List ForeignKey} {fk : ForeignKey} : fk ∈ sortFks l ↔ fk ∈ l := by
  unfold sortFks; exact List.mem_insertionSort _

theorem sortFks_isEmpty {l : List ForeignKey} : (sortFks l).isEmpty = l.isEmpty := by
  have h : (sortFks l).length = l.length := List.length_insertionSort _ _
  cases h1 : sortFks l <;> cases h2 : l <;> simp_all

/-- Clauses that simplification leaves alone or turns into a constant. -/
def Where.Flat : Where → Prop
  | .op _ _ _ => True
  | .inVals _ _ _ => True
  | .random _ _ => True
  | .sql _ => True
  | _ => False

theorem Where.Flat.mergeSafe {w : Where} (h : w.Flat) : w.MergeSafe := by
  cases w <;> simp_all [Where.Flat, Where.MergeSafe]

theorem Where.Flat.noEmptyUnion {w : Where} (h : w.Flat) : w.NoEmptyUnion := by
  cases w <;> simp_all [Where.Flat, Where.NoEmptyUnion]

theorem Where.Flat.refs {w : Where} (h : w.Flat) : w.refs = [] := by
  cases w <;> simp_all [Where.Flat, Where.refs]

theorem and_mergeSafe {cs : List Where} (h : ∀ c ∈ cs, c.Flat) : (Where.and cs).MergeSafe := by
  rw [Where.MergeSafe, mergeSafes_iff]; exact fun c hc => (h c hc).mergeSafe

theorem and_noEmptyUnion {cs : List Where} (h : ∀ c ∈ cs, c.Flat) :
    (Where.and cs).NoEmptyUnion := by
  rw [Where.NoEmptyUnion, noEmptyUnions_iff]; exact fun c hc => (h c hc).noEmptyUnion

theorem and_refs {cs : List Where} (h : ∀ c ∈ cs, c.Flat) : (Where.and cs).refs = [] := by
  rw [List.eq_nil_iff_forall_not_mem]
  intro x hx
  simp only [Where.refs] at hx
  obtain ⟨w, hw, hxw⟩ := mem_refss.1 hx
  rw [(h w hw).refs] at hxw; simp at hxw

/-! ### Constraints -/

theorem constraintClauses_ok {t : TableMeta} : ∀ {cs : List ColumnConstraint} {ws : List Where},
    constraintClauses t cs = .ok ws →
      (∀ c ∈ cs, c.column ∈ t.columns) ∧ ws = cs.map fun c => .op c.operator c.column c.value := by
  intro cs
  induction cs with
  | nil => intro ws h; cases h; simp
  | cons c cs ih =>
    intro ws h
    rw [constraintClauses] at h
    by_cases hc : c.column ∈ t.columns
    · rw [if_pos hc] at h
      cases h1 : constraintClauses t cs with
      | error e => rw [h1] at h; cases h
      | ok ws' =>
        rw [h1] at h; cases h
        obtain ⟨h2, h3⟩ := ih h1
        exact ⟨by simp [hc]; exact h2, by simp [h3]⟩
    · rw [if_neg hc] at h; cases h

theorem constraintClauses_flat {t : TableMeta} {cs : List ColumnConstraint} {ws : List Where}
    (h : constraintClauses t cs = .ok ws) : ∀ w ∈ ws, w.Flat := by
  obtain ⟨-, rfl⟩ := constraintClauses_ok h
  intro w hw
  obtain ⟨c, -, rfl⟩ := List.mem_map.1 hw
  trivial

theorem constraintClauses_eval {t : TableMeta} {cs : List ColumnConstraint} {ws : List Where}
    (h : constraintClauses t cs = .ok ws) (E : Engine) (D : Env) (x : TableId) (i : Nat) (r : Row) :
    Where.eval E D x i r (.and ws) = some true ↔ MeetsConstraints E cs r := by
  obtain ⟨-, rfl⟩ := constraintClauses_ok h
  rw [eval_and, all3_true]
  simp [MeetsConstraints, Where.eval]

/-! ### Target filters -/

theorem targetClauses_flat (x : TargetConfig) : ∀ w ∈ targetClauses x, w.Flat := by
  intro w hw
  unfold targetClauses at hw
  split at hw
  · simp at hw
  · simp only [List.mem_append] at hw
    rcases hw with ((hw | hw) | hw) | hw
    · cases hp : x.percent <;> rw [hp] at hw <;> simp at hw
      subst hw; trivial
    · cases hp : x.sql <;> rw [hp] at hw <;> simp at hw
      subst hw; trivial
    · obtain ⟨p, -, h2⟩ := List.mem_flatMap.1 hw
      obtain ⟨y, -, rfl⟩ := List.mem_map.1 h2
      trivial
    · obtain ⟨y, -, rfl⟩ := List.mem_map.1 hw
      trivial

theorem in3_single {v : Val} {vs : List Val} :
    in3 [v] (vs.map fun w => [w]) = some true ↔ v ≠ .null ∧ v ∈ vs := by
  unfold in3
  rw [any3_true]
  simp only [List.map_map, List.mem_map, Function.comp]
  constructor
  · rintro ⟨w, hw, h⟩
    rw [all3_true] at h
    have := h (eq3 v w) (by simp)
    rw [eq3_eq_true] at this
    exact ⟨this.1, this.2 ▸ hw⟩
  · rintro ⟨h1, h2⟩
    refine ⟨v, h2, ?_⟩
    rw [all3_true]
    simp [eq3_eq_true, h1]

theorem targetClauses_eval (x : TargetConfig) (E : Engine) (D : Env) (k : Key) (i : Nat) (r : Row) :
    Where.eval E D (k.id false) i r (.and (targetClauses x)) = some true ↔
      (x.all = true ∨ TargetAccepts E k x i r) := by
  rw [eval_and, all3_true]
  by_cases ha : x.all = true
  · simp [targetClauses, ha]
  · have ha' : x.all = false := by simpa using ha
    have heq : targetClauses x =
        (match x.percent with | none => [] | some p => [.random (p / 100) 0]) ++
        (match x.sql with | none => [] | some s => [.sql s]) ++
        (x.like.flatMap fun p => p.2.map fun pat => .op .like p.1 (.str pat)) ++
        (x.in_.map fun p => .inVals [p.1] (p.2.map fun v => [v]) false) := by
      unfold targetClauses
      rw [if_neg ha]
      rfl
    rw [heq]
    simp only [ha', Bool.false_eq_true, false_or, List.map_append, List.forall_mem_append]
    constructor
    · rintro ⟨⟨⟨h1, h2⟩, h3⟩, h4⟩
      refine ⟨?_, ?_, ?_, ?_⟩
      · intro p hp
        rw [hp] at h1
        have := h1 _ (by simp; rfl)
        simp only [Where.eval] at this
        exact Option.some.inj this
      · intro s hs
        rw [hs] at h2
        have := h2 _ (by simp; rfl)
        simpa [Where.eval, Key.id] using this
      · intro c pats hc pat hpat
        refine h3 _ (List.mem_map.2 ⟨.op .like c (.str pat), ?_, by simp only [Where.eval]⟩)
        exact List.mem_flatMap.2 ⟨(c, pats), hc, List.mem_map.2 ⟨pat, hpat, rfl⟩⟩
      · intro c vs hc
        have := h4 _ (List.mem_map_of_mem (List.mem_map_of_mem hc))
        simp only [Where.eval, Bool.false_eq_true, if_false, List.map_cons, List.map_nil] at this
        exact in3_single.1 this
    · intro h
      refine ⟨⟨⟨?_, ?_⟩, ?_⟩, ?_⟩
      · cases hp : x.percent with
        | none => simp
        | some p =>
          have := h.percent p hp
          simp only [List.map_cons, List.map_nil, List.mem_singleton, forall_eq, Where.eval]
          exact congrArg some this
      · cases hs : x.sql with
        | none => simp
        | some s =>
          have := h.sql s hs
          simp only [List.map_cons, List.map_nil, List.mem_singleton, forall_eq, Where.eval]
          simpa [Key.id] using this
      · intro y hy
        obtain ⟨w, hw, rfl⟩ := List.mem_map.1 hy
        obtain ⟨⟨c, pats⟩, hc, hw⟩ := List.mem_flatMap.1 hw
        obtain ⟨pat, hpat, rfl⟩ := List.mem_map.1 hw
        simp only [Where.eval]
        exact h.like c pats hc pat hpat
      · intro y hy
        obtain ⟨w, hw, rfl⟩ := List.mem_map.1 hy
        obtain ⟨⟨c, vs⟩, hc, rfl⟩ := List.mem_map.1 hw
        simp only [Where.eval, Bool.false_eq_true, if_false, List.map_cons, List.map_nil]
        exact in3_single.2 (h.in_ c vs hc)

open Classical in
/-- The rows of the target select. -/
theorem targetSel_eval (E : Engine) (D : Env) (k : Key) (x : TargetConfig) :
    (targetSel k x).eval E D = targetRows E (fun a => D.rows (a.id false)) k x := by
  rw [sel_eval_eq]
  simp only [targetSel, Sel.from_mk, Sel.tag_mk, Sel.limit_mk, Sel.joins_mk, Sel.joinsOuter_mk,
    Sel.columns_mk]
  have hp : ∀ l : List Row, l.map (project none) = l := by
    intro l
    have : (project none) = id := by funext r; rfl
    rw [this, List.map_id]
  rw [hp, fromWhere_joinFree (.inl rfl)]
  unfold targetRows
  have : ((D.rows (k.id false)).zipIdx.filter fun p =>
        (Sel.mk none (k.id false) (some (.and (targetClauses x))) x.amount none false 0).cond E D
          p.2 p.1) =
      (D.rows (k.id false)).zipIdx.filter fun p =>
        decide (x.all = true ∨ TargetAccepts E k x p.2 p.1) := by
    refine List.filter_congr fun p _ => ?_
    rw [Bool.eq_iff_iff, decide_eq_true_iff, ← targetClauses_eval x E D k p.2 p.1]
    simp [Sel.cond]
  rw [this]
  cases x.amount <;> rfl

/-! ### Joins -/

theorem fkJoin_ok {T : Tables} {t : TableMeta} {fk : ForeignKey} {j : Join}
    (h : fkJoin T t fk = .ok j) : (dget T fk.dst).isSome ∧ j.right = fk.dst.id true ∧
      j.leftColumns = fk.columns ∧ j.rightColumns = fk.dstColumns := by
  unfold fkJoin at h
  cases h1 : dget T fk.dst with
  | none => rw [h1] at h; cases h
  | some d => rw [h1] at h; cases h; exact ⟨rfl, rfl, rfl, rfl⟩

/-- Conditions on joins in terms of foreign keys. -/
theorem joins_spec {T : Tables} {t : TableMeta} {F : List ForeignKey} {joins : List Join}
    (h : (sortFks F).mapM (fkJoin T t) = .ok joins) :
    (∀ j ∈ joins, ∃ fk ∈ F, (dget T fk.dst).isSome ∧ j.right = fk.dst.id true ∧
      j.leftColumns = fk.columns ∧ j.rightColumns = fk.dstColumns) ∧
    (∀ fk ∈ F, ∃ j ∈ joins, (dget T fk.dst).isSome ∧ j.right = fk.dst.id true ∧
      j.leftColumns = fk.columns ∧ j.rightColumns = fk.dstColumns) := by
  rw [mapM_ok_iff] at h
  constructor
  · intro j hj
    obtain ⟨fk, hfk, hok⟩ := forall₂_exists_right h hj
    exact ⟨fk, mem_sortFks.1 hfk, fkJoin_ok hok⟩
  · intro fk hfk
    obtain ⟨j, hj, hok⟩ := forall₂_exists_left h (mem_sortFks.2 hfk)
    exact ⟨j, hj, fkJoin_ok hok⟩

/-- The condition imposed by joins on a row, in terms of the keys. -/
def JoinedBy (D : Env) (F : List ForeignKey) (outer : Bool) (r : Row) : Prop :=
  if outer then ∃ fk ∈ F, ∃ m ∈ D.rows (fk.dst.id true), Refers fk.columns fk.dstColumns r m
  else ∀ fk ∈ F, ∃ m ∈ D.rows (fk.dst.id true), Refers fk.columns fk.dstColumns r m

theorem joinOK_iff {T : Tables} {t : TableMeta} {F : List ForeignKey} {joins : List Join}
    (h : (sortFks F).mapM (fkJoin T t) = .ok joins) (D : Env) (outer : Bool) (r : Row) :
    JoinOK D joins outer r ↔ JoinedBy D F outer r := by
  obtain ⟨h1, h2⟩ := joins_spec h
  unfold JoinOK JoinedBy
  cases outer
  · simp only [Bool.false_eq_true, if_false]
    constructor
    · intro hj fk hfk
      obtain ⟨j, hj1, -, e1, e2, e3⟩ := h2 fk hfk
      obtain ⟨m, hm, hr⟩ := hj j hj1
      rw [e1] at hm; rw [e2, e3] at hr
      exact ⟨m, hm, hr⟩
    · intro hf j hj
      obtain ⟨fk, hfk, -, e1, e2, e3⟩ := h1 j hj
      obtain ⟨m, hm, hr⟩ := hf fk hfk
      rw [e1, e2, e3]
      exact ⟨m, hm, hr⟩
  · simp only [if_true]
    constructor
    · rintro ⟨j, hj, m, hm, hr⟩
      obtain ⟨fk, hfk, -, e1, e2, e3⟩ := h1 j hj
      rw [e1] at hm; rw [e2, e3] at hr
      exact ⟨fk, hfk, m, hm, hr⟩
    · rintro ⟨fk, hfk, m, hm, hr⟩
      obtain ⟨j, hj1, -, e1, e2, e3⟩ := h2 fk hfk
      refine ⟨j, hj1, m, ?_, ?_⟩
      · rw [e1]; exact hm
      · rw [e2, e3]; exact hr

open Classical in
/-- The rows of the relation select. -/
theorem relationSel_eval {T : Tables} {t : TableMeta} {F : List ForeignKey} {joins : List Join}
    (h : (sortFks F).mapM (fkJoin T t) = .ok joins) (hF : F ≠ [])
    (hcols : ∀ fk ∈ F, fk.columns.length = fk.dstColumns.length ∧ fk.dstColumns ≠ [])
    (E : Engine) (D : Env) (k : Key) (outer : Bool) {ws : List Where} {P : Row → Prop}
    (hws : ∀ i r, Where.eval E D (k.id false) i r (.and ws) = some true ↔ P r)
    (hpk : D.pk (k.id false) ≠ [] →
      ((D.rows (k.id false)).map fun r => (D.pk (k.id false)).map r.get).Nodup) :
    (relationSel k joins outer ws).eval E D =
      (D.rows (k.id false)).filter fun r => decide (JoinedBy D F outer r ∧ P r) := by
  obtain ⟨h1, h2⟩ := joins_spec h
  have hne : joins ≠ [] := by
    obtain ⟨fk, hfk⟩ := List.exists_mem_of_ne_nil F hF
    obtain ⟨j, hj, -⟩ := h2 fk hfk
    exact List.ne_nil_of_mem hj
  have hwf : ∀ j ∈ joins, j.WellFormed := by
    intro j hj
    obtain ⟨fk, hfk, -, -, e2, e3⟩ := h1 j hj
    unfold Join.WellFormed
    rw [e2, e3]
    exact hcols fk hfk
  rw [sel_eval_eq]
  simp only [relationSel, Sel.from_mk, Sel.tag_mk, Sel.limit_mk, Sel.joins_mk, Sel.joinsOuter_mk,
    Sel.columns_mk]
  have hp : ∀ l : List Row, l.map (project none) = l := by
    intro l
    have : (project none) = id := by funext r; rfl
    rw [this, List.map_id]
  rw [hp, fromWhere_eq hne hwf hpk]
  simp only [applyLimit]
  have h3 : ∀ (l : List Row) (n : Nat) (Q : Row → Bool),
      ((l.zipIdx n).filter fun p => Q p.1).map Prod.fst = l.filter Q := by
    intro l
    induction l with
    | nil => intros; rfl
    | cons a l ih =>
      intro n Q
      simp only [List.zipIdx_cons, List.filter_cons]
      by_cases hq : Q a = true
      · simp [hq, ih]
      · simp [hq, ih]
  rw [← h3 (D.rows (k.id false)) 0]
  congr 1
  refine List.filter_congr fun p _ => ?_
  rw [Bool.eq_iff_iff, Bool.and_eq_true, decide_eq_true_iff, decide_eq_true_iff, joinOK_iff h,
    ← hws p.2 p.1]
  simp [Sel.cond]

theorem relationSel_mergeSafe {k : Key} {joins : List Join} {outer : Bool} {ws : List Where}
    (h : ∀ w ∈ ws, w.Flat) : (relationSel k joins outer ws).MergeSafe := by
  rw [sel_mergeSafe_iff]
  intro w hw
  simp only [relationSel, Sel.where_mk, Option.some.injEq] at hw
  subst hw; exact and_mergeSafe h

theorem targetSel_mergeSafe {k : Key} {x : TargetConfig} : (targetSel k x).MergeSafe := by
  rw [sel_mergeSafe_iff]
  intro w hw
  simp only [targetSel, Sel.where_mk, Option.some.injEq] at hw
  subst hw; exact and_mergeSafe (targetClauses_flat x)

/-! ### Unions -/

theorem mapM_one {ε α β : Type} {f : α → Except ε β} {a : α} {l : List β}
    (h : [a].mapM f = .ok l) : ∃ b, f a = .ok b ∧ l = [b] := by
  rw [mapM_ok_iff] at h
  cases h with
  | cons h1 h2 => cases h2; exact ⟨_, h1, rfl⟩

theorem mapM_two {ε α β : Type} {f : α → Except ε β} {a a' : α} {l : List β}
    (h : [a, a'].mapM f = .ok l) : ∃ b b', f a = .ok b ∧ f a' = .ok b' ∧ l = [b, b'] := by
  rw [mapM_ok_iff] at h
  cases h with
  | cons h1 h2 =>
    cases h2 with
    | cons h3 h4 => cases h4; exact ⟨_, _, h1, h3, rfl⟩

/-- A union of one select returns what the select returns. -/
theorem simplify_single {s : Sel} {st : Stmt} (hs : s.MergeSafe)
    (h : (Stmt.union [s]).simplify = .ok st) (E : Engine) (D : Env) :
    st.eval E D = s.eval E D := by
  unfold Stmt.simplify at h
  revert h
  generalize (Stmt.union [s]).size = n
  intro h
  cases n with
  | zero => simp [simpStmt] at h
  | succ n =>
    simp only [simpStmt] at h
    cases h1 : [s].mapM (simpSel n) with
    | error e => rw [h1] at h; cases h
    | ok all =>
      rw [h1] at h
      obtain ⟨s', h2, rfl⟩ := mapM_one h1
      have he := ((simp_correct n).2.1 s s' h2 hs).eval E D
      by_cases hf : (s'.where_.getD .true_).isFalse = true
      · simp only [List.filter_cons, hf, Bool.not_true, Bool.false_eq_true, if_false,
          List.filter_nil, h2] at h
        cases h
        rw [Stmt.eval, he]
      · simp only [List.filter_cons, hf, Bool.not_false, if_true, List.filter_nil] at h
        cases h
        rw [Stmt.eval, he]

theorem andFinish_false {cs : List Where} (hcs : ∀ c ∈ cs, c.isFalse = true ∨ c.isTrue = true ∨ c.Flat)
    (h : (andFinish cs).isFalse = true) : ∃ c ∈ cs, c = .false_ := by
  have key : ∀ w ∈ (cs.filter fun c => !c.isTrue).flatMap Where.andParts, w ∈ cs := by
    intro w hw
    obtain ⟨c, hc, hwc⟩ := List.mem_flatMap.1 hw
    have hc' := (List.mem_filter.1 hc).1
    rcases hcs c hc' with h | h | h <;> cases c <;>
      simp_all [Where.andParts, Where.isFalse, Where.isTrue, Where.Flat]
  unfold andFinish at h
  revert key h
  generalize (cs.filter fun c => !c.isTrue).flatMap Where.andParts = l
  intro h key
  by_cases ha : l.any Where.isFalse = true
  · obtain ⟨w, hw, hf⟩ := List.any_eq_true.1 ha
    exact ⟨w, key w hw, isFalse_iff.1 hf⟩
  · rw [if_neg ha] at h
    exfalso
    rcases l with _ | ⟨c, _ | ⟨d, l⟩⟩
    · simp [Where.isFalse] at h
    · simp only at h; simp [h] at ha
    · simp [Where.isFalse] at h

theorem simpW_flat {n : Nat} {w w' : Where} (hw : w.Flat) (h : simpW n w = .ok w') :
    w' = .false_ ∧ (∃ thr g, w = .random thr g ∧ thr ≤ 0) ∨ w' = .true_ ∨ (w'.Flat) := by
  cases n with
  | zero => simp [simpW] at h
  | succ n =>
    cases w <;> simp only [simpW] at h <;> try (cases hw)
    · cases h; exact .inr (.inr trivial)
    · cases h; exact .inr (.inr trivial)
    · rename_i thr g
      cases h
      unfold randomSimplify
      split
      · next h => exact .inl ⟨rfl, thr, g, rfl, h⟩
      · split
        · exact .inr (.inl rfl)
        · exact .inr (.inr trivial)
    · cases h; exact .inr (.inr trivial)

/-- The target select is only simplified away for a non-positive percentage. -/
theorem targetSel_false {n : Nat} {k : Key} {x : TargetConfig} {s' : Sel}
    (h : simpSel n (targetSel k x) = .ok s') (hf : (s'.where_.getD .true_).isFalse = true) :
    x.all = false ∧ ∃ p, x.percent = some p ∧ p ≤ 0 := by
  cases n with
  | zero => simp [simpSel] at h
  | succ n =>
    simp only [simpSel, targetSel, Sel.where_mk] at h
    cases h1 : simpW n (.and (targetClauses x)) with
    | error e => rw [h1] at h; cases h
    | ok w' =>
      rw [h1] at h; cases h
      simp only [selFinish, Sel.where_mk] at hf
      have hw' : w'.isFalse = true := by
        by_cases ht : w'.isTrue = true
        · rw [if_pos ht] at hf; simp [Where.isFalse] at hf
        · rw [if_neg ht] at hf; simpa using hf
      cases n with
      | zero => simp [simpW] at h1
      | succ n =>
        simp only [simpW] at h1
        cases h2 : (targetClauses x).mapM (simpW n) with
        | error e => rw [h2] at h1; cases h1
        | ok cs' =>
          rw [h2] at h1; cases h1
          rw [mapM_ok_iff] at h2
          obtain ⟨c, hc, rfl⟩ := andFinish_false (fun c hc => by
            obtain ⟨w, hw, hwc⟩ := forall₂_exists_right h2 hc
            rcases simpW_flat (targetClauses_flat x w hw) hwc with ⟨rfl, -⟩ | rfl | h
            · exact .inl rfl
            · exact .inr (.inl rfl)
            · exact .inr (.inr h)) hw'
          obtain ⟨w, hw, hwc⟩ := forall₂_exists_right h2 hc
          rcases simpW_flat (targetClauses_flat x w hw) hwc with ⟨-, thr, g, rfl, hthr⟩ | h | h
          · unfold targetClauses at hw
            by_cases ha : x.all = true
            · simp [ha] at hw
            · refine ⟨by simpa using ha, ?_⟩
              rw [if_neg ha] at hw
              simp only [List.mem_append] at hw
              rcases hw with ((hw | hw) | hw) | hw
              · cases hp : x.percent with
                | none => rw [hp] at hw; simp at hw
                | some p =>
                  rw [hp] at hw
                  simp only [List.mem_singleton, Where.random.injEq] at hw
                  refine ⟨p, rfl, ?_⟩
                  have := hw.1
                  rw [this] at hthr
                  by_contra hcon
                  have : 0 < p / 100 := div_pos (not_le.1 hcon) (by norm_num)
                  exact absurd hthr (not_le.2 this)
              · cases hp : x.sql <;> rw [hp] at hw <;> simp at hw
              · obtain ⟨p, -, h2⟩ := List.mem_flatMap.1 hw
                obtain ⟨y, -, h3⟩ := List.mem_map.1 h2
                cases h3
              · obtain ⟨y, -, h3⟩ := List.mem_map.1 hw
                cases h3
          · cases h
          · cases h

/-- The union of a select with joins but without condition and an unlimited target select is merged
into a select of the whole table, unless the target select is dropped. -/
theorem simplify_merge {k : Key} {joins : List Join} {outer : Bool} {x : TargetConfig} {st : Stmt}
    (hx : x.amount = none) (hp : x.all = true ∨ ∀ p, x.percent = some p → 0 < p)
    (h : (Stmt.union [relationSel k joins outer [], targetSel k x]).simplify = .ok st)
    (E : Engine) (D : Env) : st.eval E D = D.rows (k.id false) := by
  unfold Stmt.simplify at h
  revert h
  generalize (Stmt.union [relationSel k joins outer [], targetSel k x]).size = n
  intro h
  cases n with
  | zero => simp [simpStmt] at h
  | succ n =>
    simp only [simpStmt] at h
    cases h1 : [relationSel k joins outer [], targetSel k x].mapM (simpSel n) with
    | error e => rw [h1] at h; cases h
    | ok all =>
      rw [h1] at h
      obtain ⟨s1, s2, h2, h3, rfl⟩ := mapM_two h1
      have hs1 : s1.where_ = none ∧ s1.from_ = k.id false ∧ s1.columns = none ∧ s1.limit = none := by
        cases n with
        | zero => simp [simpSel] at h2
        | succ n =>
          simp only [simpSel, relationSel, Sel.where_mk] at h2
          cases n with
          | zero => simp [simpW] at h2
          | succ n =>
            have : simpW (n + 1) (.and []) = .ok .true_ := rfl
            rw [this] at h2
            cases h2
            exact ⟨rfl, rfl, rfl, rfl⟩
      have hs2f : (s2.where_.getD .true_).isFalse = false := by
        by_contra hcon
        obtain ⟨ha, p, hp1, hp2⟩ := targetSel_false h3 (by simpa using hcon)
        rcases hp with hp | hp
        · rw [ha] at hp; cases hp
        · exact absurd hp2 (not_le.2 (hp p hp1))
      have hs2 := (simp_correct n).2.1 _ _ h3 targetSel_mergeSafe
      have hl : s2.limit = none := by rw [hs2.limit]; exact hx
      have hfr : s2.from_ = k.id false := by rw [hs2.from_]; rfl
      have hcol : s2.columns = none := by rw [hs2.columns]; rfl
      have hfilt : [s1, s2].filter (fun s => !(s.where_.getD .true_).isFalse) = [s1, s2] := by
        have : Where.true_.isFalse = false := rfl
        simp [List.filter_cons, hs1.1, hs2f, this]
      have hm : canMerge s1 [s1, s2] = true := by
        simp [canMerge, hs1, hl, hfr, hcol]
      simp only [hfilt, hm, if_true] at h
      cases h4 : simpSel n (mergedSel s1 [s1, s2]) with
      | error e => rw [h4] at h; cases h
      | ok s' =>
        rw [h4] at h
        cases h
        have hms : (mergedSel s1 [s1, s2]).MergeSafe := by
          apply mergedSel_mergeSafe
          intro s hs
          simp only [List.mem_cons, List.not_mem_nil, or_false] at hs
          rcases hs with rfl | rfl
          · rw [sel_mergeSafe_iff]; intro w hw; rw [hs1.1] at hw; cases hw
          · exact hs2.safe
        rw [Stmt.eval, ((simp_correct n).2.1 _ _ h4 hms).eval E D, sel_eval_eq]
        simp only [mergedSel, Sel.from_mk, Sel.tag_mk, Sel.limit_mk, Sel.joins_mk,
          Sel.joinsOuter_mk, Sel.columns_mk, hs1.2.1, hs1.2.2.1]
        rw [fromWhere_joinFree (.inl rfl)]
        simp only [applyLimit]
        have : ∀ i r, (Sel.mk none (k.id false)
            (some (.or ([s1, s2].map fun s => s.where_.getD .true_))) none none false s1.tag).cond
              E D i r = true := by
          intro i r
          simp only [Sel.cond, Sel.where_mk, Sel.from_mk, eval_or, beq_iff_eq]
          rw [any3_true]
          simp [hs1.1, Where.eval]
        simp only [this, List.filter_true]
        have hp : (project none) = id := by funext r; rfl
        rw [hp, List.map_id]
        simp

/-- Otherwise the union returns the rows of both. -/
theorem simplify_pair {s1 s2 : Sel} {st : Stmt} (h1 : s1.MergeSafe) (h2 : s2.MergeSafe)
    (hl : s2.limit.isSome = true) (h : (Stmt.union [s1, s2]).simplify = .ok st) (E : Engine)
    (D : Env) (r : Row) : r ∈ st.eval E D ↔ r ∈ s1.eval E D ∨ r ∈ s2.eval E D := by
  have hs : (Stmt.union [s1, s2]).MergeSafe := by
    rw [Stmt.MergeSafe]
    refine ⟨by simp [Sel.MergeSafes, h1, h2], .inr ?_⟩
    have : s2.limit.isNone = false := by cases h : s2.limit <;> simp_all
    simp only [List.filter_cons, this]
    split <;> simp
  rw [((simp_correct _).2.2 _ _ h hs).2 E D r, mem_union_eval]
  simp

/-- The target select dropped. -/
theorem simplify_drop {s1 : Sel} {k : Key} {x : TargetConfig} {st : Stmt} (hs1 : s1.MergeSafe)
    (hx : x.all = false) {p : Rat} (hp : x.percent = some p) (hp0 : p ≤ 0)
    (h : (Stmt.union [s1, targetSel k x]).simplify = .ok st)
    (E : Engine) (D : Env) : st.eval E D = s1.eval E D := by
  unfold Stmt.simplify at h
  revert h
  generalize (Stmt.union [s1, targetSel k x]).size = n
  intro h
  cases n with
  | zero => simp [simpStmt] at h
  | succ n =>
    simp only [simpStmt] at h
    cases h1 : [s1, targetSel k x].mapM (simpSel n) with
    | error e => rw [h1] at h; cases h
    | ok all =>
      rw [h1] at h
      obtain ⟨s1', s2, h2, h3, rfl⟩ := mapM_two h1
      have he := ((simp_correct n).2.1 s1 s1' h2 hs1).eval E D
      have hs2 : (s2.where_.getD .true_).isFalse = true := by
        cases n with
        | zero => simp [simpSel] at h3
        | succ n =>
          simp only [simpSel, targetSel, Sel.where_mk] at h3
          cases n with
          | zero => simp [simpW] at h3
          | succ n =>
            simp only [simpW] at h3
            cases h4 : (targetClauses x).mapM (simpW n) with
            | error e => rw [h4] at h3; cases h3
            | ok cs' =>
              rw [h4] at h3
              cases h3
              have hmem : Where.random (p / 100) 0 ∈ targetClauses x := by
                simp [targetClauses, hx, hp]
              rw [mapM_ok_iff] at h4
              obtain ⟨c, hc, hcc⟩ := forall₂_exists_left h4 hmem
              have hcf : c = .false_ := by
                cases n with
                | zero => simp [simpW] at hcc
                | succ n =>
                  simp only [simpW] at hcc
                  cases hcc
                  unfold randomSimplify
                  rw [if_pos]
                  exact div_nonpos_of_nonpos_of_nonneg hp0 (by norm_num)
              have : andFinish cs' = .false_ := by
                unfold andFinish
                have : ((cs'.filter fun c => !c.isTrue).flatMap Where.andParts).any Where.isFalse
                    = true := by
                  rw [List.any_eq_true]
                  refine ⟨.false_, List.mem_flatMap.2 ⟨.false_, List.mem_filter.2 ⟨hcf ▸ hc, rfl⟩, ?_⟩,
                    rfl⟩
                  simp [Where.andParts]
                simp [this]
              simp [selFinish, this, Where.isTrue, Where.isFalse]
      by_cases hf : (s1'.where_.getD .true_).isFalse = true
      · simp only [List.filter_cons, hf, hs2, Bool.not_true, Bool.false_eq_true, if_false,
          List.filter_nil, h2] at h
        cases h
        rw [Stmt.eval, he]
      · simp only [List.filter_cons, hf, hs2, Bool.not_false, Bool.not_true, Bool.false_eq_true,
          if_false, if_true, List.filter_nil] at h
        cases h
        rw [Stmt.eval, he]

/-! ### `_plan_table` -/

/-- The foreign keys of a table that lead to already planned tables. -/
def fksTo (t : TableMeta) (processed : List Key) : List ForeignKey :=
  t.foreignKeys.filter fun fk => decide (fk.dst ∈ processed)
/-- The reverse keys of a table that lead to already planned tables. -/
def revsTo (t : TableMeta) (processed : List Key) : List ForeignKey :=
  t.revForeignKeys.filter fun fk => decide (fk.dst ∈ processed)

/-- The shapes of a planned query. -/
inductive TableShape (T : Tables) (C : Dict Str (List ColumnConstraint)) (t : TableMeta)
    (processed : List Key) : Option TargetConfig → Stmt → Prop
  | forward {joins ws st} (hF : fksTo t processed ≠ []) (hR : revsTo t processed = [])
      (hj : (sortFks (fksTo t processed)).mapM (fkJoin T t) = .ok joins)
      (hw : constraintClauses t ((dget C t.key.str).getD []) = .ok ws)
      (hs : (Stmt.union [relationSel t.key joins false ws]).simplify = .ok st) :
      TableShape T C t processed none st
  | backward {joins st} (hF : fksTo t processed = []) (hR : revsTo t processed ≠ [])
      (hC : (dget C t.key.str).getD [] = [])
      (hj : (sortFks (revsTo t processed)).mapM (fkJoin T t) = .ok joins)
      (hs : (Stmt.union [relationSel t.key joins true []]).simplify = .ok st) :
      TableShape T C t processed none st
  | target {x st} (hF : fksTo t processed = [])
      (hR : x.all = true ∨ revsTo t processed = [])
      (hw : ∃ ws, constraintClauses t ((dget C t.key.str).getD []) = .ok ws)
      (hs : (Stmt.union [targetSel t.key x]).simplify = .ok st) :
      TableShape T C t processed (some x) st
  | both {x joins st} (hF : fksTo t processed = []) (hR : revsTo t processed ≠ [])
      (ha : x.all = false) (hC : (dget C t.key.str).getD [] = [])
      (hj : (sortFks (revsTo t processed)).mapM (fkJoin T t) = .ok joins)
      (hs : (Stmt.union [relationSel t.key joins true [], targetSel t.key x]).simplify = .ok st) :
      TableShape T C t processed (some x) st

theorem planTable_shape {T : Tables} {C : Dict Str (List ColumnConstraint)} {t : TableMeta}
    {processed : List Key} {target : Option TargetConfig} {q : TableQuery}
    (h : planTable T C t processed target = .ok q) :
    ∃ st, q = .statement st ∧ TableShape T C t processed target st := by
  have nilF : ∀ l, sortFks l = [] ↔ l = [] := by
    intro l
    have := sortFks_isEmpty (l := l)
    rw [Bool.eq_iff_iff] at this
    simpa using this
  unfold planTable at h
  have eF : sortFks (t.foreignKeys.filter fun fk => decide (fk.dst ∈ processed)) =
    sortFks (fksTo t processed) := rfl
  have eR : sortFks (t.revForeignKeys.filter fun fk => decide (fk.dst ∈ processed)) =
    sortFks (revsTo t processed) := rfl
  rw [eF, eR] at h
  clear eF eR
  have nF := nilF (fksTo t processed)
  have nR := nilF (revsTo t processed)
  cases hF : sortFks (fksTo t processed) with
  | nil =>
    have hF0 := nF.1 hF
    cases hR : sortFks (revsTo t processed) with
    | nil =>
      have hR0 := nR.1 hR
      rw [hF, hR] at h
      cases target with
      | none => simp at h
      | some x =>
        simp only [List.isEmpty_nil, Bool.not_true, Bool.and_false, Bool.and_self,
          Option.isNone_some, Bool.false_eq_true, if_false, Option.isSome_some, if_true, ite_self,
          Bool.false_and, List.mapM_nil, List.nil_append, pure, Except.pure] at h
        cases h1 : constraintClauses t ((dget C t.key.str).getD []) with
        | error e => rw [h1] at h; cases h
        | ok ws =>
          rw [h1] at h
          simp only at h
          cases h2 : (Stmt.union [targetSel t.key x]).simplify with
          | error e => rw [h2] at h; cases h
          | ok st =>
            rw [h2] at h; cases h
            exact ⟨st, rfl, .target hF0 (.inr hR0) ⟨ws, h1⟩ h2⟩
    | cons r rs =>
      have hR0 : revsTo t processed ≠ [] := fun e => by rw [nR.2 e] at hR; cases hR
      rw [hF, hR] at h
      cases target with
      | none =>
        simp only [List.isEmpty_nil, List.isEmpty_cons, Bool.not_true, Bool.not_false,
          Bool.and_false, Bool.and_true, Option.isNone_none, Bool.false_eq_true, if_false,
          Option.isSome_none, if_true, Bool.false_and, Bool.true_and, List.append_nil] at h
        cases hj : (r :: rs).mapM (fkJoin T t) with
        | error e => rw [hj] at h; cases h
        | ok joins =>
          rw [hj] at h
          simp only at h
          cases hc : (dget C t.key.str).getD [] with
          | cons c cs => simp [hc] at h
          | nil =>
            simp only [hc, List.isEmpty_nil, Bool.not_true, Bool.false_eq_true, if_false,
              constraintClauses] at h
            cases h2 : (Stmt.union [relationSel t.key joins true []]).simplify with
            | error e => rw [h2] at h; cases h
            | ok st =>
              rw [h2] at h; cases h
              exact ⟨st, rfl, .backward hF0 hR0 hc (hR ▸ hj) h2⟩
      | some x =>
        cases ha : x.all with
        | true =>
          simp only [List.isEmpty_nil, List.isEmpty_cons, Bool.not_true, Bool.not_false,
            Bool.and_false, Bool.and_true, Option.isNone_some, Bool.false_eq_true, if_false,
            Option.isSome_some, if_true, Bool.false_and, Bool.true_and, ha,
            List.mapM_nil, List.nil_append, pure, Except.pure] at h
          cases h1 : constraintClauses t ((dget C t.key.str).getD []) with
          | error e => rw [h1] at h; cases h
          | ok ws =>
            rw [h1] at h
            simp only at h
            cases h2 : (Stmt.union [targetSel t.key x]).simplify with
            | error e => rw [h2] at h; cases h
            | ok st =>
              rw [h2] at h; cases h
              exact ⟨st, rfl, .target hF0 (.inl ha) ⟨ws, h1⟩ h2⟩
        | false =>
          simp only [List.isEmpty_nil, List.isEmpty_cons, Bool.not_true, Bool.not_false,
            Bool.and_false, Bool.and_true, Option.isNone_some, Bool.false_eq_true, if_false,
            Option.isSome_some, if_true, Bool.false_and, Bool.true_and, ha] at h
          cases hj : (r :: rs).mapM (fkJoin T t) with
          | error e => rw [hj] at h; cases h
          | ok joins =>
            rw [hj] at h
            simp only at h
            cases hc : (dget C t.key.str).getD [] with
            | cons c cs => simp [hc] at h
            | nil =>
              simp only [hc, List.isEmpty_nil, Bool.not_true, Bool.false_eq_true, if_false,
                constraintClauses, List.singleton_append] at h
              cases h2 : (Stmt.union [relationSel t.key joins true [], targetSel t.key x]).simplify with
              | error e => rw [h2] at h; cases h
              | ok st =>
                rw [h2] at h; cases h
                exact ⟨st, rfl, .both hF0 hR0 ha hc (hR ▸ hj) h2⟩
  | cons f fs =>
    have hF0 : fksTo t processed ≠ [] := fun e => by rw [nF.2 e] at hF; cases hF
    rw [hF] at h
    cases hR : sortFks (revsTo t processed) with
    | cons r rs => rw [hR] at h; simp at h
    | nil =>
      have hR0 := nR.1 hR
      rw [hR] at h
      cases target with
      | some x => simp at h
      | none =>
        simp only [List.isEmpty_nil, List.isEmpty_cons, Bool.not_true, Bool.not_false,
          Bool.and_false, Bool.and_true, Option.isNone_none, Bool.false_eq_true, if_false,
          Option.isSome_none, if_true, Bool.false_and, Bool.true_and, List.append_nil] at h
        cases hj : (f :: fs).mapM (fkJoin T t) with
        | error e => rw [hj] at h; cases h
        | ok joins =>
          rw [hj] at h
          simp only at h
          cases h1 : constraintClauses t ((dget C t.key.str).getD []) with
          | error e => rw [h1] at h; cases h
          | ok ws =>
            rw [h1] at h
            simp only at h
            cases h2 : (Stmt.union [relationSel t.key joins false ws]).simplify with
            | error e => rw [h2] at h; cases h
            | ok st =>
              rw [h2] at h; cases h
              exact ⟨st, rfl, .forward hF0 hR0 (hF ▸ hj) h1 h2⟩

end Subsetter
