import Verif.Proofs.PlanFileWrite
import Verif.Spec.SqlRun

/- Queries of the planner can be built. -/
namespace Subsetter
open Spec

mutual
/-- Conditions without subqueries on columns that exist. -/
def WGood (T : Tables) (t : TableId) : Where → Prop
  | .op _ c _ => HasCol T t c
  | .inVals cs _ _ => ∀ c ∈ cs, HasCol T t c
  | .inStmt _ _ _ => False
  | .and cs => WGoods T t cs
  | .or cs => WGoods T t cs
  | _ => True
def WGoods (T : Tables) (t : TableId) : List Where → Prop
  | [] => True
  | c :: cs => WGood T t c ∧ WGoods T t cs
end

variable {T : Tables} {t : TableId}

theorem wgoods_iff : ∀ {cs : List Where}, WGoods T t cs ↔ ∀ c ∈ cs, WGood T t c
  | [] => by simp [WGoods]
  | c :: cs => by rw [WGoods, wgoods_iff]; simp

theorem drawsAny_iff : ∀ {cs : List Where}, DrawsAny cs ↔ ∃ c ∈ cs, Draws c
  | [] => by simp [DrawsAny]
  | c :: cs => by rw [DrawsAny, drawsAny_iff]; simp

mutual
theorem wgood_plain : ∀ {w : Where}, WGood T t w → WherePlain T t w ∧ WhereFits w
  | .op _ _ _, h => ⟨h, trivial⟩
  | .inVals _ _ _, h => ⟨h, trivial⟩
  | .inStmt _ _ _, h => h.elim
  | .and _, h => wgoods_plain h
  | .or _, h => wgoods_plain h
  | .random _ _, _ => ⟨trivial, trivial⟩
  | .sql _, _ => ⟨trivial, trivial⟩
  | .true_, _ => ⟨trivial, trivial⟩
  | .false_, _ => ⟨trivial, trivial⟩
theorem wgoods_plain : ∀ {cs : List Where}, WGoods T t cs → WheresPlain T t cs ∧ WheresFit cs
  | [], _ => ⟨trivial, trivial⟩
  | _ :: _, h => ⟨⟨(wgood_plain h.1).1, (wgoods_plain h.2).1⟩, (wgood_plain h.1).2, (wgoods_plain h.2).2⟩
end

/-- Properties of conditions that simplification keeps. -/
structure Kept (P : Where → Prop) : Prop where
  true_ : P .true_
  false_ : P .false_
  and_ : ∀ cs, P (.and cs) ↔ ∀ c ∈ cs, P c
  or_ : ∀ cs, P (.or cs) ↔ ∀ c ∈ cs, P c
  sub : ∀ cs st b, ¬ P (.inStmt cs st b)

theorem Kept.andFinish {P : Where → Prop} (hP : Kept P) {cs : List Where} (h : ∀ c ∈ cs, P c) : P (andFinish cs) := by
  have key : ∀ w ∈ (cs.filter fun c => !c.isTrue).flatMap Where.andParts, P w := by
    intro w hw
    obtain ⟨c, hc, hwc⟩ := List.mem_flatMap.1 hw
    have h1 := h c (List.mem_filter.1 hc).1
    cases c <;> simp only [Where.andParts, List.mem_singleton] at hwc <;>
      first | (subst hwc; exact h1) | exact (hP.and_ _).1 h1 w hwc
  unfold Subsetter.andFinish
  revert key
  generalize (cs.filter fun c => !c.isTrue).flatMap Where.andParts = l
  intro key
  simp only
  split
  · exact hP.false_
  · split
    · exact hP.true_
    · exact key _ (by simp)
    · exact (hP.and_ _).2 key

theorem Kept.orFinish {P : Where → Prop} (hP : Kept P) {cs : List Where} (h : ∀ c ∈ cs, P c) : P (orFinish cs) := by
  have key : ∀ w ∈ (cs.filter fun c => !c.isFalse).flatMap Where.orParts, P w := by
    intro w hw
    obtain ⟨c, hc, hwc⟩ := List.mem_flatMap.1 hw
    have h1 := h c (List.mem_filter.1 hc).1
    cases c <;> simp only [Where.orParts, List.mem_singleton] at hwc <;>
      first | (subst hwc; exact h1) | exact (hP.or_ _).1 h1 w hwc
  unfold Subsetter.orFinish
  revert key
  generalize (cs.filter fun c => !c.isFalse).flatMap Where.orParts = l
  intro key
  simp only
  split
  · exact hP.true_
  · split
    · exact hP.false_
    · exact key _ (by simp)
    · exact (hP.or_ _).2 key

theorem Kept.simp {P : Where → Prop} (hP : Kept P) : ∀ n w w', simpW n w = .ok w' → P w → P w' := by
  intro n
  induction n with
  | zero => intro a b h; simp [simpW] at h
  | succ n ih =>
    have hmap : ∀ (cs cs' : List Where), cs.mapM (simpW n) = .ok cs' → (∀ c ∈ cs, P c) → ∀ c ∈ cs', P c := by
      intro cs cs' h hc w hw
      obtain ⟨a, ha, hab⟩ := forall₂_exists_right (mapM_ok_iff.1 h) hw
      exact ih _ _ hab (hc a ha)
    intro w w' h hx
    cases w with
    | false_ => simp only [simpW] at h; cases h; exact hx
    | true_ => simp only [simpW] at h; cases h; exact hx
    | op o c v => simp only [simpW] at h; cases h; exact hx
    | inVals cs vs b => simp only [simpW] at h; cases h; exact hx
    | inStmt cs st b => exact absurd hx (hP.sub cs st b)
    | and cs =>
      simp only [simpW] at h
      cases h1 : cs.mapM (simpW n) with
      | error e => rw [h1] at h; cases h
      | ok cs' =>
        rw [h1] at h; cases h
        exact hP.andFinish (hmap _ _ h1 ((hP.and_ _).1 hx))
    | or cs =>
      simp only [simpW] at h
      cases h1 : cs.mapM (simpW n) with
      | error e => rw [h1] at h; cases h
      | ok cs' =>
        rw [h1] at h; cases h
        exact hP.orFinish (hmap _ _ h1 ((hP.or_ _).1 hx))
    | random thr g =>
      simp only [simpW] at h; cases h
      unfold randomSimplify
      split
      · exact hP.false_
      · split
        · exact hP.true_
        · exact hx
    | sql s => simp only [simpW] at h; cases h; exact hx

theorem kept_good : Kept (WGood T t) :=
  ⟨trivial, trivial, fun _ => wgoods_iff, fun _ => wgoods_iff, fun _ _ _ h => h⟩

theorem kept_still : Kept (fun w => WGood T t w ∧ ¬ Draws w) := by
  refine ⟨⟨trivial, id⟩, ⟨trivial, id⟩, fun cs => ?_, fun cs => ?_, fun _ _ _ h => h.1⟩ <;>
  · simp only [WGood, Draws]
    rw [wgoods_iff, drawsAny_iff]
    constructor
    · exact fun h c hc => ⟨h.1 c hc, fun hd => h.2 ⟨c, hc, hd⟩⟩
    · exact fun h => ⟨fun c hc => (h c hc).1, fun ⟨c, hc, hd⟩ => (h c hc).2 hd⟩

/-- Selects of whole rows of `k` as the planner makes them. -/
structure SelGood (T : Tables) (k : Key) (x : Sel) : Prop where
  cols : x.columns = none
  from_ : x.from_ = ⟨k.1, k.2, false⟩
  joins : ∀ j ∈ x.joins.getD [], (∀ c ∈ j.leftColumns, HasCol T ⟨k.1, k.2, false⟩ c) ∧ ∀ c ∈ j.rightColumns, HasCol T j.right c
  good : ∀ w, x.where_ = some w → WGood T ⟨k.1, k.2, false⟩ w
  still : ∀ w, x.where_ = some w → x.joins = none ∨ x.joins = some [] ∨ ¬ Draws w

theorem SelGood.plain {k : Key} {x : Sel} (h : SelGood T k x) : SelPlain T x ∧ SelFits x ∧ OwnRows k x := by
  obtain ⟨cols, t, w, l, j, o, g⟩ := x
  obtain ⟨h1, h2, h3, h4, h5⟩ := h
  simp only [Sel.columns, Sel.from_, Sel.joins, Sel.where_] at h1 h2 h3 h4 h5
  subst h1 h2
  cases w with
  | none => exact ⟨⟨rfl, by simp, h3⟩, fun _ => .inl rfl, .inl rfl, rfl⟩
  | some w =>
    obtain ⟨h6, h7⟩ := wgood_plain (h4 w rfl)
    exact ⟨⟨rfl, by simp, h3, h6⟩, ⟨fun _ => .inl rfl, h5 w rfl, h7⟩, .inl rfl, rfl⟩

theorem SelGood.simp {k : Key} {x x' : Sel} (h : SelGood T k x) {n : Nat} (hs : simpSel n x = .ok x') : SelGood T k x' := by
  cases n with
  | zero => simp [simpSel] at hs
  | succ n =>
    simp only [simpSel] at hs
    cases hw : x.where_ with
    | none => rw [hw] at hs; cases hs; exact h
    | some w =>
      rw [hw] at hs
      simp only at hs
      cases h1 : simpW n w with
      | error e => rw [h1] at hs; cases hs
      | ok w' =>
        rw [h1] at hs; cases hs
        refine ⟨h.cols, h.from_, ?_, ?_, ?_⟩
        · intro j hj
          simp only [selFinish, Sel.joins] at hj
          refine h.joins j ?_
          obtain ⟨_, _, _, _, js, _, _⟩ := x
          simp only [Sel.joins] at hj ⊢
          rcases js with _ | _ | _ <;> exact hj
        · intro v hv
          simp only [selFinish, Sel.where_] at hv
          split at hv
          · cases hv
          · cases hv; exact kept_good.simp _ _ _ h1 (h.good w hw)
        · intro v hv
          simp only [selFinish, Sel.where_, Sel.joins] at hv ⊢
          split at hv
          · cases hv
          · cases hv
            rcases h.still w hw with h2 | h2 | h2
            · exact .inl (by unfold Sel.joins at h2; rw [h2])
            · exact .inl (by unfold Sel.joins at h2; rw [h2])
            · exact .inr (.inr (kept_still.simp _ _ _ h1 ⟨h.good w hw, h2⟩).2)

/-- A simplified union of such selects can be built. -/
theorem union_good {k : Key} {xs : List Sel} {st : Stmt} (h : ∀ x ∈ xs, SelGood T k x)
    (hs : (Stmt.union xs).simplify = .ok st) : QueryPlain T k (.statement st) := by
  have one : ∀ {x : Sel}, SelGood T k x → QueryPlain T k (.statement (.select x)) := fun hx =>
    ⟨_, rfl, hx.plain.1, hx.plain.2.1, hx.plain.2.2⟩
  have many : ∀ {xs : List Sel}, (∀ x ∈ xs, SelGood T k x) → SelsPlain T xs ∧ SelsFit xs := by
    intro xs
    induction xs with
    | nil => exact fun _ => ⟨trivial, trivial⟩
    | cons x xs ih =>
      intro h
      have h1 := (h x (by simp)).plain
      have h2 := ih fun y hy => h y (by simp [hy])
      exact ⟨⟨h1.1, h2.1⟩, h1.2.1, h2.2⟩
  unfold Stmt.simplify at hs
  generalize (Stmt.union xs).size = n at hs
  cases n with
  | zero => simp [simpStmt] at hs
  | succ n =>
    simp only [simpStmt] at hs
    cases h1 : xs.mapM (simpSel n) with
    | error e => rw [h1] at hs; cases hs
    | ok all =>
      rw [h1] at hs
      simp only at hs
      have hall : ∀ s ∈ all.filter (fun s => !(s.where_.getD .true_).isFalse), SelGood T k s := by
        intro s hs
        obtain ⟨a, ha, hab⟩ := forall₂_exists_right (mapM_ok_iff.1 h1) (List.mem_filter.1 hs).1
        exact (h a ha).simp hab
      revert hs hall
      generalize all.filter (fun s => !(s.where_.getD .true_).isFalse) = l
      intro hs hall
      rcases l with _ | ⟨s0, _ | ⟨s1, rest⟩⟩
      · cases xs with
        | nil => cases hs
        | cons s ss =>
          simp only at hs
          cases h2 : simpSel n s with
          | error e => rw [h2] at hs; cases hs
          | ok s' =>
            rw [h2] at hs; cases hs
            exact one ((h s (by simp)).simp h2)
      · cases hs
        exact one (hall s0 (by simp))
      · simp only at hs
        by_cases hm : canMerge s0 (s0 :: s1 :: rest) = true
        · rw [if_pos hm] at hs
          cases h2 : simpSel n (mergedSel s0 (s0 :: s1 :: rest)) with
          | error e => rw [h2] at hs; cases hs
          | ok s' =>
            rw [h2] at hs; cases hs
            have h0 := hall s0 (by simp)
            refine one (SelGood.simp (x := mergedSel s0 (s0 :: s1 :: rest)) ⟨h0.cols, h0.from_, (fun j hj => by cases hj), ?_, fun _ _ => .inl rfl⟩ h2)
            intro w hw
            simp only [mergedSel, Sel.where_mk, Option.some.injEq] at hw
            subst hw
            refine wgoods_iff.2 fun c hc => ?_
            obtain ⟨s, hs, rfl⟩ := List.mem_map.1 hc
            cases hsw : s.where_ with
            | none => exact trivial
            | some w => exact (hall s hs).good w hsw
        · rw [if_neg hm] at hs
          cases hs
          exact ⟨_, rfl, (many hall).1, (many hall).2, by simp, fun x hx => (hall x hx).plain.2.2⟩

theorem relationSel_good {k : Key} {joins : List Join} {outer : Bool} {ws : List Where}
    (hj : ∀ j ∈ joins, (∀ c ∈ j.leftColumns, HasCol T ⟨k.1, k.2, false⟩ c) ∧ ∀ c ∈ j.rightColumns, HasCol T j.right c)
    (h : ∀ w ∈ ws, WGood T ⟨k.1, k.2, false⟩ w ∧ ¬ Draws w) : SelGood T k (relationSel k joins outer ws) := by
  refine ⟨rfl, rfl, hj, ?_, ?_⟩
  · intro w hw
    simp only [relationSel, Sel.where_mk, Option.some.injEq] at hw
    subst hw
    exact wgoods_iff.2 fun c hc => (h c hc).1
  · intro w hw
    simp only [relationSel, Sel.where_mk, Option.some.injEq] at hw
    subst hw
    refine .inr (.inr fun hd => ?_)
    obtain ⟨c, hc, hd⟩ := drawsAny_iff.1 hd
    exact (h c hc).2 hd

theorem targetSel_good {k : Key} {x : TargetConfig}
    (h : ∀ c, c ∈ dkeys x.like ∨ c ∈ dkeys x.in_ → HasCol T ⟨k.1, k.2, false⟩ c) : SelGood T k (targetSel k x) := by
  refine ⟨rfl, rfl, by simp [targetSel, Sel.joins], fun w hw => ?_, fun _ _ => .inl rfl⟩
  simp only [targetSel, Sel.where_mk, Option.some.injEq] at hw
  subst hw
  refine wgoods_iff.2 fun c hc => ?_
  unfold targetClauses at hc
  split at hc
  · cases hc
  · simp only [List.mem_append, List.mem_flatMap, List.mem_map] at hc
    rcases hc with ((hc | hc) | ⟨p, hp, pat, hpat, rfl⟩) | ⟨p, hp, rfl⟩
    · cases hq : x.percent with
      | none => rw [hq] at hc; cases hc
      | some q =>
        rw [hq] at hc
        simp only [List.mem_singleton] at hc
        subst hc
        trivial
    · cases hq : x.sql with
      | none => rw [hq] at hc; cases hc
      | some q =>
        rw [hq] at hc
        simp only [List.mem_singleton] at hc
        subst hc
        trivial
    · exact h p.1 (.inl (List.mem_map_of_mem (f := Prod.fst) hp))
    · intro c hc
      simp only [List.mem_singleton] at hc
      subst hc
      exact h p.1 (.inr (List.mem_map_of_mem (f := Prod.fst) hp))

theorem constraintClauses_good {m : TableMeta} {k : Key} (hm : ∀ c ∈ m.columns, HasCol T ⟨k.1, k.2, false⟩ c) {cs : List ColumnConstraint}
    {ws : List Where} (h : constraintClauses m cs = .ok ws) : ∀ w ∈ ws, WGood T ⟨k.1, k.2, false⟩ w ∧ ¬ Draws w := by
  induction cs generalizing ws with
  | nil => cases h; simp
  | cons c cs ih =>
    simp only [constraintClauses] at h
    split at h
    · rename_i hc
      cases h1 : constraintClauses m cs with
      | error e => rw [h1] at h; cases h
      | ok ws' =>
        rw [h1] at h
        cases h
        intro w hw
        rcases List.mem_cons.1 hw with rfl | hw
        · exact ⟨hm _ hc, id⟩
        · exact ih h1 w hw
    · cases h

/-- All queries of a plan can be built, if the columns named exist. -/
theorem PlanShape.plain {cfg : PlannerConfig} {ign pass : List Key} {T0 T' : Tables} {found ord : List Key} {p : Plan}
    (hT : TablesOK T0) (hp : PlanShape cfg ign pass T0 T' found ord p)
    (hcol : ∀ k ∈ found ++ ord, ∀ m, (k, m) ∈ T0 → ∀ c ∈ m.columns, ∀ b, HasCol T ⟨k.1, k.2, b⟩ c)
    (hfk : ∀ a fk b, HasFk T0 a fk b → (∀ m, (a, m) ∈ T0 → ∀ c ∈ fk.columns, c ∈ m.columns) ∧
      ∀ m, (b, m) ∈ T0 → ∀ c ∈ fk.dstColumns, c ∈ m.columns)
    (htg : ∀ k ∈ ord, ∀ x, dget cfg.targets k.str = some x → ∀ c, c ∈ dkeys x.like ∨ c ∈ dkeys x.in_ →
      HasCol T ⟨k.1, k.2, false⟩ c) : PlanPlain T p := by
  intro n q hq
  have hn : n ∈ p.queries.map Prod.fst := List.mem_map_of_mem (f := Prod.fst) hq
  rw [hp.keys] at hn
  obtain ⟨k, hk, rfl⟩ := List.mem_map.1 hn
  refine ⟨k, parse_of_nodot (found_nodot hT (hp.inT hT hk)), ?_⟩
  have hpl := hp.planned_of_mem hT hk hq
  rcases List.mem_append.1 hk with h | h
  · have := hp.planned_unique hT hpl (hp.planned_of_mem hT hk (hp.passq k h))
    subst this
    exact ⟨_, rfl, ⟨rfl, by simp, by simp⟩, fun _ => .inl rfl, .inl rfl, rfl⟩
  · obtain ⟨pre, post, he⟩ := List.append_of_mem h
    obtain ⟨t, q', ht, h2, h3⟩ := hp.ordq pre k post he
    have := hp.planned_unique hT hpl (hp.planned_of_mem hT hk h3)
    subst this
    obtain ⟨st, rfl, hsh⟩ := planTable_shape h2
    have hke := hp.key_eq' hT ht
    obtain ⟨t0, ht0, ht0'⟩ := hp.getT' hT ht
    have hproc : ∀ d ∈ pre ++ [k], d ∈ found ++ ord := by
      intro d hd
      rw [he]
      rcases List.mem_append.1 hd with hd | hd
      · simp [hd]
      · rw [List.mem_singleton.1 hd]; simp
    have hown : ∀ c ∈ t.columns, HasCol T ⟨k.1, k.2, false⟩ c := fun c hc =>
      hcol k hk t0 ht0 c (by rw [ht0'] at hc; exact hc) false
    have getm : ∀ d ∈ found ++ ord, ∃ m, (d, m) ∈ T0 := fun d hd => by
      obtain ⟨m, hm⟩ := Option.isSome_iff_exists.1 (hp.inT hT hd)
      exact ⟨m, dget_some_mem hm⟩
    have hjF : ∀ {joins : List Join}, (sortFks (fksTo t (pre ++ [k]))).mapM (fkJoin T' t) = .ok joins →
        ∀ j ∈ joins, (∀ c ∈ j.leftColumns, HasCol T ⟨k.1, k.2, false⟩ c) ∧ ∀ c ∈ j.rightColumns, HasCol T j.right c := by
      intro joins hj j hjm
      obtain ⟨fk, g1, -, g2, g3, g4⟩ := (joins_spec hj).1 j hjm
      obtain ⟨g5, g6⟩ := (hp.mem_fksTo hT ht).1 g1
      obtain ⟨g7, g8⟩ := hfk _ _ _ g5
      obtain ⟨m, hm⟩ := getm _ (hproc _ g6)
      rw [g2, g3, g4]
      exact ⟨fun c hc => hcol k hk t0 ht0 c (g7 t0 ht0 c hc) false, fun c hc => hcol _ (hproc _ g6) m hm c (g8 m hm c hc) true⟩
    have hjR : ∀ {joins : List Join}, (sortFks (revsTo t (pre ++ [k]))).mapM (fkJoin T' t) = .ok joins →
        ∀ j ∈ joins, (∀ c ∈ j.leftColumns, HasCol T ⟨k.1, k.2, false⟩ c) ∧ ∀ c ∈ j.rightColumns, HasCol T j.right c := by
      intro joins hj j hjm
      obtain ⟨fk, g1, -, g2, g3, g4⟩ := (joins_spec hj).1 j hjm
      obtain ⟨a, fk', g5, rfl, g6⟩ := (hp.mem_revsTo hT ht).1 g1
      obtain ⟨g7, g8⟩ := hfk _ _ _ g5
      obtain ⟨m, hm⟩ := getm _ (hproc _ g6)
      rw [g2, g3, g4]
      exact ⟨fun c hc => hcol k hk t0 ht0 c (g8 t0 ht0 c hc) false, fun c hc => hcol _ (hproc _ g6) m hm c (g7 m hm c hc) true⟩
    generalize hx : dget cfg.targets k.str = target at hsh
    cases hsh with
    | forward hF hR hj hw hs =>
      rw [hke] at hs
      refine union_good (fun x hx => ?_) hs
      rw [List.mem_singleton.1 hx]
      exact relationSel_good (hjF hj) (constraintClauses_good hown hw)
    | backward hF hR hC hj hs =>
      rw [hke] at hs
      refine union_good (fun x hx => ?_) hs
      rw [List.mem_singleton.1 hx]
      exact relationSel_good (hjR hj) (by simp)
    | target hF hR hw hs =>
      rw [hke] at hs
      refine union_good (fun y hy => ?_) hs
      rw [List.mem_singleton.1 hy]
      exact targetSel_good (htg k h _ hx)
    | both hF hR ha hC hj hs =>
      rw [hke] at hs
      refine union_good (fun y hy => ?_) hs
      simp only [List.mem_cons, List.not_mem_nil, or_false] at hy
      rcases hy with rfl | rfl
      · exact relationSel_good (hjR hj) (by simp)
      · exact targetSel_good (htg k h _ hx)

end Subsetter
