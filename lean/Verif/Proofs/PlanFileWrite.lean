import Verif.Proofs.PlanFile
import Verif.Proofs.PlanUses

/- Plans of the planner can be written. -/
namespace Subsetter
open Spec

variable {code : Rat → Nat}

/-- A value that can be written as a literal. -/
def CanVal (code : Rat → Nat) (v : Val) : Prop := ∃ y, DumpsVal code v y
def CanW (code : Rat → Nat) (w : Where) : Prop := ∃ y, DumpsWhere code w y
def CanSel (code : Rat → Nat) (s : Sel) : Prop := ∃ y, DumpsSel code s y
def CanStmt (code : Rat → Nat) (s : Stmt) : Prop := ∃ y, DumpsStmt code s y

theorem forall₂_of_forall {α β : Type} {P : α → β → Prop} {l : List α} (h : ∀ a ∈ l, ∃ b, P a b) :
    ∃ l', List.Forall₂ P l l' := by
  induction l with
  | nil => exact ⟨[], .nil⟩
  | cons a l ih =>
    obtain ⟨b, hb⟩ := h a (by simp)
    obtain ⟨l', h'⟩ := ih fun a ha => h a (by simp [ha])
    exact ⟨b :: l', .cons hb h'⟩

theorem forall_of_forall₂ {α β : Type} {P : α → β → Prop} {l : List α} {l' : List β} (h : List.Forall₂ P l l') :
    ∀ a ∈ l, ∃ b, P a b := by
  induction h with
  | nil => simp
  | cons h1 _ ih =>
    intro a ha
    rcases List.mem_cons.1 ha with rfl | ha
    · exact ⟨_, h1⟩
    · exact ih a ha

theorem can_list {α : Type} {P : α → Yaml → Prop} {l : List α} (h : ∀ a ∈ l, ∃ b, P a b) : ∃ y, DumpsList P l y := by
  obtain ⟨l', h'⟩ := forall₂_of_forall h
  exact ⟨_, l', rfl, h'⟩

theorem can_strs (l : List Str) : ∃ y, DumpsList DumpsStr l y := can_list fun _ _ => ⟨_, rfl⟩

theorem can_tableId (t : TableId) : ∃ y, DumpsTableId t y :=
  ⟨_, [(str! "schema", .leaf (.str t.schema)), (str! "table", .leaf (.str t.name)),
      (str! "sampled", .leaf (.bool t.sampled))], rfl, ⟨_, rfl, rfl⟩, ⟨_, rfl, rfl⟩, .inr ⟨_, rfl, rfl⟩⟩

theorem can_join (j : Join) : ∃ y, DumpsJoin j y := by
  obtain ⟨y1, h1⟩ := can_tableId j.right
  obtain ⟨y2, h2⟩ := can_strs j.leftColumns
  obtain ⟨y3, h3⟩ := can_strs j.rightColumns
  exact ⟨_, [(str! "right", y1), (str! "left_columns", y2), (str! "right_columns", y3),
      (str! "half_unique", .leaf (.bool j.halfUnique))], rfl, ⟨_, rfl, h1⟩, ⟨_, rfl, h2⟩, ⟨_, rfl, h3⟩,
    .inr ⟨_, rfl, rfl⟩⟩

theorem can_op (o : Op) : ∃ y, DumpsOp o y := by
  cases o
  case ne => exact ⟨_, .inl rfl⟩
  all_goals exact ⟨_, rfl⟩

theorem canW_false : CanW code .false_ :=
  ⟨_, by rw [DumpsWhere]; exact ⟨[(str! "type", .leaf (.str (str! "false")))], rfl, _, rfl, rfl⟩⟩
theorem canW_true : CanW code .true_ :=
  ⟨_, by rw [DumpsWhere]; exact ⟨[(str! "type", .leaf (.str (str! "true")))], rfl, _, rfl, rfl⟩⟩
theorem canW_sql (t : Str) : CanW code (.sql t) :=
  ⟨_, by
    rw [DumpsWhere]
    exact ⟨[(str! "type", .leaf (.str (str! "sql"))), (str! "sql", .leaf (.str t))], rfl, ⟨_, rfl, rfl⟩, _, rfl, rfl⟩⟩
theorem canW_random (q : Rat) : CanW code (.random q 0) :=
  ⟨_, by
    rw [DumpsWhere]
    exact ⟨[(str! "type", .leaf (.str (str! "random"))), (str! "threshold", .leaf (.float q))], rfl, ⟨_, rfl, rfl⟩,
      ⟨_, rfl, rfl⟩, rfl⟩⟩
theorem canW_random_tag {q : Rat} {g : Nat} (h : CanW code (.random q g)) : g = 0 := by
  obtain ⟨y, h⟩ := h
  rw [DumpsWhere] at h
  obtain ⟨d, -, -, -, h⟩ := h
  exact h

theorem canW_op {o : Op} {c : Str} {v : Val} (h : CanVal code v) : CanW code (.op o c v) := by
  obtain ⟨y1, h1⟩ := can_op o
  obtain ⟨y2, h2⟩ := h
  exact ⟨_, by
    rw [DumpsWhere]
    exact ⟨[(str! "type", .leaf (.str (str! "operator"))), (str! "operator", y1), (str! "column", .leaf (.str c)),
      (str! "value", y2)], rfl, ⟨_, rfl, rfl⟩, .inr ⟨_, rfl, h1⟩, ⟨_, rfl, rfl⟩, ⟨_, rfl, h2⟩⟩⟩

theorem canW_inVals {cols : List Str} {vals : List (List Val)} {neg : Bool} (h : ∀ l ∈ vals, ∀ v ∈ l, CanVal code v) :
    CanW code (.inVals cols vals neg) := by
  obtain ⟨y1, h1⟩ := can_strs cols
  obtain ⟨y2, h2⟩ := can_list (P := DumpsList (DumpsVal code)) fun l hl => can_list (h l hl)
  exact ⟨_, by
    rw [DumpsWhere]
    exact ⟨[(str! "type", .leaf (.str (str! "in"))), (str! "columns", y1), (str! "values", y2),
      (str! "negated", .leaf (.bool neg))], rfl, ⟨_, rfl, rfl⟩, ⟨_, rfl, h1⟩, ⟨_, rfl, h2⟩, .inr ⟨_, rfl, rfl⟩⟩⟩

theorem canW_inStmt {cols : List Str} {st : Stmt} {neg : Bool} : CanW code (.inStmt cols st neg) ↔ CanStmt code st := by
  constructor
  · rintro ⟨y, h⟩
    rw [DumpsWhere] at h
    obtain ⟨d, -, -, -, ⟨z, -, h⟩, -⟩ := h
    exact ⟨z, h⟩
  · rintro ⟨z, h⟩
    obtain ⟨y1, h1⟩ := can_strs cols
    exact ⟨_, by
      rw [DumpsWhere]
      exact ⟨[(str! "type", .leaf (.str (str! "in"))), (str! "columns", y1), (str! "values", z),
        (str! "negated", .leaf (.bool neg))], rfl, ⟨_, rfl, rfl⟩, ⟨_, rfl, h1⟩, ⟨_, rfl, h⟩, .inr ⟨_, rfl, rfl⟩⟩⟩

theorem canW_and {cs : List Where} : CanW code (.and cs) ↔ ∀ c ∈ cs, CanW code c := by
  constructor
  · rintro ⟨y, h⟩
    rw [DumpsWhere] at h
    obtain ⟨d, ys, -, -, -, h⟩ := h
    exact forall_of_forall₂ (dumpsWheres_iff.1 h)
  · intro h
    obtain ⟨ys, h⟩ := forall₂_of_forall h
    exact ⟨_, by
      rw [DumpsWhere]
      exact ⟨[(str! "type", .leaf (.str (str! "and"))), (str! "conditions", .seq ys)], ys, rfl, ⟨_, rfl, rfl⟩, rfl,
        dumpsWheres_iff.2 h⟩⟩

theorem canW_or {cs : List Where} : CanW code (.or cs) ↔ ∀ c ∈ cs, CanW code c := by
  constructor
  · rintro ⟨y, h⟩
    rw [DumpsWhere] at h
    obtain ⟨d, ys, -, -, -, h⟩ := h
    exact forall_of_forall₂ (dumpsWheres_iff.1 h)
  · intro h
    obtain ⟨ys, h⟩ := forall₂_of_forall h
    exact ⟨_, by
      rw [DumpsWhere]
      exact ⟨[(str! "type", .leaf (.str (str! "or"))), (str! "conditions", .seq ys)], ys, rfl, ⟨_, rfl, rfl⟩, rfl,
        dumpsWheres_iff.2 h⟩⟩

theorem canSel_iff {s : Sel} : CanSel code s ↔ s.tag = 0 ∧ ∀ w, s.where_ = some w → CanW code w := by
  obtain ⟨columns, from_, where_, limit, joins, outer, tag⟩ := s
  constructor
  · rintro ⟨y, h⟩
    rw [DumpsSel] at h
    obtain ⟨d, -, -, -, -, h, -, -, -, h'⟩ := h
    refine ⟨h', fun w hw => ?_⟩
    simp only [Sel.where_] at hw
    subst hw
    rcases h with ⟨-, h⟩ | ⟨z, -, h⟩
    · cases h
    · rw [DumpsOptWhere] at h; exact ⟨z, h⟩
  · rintro ⟨h1, h2⟩
    simp only [Sel.tag, Sel.where_] at h1 h2
    have hw : ∃ y, DumpsOptWhere code where_ y := by
      cases where_ with
      | none => exact ⟨.leaf .null, by rw [DumpsOptWhere]⟩
      | some w =>
        obtain ⟨y, h⟩ := h2 w rfl
        exact ⟨y, by rw [DumpsOptWhere]; exact h⟩
    have hc : ∃ y, DumpsOpt (DumpsList DumpsStr) columns y := by
      cases columns with
      | none => exact ⟨_, rfl⟩
      | some l => exact can_strs l
    have hl : ∃ y, DumpsOpt DumpsNat limit y := by
      cases limit with
      | none => exact ⟨_, rfl⟩
      | some l => exact ⟨_, rfl⟩
    have hj : ∃ y, DumpsOpt (DumpsList DumpsJoin) joins y := by
      cases joins with
      | none => exact ⟨_, rfl⟩
      | some l => exact can_list fun j _ => can_join j
    obtain ⟨y1, hw⟩ := hw
    obtain ⟨y2, hc⟩ := hc
    obtain ⟨y3, hl⟩ := hl
    obtain ⟨y4, hj⟩ := hj
    obtain ⟨y5, hf⟩ := can_tableId from_
    exact ⟨_, by
      rw [DumpsSel]
      exact ⟨[(str! "type", .leaf (.str (str! "select"))), (str! "columns", y2), (str! "from", y5), (str! "where", y1),
        (str! "limit", y3), (str! "joins", y4), (str! "joins_outer", .leaf (.bool outer))], rfl, ⟨_, rfl, rfl⟩,
        .inr ⟨_, rfl, hc⟩, ⟨_, rfl, hf⟩, .inr ⟨_, rfl, hw⟩, .inr ⟨_, rfl, hl⟩, .inr ⟨_, rfl, hj⟩, .inr ⟨_, rfl, rfl⟩, h1⟩⟩

theorem canStmt_select {s : Sel} : CanStmt code (.select s) ↔ CanSel code s := by
  unfold CanStmt CanSel
  simp only [DumpsStmt]

theorem canStmt_union {ss : List Sel} : CanStmt code (.union ss) ↔ ∀ s ∈ ss, CanSel code s := by
  constructor
  · rintro ⟨y, h⟩
    rw [DumpsStmt] at h
    obtain ⟨d, ys, -, -, -, h⟩ := h
    exact forall_of_forall₂ (dumpsSels_iff.1 h)
  · intro h
    obtain ⟨ys, h⟩ := forall₂_of_forall h
    exact ⟨_, by
      rw [DumpsStmt]
      exact ⟨[(str! "type", .leaf (.str (str! "union"))), (str! "statements", .seq ys)], ys, rfl, ⟨_, rfl, rfl⟩, rfl,
        dumpsSels_iff.2 h⟩⟩

/-! ### Simplification -/

theorem andFinish_can {cs : List Where} (h : ∀ c ∈ cs, CanW code c) : CanW code (andFinish cs) := by
  have key : ∀ w ∈ (cs.filter fun c => !c.isTrue).flatMap Where.andParts, CanW code w := by
    intro w hw
    obtain ⟨c, hc, hwc⟩ := List.mem_flatMap.1 hw
    have h1 := h c (List.mem_filter.1 hc).1
    cases c <;> simp only [Where.andParts, List.mem_singleton] at hwc <;>
      first | (subst hwc; exact h1) | exact canW_and.1 h1 w hwc
  unfold andFinish
  revert key
  generalize (cs.filter fun c => !c.isTrue).flatMap Where.andParts = l
  intro key
  simp only
  split
  · exact canW_false
  · split
    · exact canW_true
    · exact key _ (by simp)
    · exact canW_and.2 key

theorem orFinish_can {cs : List Where} (h : ∀ c ∈ cs, CanW code c) : CanW code (orFinish cs) := by
  have key : ∀ w ∈ (cs.filter fun c => !c.isFalse).flatMap Where.orParts, CanW code w := by
    intro w hw
    obtain ⟨c, hc, hwc⟩ := List.mem_flatMap.1 hw
    have h1 := h c (List.mem_filter.1 hc).1
    cases c <;> simp only [Where.orParts, List.mem_singleton] at hwc <;>
      first | (subst hwc; exact h1) | exact canW_or.1 h1 w hwc
  unfold orFinish
  revert key
  generalize (cs.filter fun c => !c.isFalse).flatMap Where.orParts = l
  intro key
  simp only
  split
  · exact canW_true
  · split
    · exact canW_false
    · exact key _ (by simp)
    · exact canW_or.2 key

theorem simp_can : ∀ n : Nat,
    (∀ w w', simpW n w = .ok w' → CanW code w → CanW code w') ∧
    (∀ s s', simpSel n s = .ok s' → CanSel code s → CanSel code s') ∧
    (∀ st st', simpStmt n st = .ok st' → CanStmt code st → CanStmt code st') := by
  intro n
  induction n with
  | zero => refine ⟨?_, ?_, ?_⟩ <;> intro a b h <;> simp [simpW, simpSel, simpStmt] at h
  | succ n ih =>
    obtain ⟨ihW, ihS, ihT⟩ := ih
    have hmap : ∀ (cs cs' : List Where), cs.mapM (simpW n) = .ok cs' → (∀ c ∈ cs, CanW code c) →
        ∀ c ∈ cs', CanW code c := by
      intro cs cs' h hc w hw
      obtain ⟨a, ha, hab⟩ := forall₂_exists_right (mapM_ok_iff.1 h) hw
      exact ihW _ _ hab (hc a ha)
    refine ⟨fun w w' h hx => ?_, fun s s' h hx => ?_, fun st st' h hx => ?_⟩
    · cases w with
      | false_ => simp only [simpW] at h; cases h; exact hx
      | true_ => simp only [simpW] at h; cases h; exact hx
      | op o c v => simp only [simpW] at h; cases h; exact hx
      | inVals cs vs b => simp only [simpW] at h; cases h; exact hx
      | inStmt cs st b =>
        simp only [simpW] at h
        cases h1 : simpStmt n st with
        | error e => rw [h1] at h; cases h
        | ok st' =>
          rw [h1] at h; cases h
          exact canW_inStmt.2 (ihT _ _ h1 (canW_inStmt.1 hx))
      | and cs =>
        simp only [simpW] at h
        cases h1 : cs.mapM (simpW n) with
        | error e => rw [h1] at h; cases h
        | ok cs' =>
          rw [h1] at h; cases h
          exact andFinish_can (hmap _ _ h1 (canW_and.1 hx))
      | or cs =>
        simp only [simpW] at h
        cases h1 : cs.mapM (simpW n) with
        | error e => rw [h1] at h; cases h
        | ok cs' =>
          rw [h1] at h; cases h
          exact orFinish_can (hmap _ _ h1 (canW_or.1 hx))
      | random thr g =>
        simp only [simpW] at h; cases h
        unfold randomSimplify
        split
        · exact canW_false
        · split
          · exact canW_true
          · exact hx
      | sql s => simp only [simpW] at h; cases h; exact hx
    · simp only [simpSel] at h
      cases hw : s.where_ with
      | none => rw [hw] at h; cases h; exact hx
      | some w =>
        rw [hw] at h
        simp only at h
        cases h1 : simpW n w with
        | error e => rw [h1] at h; cases h
        | ok w' =>
          rw [h1] at h; cases h
          obtain ⟨h2, h3⟩ := canSel_iff.1 hx
          refine canSel_iff.2 ⟨h2, fun v hv => ?_⟩
          simp only [selFinish, Sel.where_] at hv
          split at hv
          · cases hv
          · cases hv; exact ihW _ _ h1 (h3 w hw)
    · cases st with
      | select s =>
        simp only [simpStmt] at h
        cases h1 : simpSel n s with
        | error e => rw [h1] at h; cases h
        | ok s' =>
          rw [h1] at h; cases h
          exact canStmt_select.2 (ihS _ _ h1 (canStmt_select.1 hx))
      | union ss =>
        simp only [simpStmt] at h
        have hss := canStmt_union.1 hx
        cases h1 : ss.mapM (simpSel n) with
        | error e => rw [h1] at h; cases h
        | ok all =>
          rw [h1] at h
          simp only at h
          have hall : ∀ s ∈ all.filter (fun s => !(s.where_.getD .true_).isFalse), CanSel code s := by
            intro s hs
            obtain ⟨a, ha, hab⟩ := forall₂_exists_right (mapM_ok_iff.1 h1) (List.mem_filter.1 hs).1
            exact ihS _ _ hab (hss a ha)
          revert h hall
          generalize all.filter (fun s => !(s.where_.getD .true_).isFalse) = l
          intro h hall
          rcases l with _ | ⟨s0, _ | ⟨s1, rest⟩⟩
          · cases ss with
            | nil => cases h
            | cons s ss =>
              simp only at h
              cases h2 : simpSel n s with
              | error e => rw [h2] at h; cases h
              | ok s' =>
                rw [h2] at h; cases h
                exact canStmt_select.2 (ihS _ _ h2 (hss s (by simp)))
          · cases h
            exact canStmt_select.2 (hall s0 (by simp))
          · simp only at h
            by_cases hm : canMerge s0 (s0 :: s1 :: rest) = true
            · rw [if_pos hm] at h
              cases h2 : simpSel n (mergedSel s0 (s0 :: s1 :: rest)) with
              | error e => rw [h2] at h; cases h
              | ok s' =>
                rw [h2] at h; cases h
                refine canStmt_select.2 (ihS _ _ h2 (canSel_iff.2 ⟨(canSel_iff.1 (hall s0 (by simp))).1, ?_⟩))
                intro w hw
                simp only [mergedSel, Sel.where_mk, Option.some.injEq] at hw
                subst hw
                refine canW_or.2 fun c hc => ?_
                obtain ⟨s, hs, rfl⟩ := List.mem_map.1 hc
                cases hsw : s.where_ with
                | none => exact canW_true
                | some w => exact (canSel_iff.1 (hall s hs)).2 w hsw
            · rw [if_neg hm] at h
              cases h
              exact canStmt_union.2 hall

/-! ### Plans -/

theorem relationSel_can {k : Key} {joins : List Join} {outer : Bool} {ws : List Where} (h : ∀ w ∈ ws, CanW code w) :
    CanSel code (relationSel k joins outer ws) :=
  canSel_iff.2 ⟨rfl, fun w hw => by
    simp only [relationSel, Sel.where_mk, Option.some.injEq] at hw
    subst hw
    exact canW_and.2 h⟩

theorem targetSel_can {k : Key} {x : TargetConfig} (h : ∀ c vs, (c, vs) ∈ x.in_ → ∀ v ∈ vs, CanVal code v) :
    CanSel code (targetSel k x) := by
  refine canSel_iff.2 ⟨rfl, fun w hw => ?_⟩
  simp only [targetSel, Sel.where_mk, Option.some.injEq] at hw
  subst hw
  refine canW_and.2 fun c hc => ?_
  unfold targetClauses at hc
  split at hc
  · cases hc
  · simp only [List.mem_append, List.mem_flatMap, List.mem_map] at hc
    rcases hc with ((hc | hc) | ⟨p, hp, pat, hpat, rfl⟩) | ⟨p, hp, rfl⟩
    · cases hq : x.percent with
      | none => rw [hq] at hc; cases hc
      | some q =>
        rw [hq] at hc
        simp only [List.mem_singleton] at hc
        subst hc
        exact canW_random _
    · cases hq : x.sql with
      | none => rw [hq] at hc; cases hc
      | some q =>
        rw [hq] at hc
        simp only [List.mem_singleton] at hc
        subst hc
        exact canW_sql _
    · exact canW_op ⟨_, rfl⟩
    · refine canW_inVals fun l hl v hv => ?_
      obtain ⟨v', hv', rfl⟩ := List.mem_map.1 hl
      simp only [List.mem_singleton] at hv
      subst hv
      exact h p.1 p.2 hp _ hv'

theorem constraintClauses_can {t : TableMeta} {cs : List ColumnConstraint} {ws : List Where}
    (h : constraintClauses t cs = .ok ws) (hc : ∀ c ∈ cs, CanVal code c.value) : ∀ w ∈ ws, CanW code w := by
  induction cs generalizing ws with
  | nil => cases h; simp
  | cons c cs ih =>
    simp only [constraintClauses] at h
    split at h
    · cases h1 : constraintClauses t cs with
      | error e => rw [h1] at h; cases h
      | ok ws' =>
        rw [h1] at h
        cases h
        intro w hw
        rcases List.mem_cons.1 hw with rfl | hw
        · exact canW_op (hc c (by simp))
        · exact ih h1 (fun c hc' => hc c (by simp [hc'])) w hw
    · cases h

/-- Literals of the configuration are strings, integers and floats. -/
def LitConfig (code : Rat → Nat) (cfg : PlannerConfig) : Prop :=
  (∀ n cs, dget cfg.tableConstraints n = some cs → ∀ c ∈ cs, CanVal code c.value) ∧
  ∀ n x, dget cfg.targets n = some x → ∀ c vs, (c, vs) ∈ x.in_ → ∀ v ∈ vs, CanVal code v

theorem tableShape_can {T : Tables} {cfg : PlannerConfig} {t : TableMeta} {processed : List Key} {n : Str} {st : Stmt}
    (hl : LitConfig code cfg) (h : TableShape T cfg.tableConstraints t processed (dget cfg.targets n) st) :
    CanStmt code st := by
  have hC : ∀ c ∈ (dget cfg.tableConstraints t.key.str).getD [], CanVal code c.value := by
    cases hd : dget cfg.tableConstraints t.key.str with
    | none => simp
    | some cs => exact hl.1 _ cs hd
  generalize hx : dget cfg.targets n = target at h
  cases h with
  | forward hF hR hj hw hs =>
    refine (simp_can _).2.2 _ _ hs (canStmt_union.2 fun s h => ?_)
    simp only [List.mem_singleton] at h
    subst h
    exact relationSel_can (constraintClauses_can hw hC)
  | backward hF hR hC hj hs =>
    refine (simp_can _).2.2 _ _ hs (canStmt_union.2 fun s h => ?_)
    simp only [List.mem_singleton] at h
    subst h
    exact relationSel_can (by simp)
  | target hF hR hw hs =>
    refine (simp_can _).2.2 _ _ hs (canStmt_union.2 fun s h => ?_)
    simp only [List.mem_singleton] at h
    subst h
    exact targetSel_can (hl.2 n _ hx)
  | both hF hR ha hC hj hs =>
    refine (simp_can _).2.2 _ _ hs (canStmt_union.2 fun s h => ?_)
    simp only [List.mem_cons, List.not_mem_nil, or_false] at h
    rcases h with rfl | rfl
    · exact relationSel_can (by simp)
    · exact targetSel_can (hl.2 n _ hx)

theorem can_query {st : Stmt} (h : CanStmt code st) : ∃ y, DumpsQuery code (.statement st) y := by
  obtain ⟨y, h⟩ := h
  exact ⟨_, [(str! "statement", y)], rfl, .inl ⟨rfl, trivial⟩, ⟨y, rfl, h⟩⟩

theorem can_plan {p : Plan} (h : ∀ n q, (n, q) ∈ p.queries → ∃ y, DumpsQuery code q y) : ∃ y, DumpsPlan code p y := by
  obtain ⟨zs, hz⟩ := forall₂_of_forall
    (P := fun (q : Str × TableQuery) (z : Str × Yaml) => z.1 = q.1 ∧ DumpsQuery code q.2 z.2) (l := p.queries)
    fun q hq => by
      obtain ⟨y, hy⟩ := h q.1 q.2 hq
      exact ⟨(q.1, y), rfl, hy⟩
  obtain ⟨y, hy⟩ := can_strs p.passthrough
  exact ⟨_, [(str! "queries", .map zs), (str! "passthrough", y)], rfl,
    ⟨_, rfl, p.queries, zs, rfl, .refl _, hz⟩, .inr ⟨_, rfl, hy⟩⟩

theorem PlanShape.can_write {cfg : PlannerConfig} {ign pass : List Key} {T T' : Tables} {found ord : List Key}
    {p : Plan} (hT : TablesOK T) (hp : PlanShape cfg ign pass T T' found ord p) (hl : LitConfig code cfg) :
    ∃ y, DumpsPlan code p y := by
  refine can_plan fun n q hq => ?_
  have hn : n ∈ p.queries.map Prod.fst := List.mem_map_of_mem (f := Prod.fst) hq
  rw [hp.keys] at hn
  obtain ⟨k, hk, rfl⟩ := List.mem_map.1 hn
  have hpl := hp.planned_of_mem hT hk hq
  rcases List.mem_append.1 hk with h | h
  · have := hp.planned_unique hT hpl (hp.planned_of_mem hT hk (hp.passq k h))
    subst this
    exact can_query (canStmt_select.2 (canSel_iff.2 ⟨rfl, fun w hw => by cases hw⟩))
  · obtain ⟨pre, post, he⟩ := List.append_of_mem h
    obtain ⟨t, q', ht, h2, h3⟩ := hp.ordq pre k post he
    have := hp.planned_unique hT hpl (hp.planned_of_mem hT hk h3)
    subst this
    obtain ⟨st, rfl, hsh⟩ := planTable_shape h2
    exact can_query (tableShape_can hl hsh)

end Subsetter
