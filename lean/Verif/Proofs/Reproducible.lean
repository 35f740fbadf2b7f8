import Verif.Proofs.CanPlan
import Verif.Spec.Reproducible

/- The planner on inputs in different orders. -/
namespace Subsetter
open Spec Props

/-! ### Sorting -/

theorem sortKey_inj {a b : ForeignKey} (h : a.sortKey = b.sortKey) : a = b := by
  cases a; cases b
  simp only [ForeignKey.sortKey, List.cons.injEq, and_true] at h
  obtain ⟨rfl, rfl, rfl, rfl⟩ := h
  rfl

instance : Std.Antisymm fkLe := ⟨fun _ _ h h' => sortKey_inj (le_antisymm h h')⟩
instance : Std.Total fkLe := ⟨fun a b => le_total a.sortKey b.sortKey⟩
instance : IsTrans ForeignKey fkLe := ⟨fun a _ _ h h' => le_trans (a := a.sortKey) h h'⟩

theorem sortFks_perm {l l' : List ForeignKey} (h : l.Perm l') : sortFks l = sortFks l' := by
  unfold sortFks
  exact ((List.perm_insertionSort fkLe l).trans (h.trans (List.perm_insertionSort fkLe l').symm)).eq_of_pairwise'
    (List.pairwise_insertionSort fkLe l) (List.pairwise_insertionSort fkLe l')

/-! ### Tables -/

/-- The same tables, by look-up. -/
def SameGet (T T' : Tables) : Prop := ∀ k, Option.Rel SameTable (dget T k) (dget T' k)

theorem Spec.SameTable.symm {t t' : TableMeta} (h : SameTable t t') : SameTable t' t :=
  ⟨h.schema.symm, h.name.symm, h.columns.symm, h.primaryKey.symm, fun u => (h.uniques u).symm, h.foreignKeys.symm,
    h.revForeignKeys.symm⟩

theorem Spec.SameTable.key {t t' : TableMeta} (h : SameTable t t') : t.key = t'.key := by
  unfold TableMeta.key; rw [h.schema, h.name]

theorem Spec.SameTables.symm {T T' : Tables} (h : SameTables T T') : SameTables T' T := by
  refine ⟨fun k t ht => ?_, fun k t ht => ?_⟩
  · obtain ⟨t', h1, h2⟩ := h.right k t ht
    exact ⟨t', h1, h2.symm⟩
  · obtain ⟨t', h1, h2⟩ := h.left k t ht
    exact ⟨t', h1, h2.symm⟩

theorem Spec.SameDb.symm {T T' : Dict Str TableMeta} (h : SameDb T T') : SameDb T' T := by
  refine ⟨fun k t ht => ?_, fun k t ht => ?_⟩
  · obtain ⟨t', h1, h2⟩ := h.right k t ht
    exact ⟨t', h1, h2.symm⟩
  · obtain ⟨t', h1, h2⟩ := h.left k t ht
    exact ⟨t', h1, h2.symm⟩

theorem Spec.SameConfig.symm {cfg cfg' : PlannerConfig} (h : SameConfig cfg cfg') : SameConfig cfg' cfg :=
  ⟨fun n => (h.select n).symm, fun n => (h.targets n).symm, fun n => (h.ignore n).symm,
    fun n => (h.passthrough n).symm, fun n => (h.tableConstraints n).symm, h.ignoreFks.symm, h.extraFks.symm,
    h.infer.symm, h.includeDependencies.symm⟩

theorem SameGet.get_some {T T' : Tables} (h : SameGet T T') {k : Key} {t : TableMeta} (ht : dget T k = some t) :
    ∃ t', dget T' k = some t' ∧ SameTable t t' := by
  have := h k
  rw [ht] at this
  cases h' : dget T' k with
  | none => rw [h'] at this; cases this
  | some t' => rw [h'] at this; cases this with | some g => exact ⟨t', rfl, g⟩

theorem SameGet.symm {T T' : Tables} (h : SameGet T T') : SameGet T' T := by
  intro k
  have := h k
  cases h1 : dget T k <;> cases h2 : dget T' k <;> rw [h1, h2] at this <;> cases this
  · exact .none
  · next g => exact .some g.symm

theorem SameGet.isSome {T T' : Tables} (h : SameGet T T') (k : Key) : (dget T k).isSome = (dget T' k).isSome := by
  have := h k
  cases h1 : dget T k <;> cases h2 : dget T' k <;> rw [h1, h2] at this <;> first | rfl | cases this

theorem Spec.SameTables.get {T T' : Tables} (hT : TablesOK T) (hT' : TablesOK T') (h : SameTables T T') : SameGet T T' := by
  intro k
  cases h1 : dget T k with
  | none =>
    cases h2 : dget T' k with
    | none => exact .none
    | some t' =>
      obtain ⟨t, h3, -⟩ := h.right k t' (hT'.get.1 h2)
      rw [hT.get.2 h3] at h1; cases h1
  | some t =>
    obtain ⟨t', h2, h3⟩ := h.left k t (hT.get.1 h1)
    rw [hT'.get.2 h2]
    exact .some h3

theorem SameGet.keys {T T' : Tables} (hT : TablesOK T) (hT' : TablesOK T') (h : SameGet T T') :
    (T.map Prod.fst).Perm (T'.map Prod.fst) := by
  rw [List.perm_ext_iff_of_nodup hT.keys_nodup hT'.keys_nodup]
  intro k
  rw [← dget_isSome_iff, ← dget_isSome_iff, h.isSome k]

theorem SameGet.hasFk {T T' : Tables} (hT : TablesOK T) (hT' : TablesOK T') (h : SameGet T T') {a : Key} {fk : ForeignKey}
    {b : Key} (hf : HasFk T a fk b) : HasFk T' a fk b := by
  obtain ⟨t, h1, h2, h3⟩ := hf
  obtain ⟨t', h4, h5⟩ := h.get_some (hT.get.2 h1)
  exact ⟨t', hT'.get.1 h4, h5.foreignKeys.mem_iff.1 h2, h3⟩

theorem SameGet.hasFk_iff {T T' : Tables} (hT : TablesOK T) (hT' : TablesOK T') (h : SameGet T T') {a : Key}
    {fk : ForeignKey} {b : Key} : HasFk T a fk b ↔ HasFk T' a fk b := ⟨h.hasFk hT hT', h.symm.hasFk hT' hT⟩

theorem SameGet.ref_iff {T T' : Tables} (hT : TablesOK T) (hT' : TablesOK T') (h : SameGet T T') {a b : Key} :
    Ref T a b ↔ Ref T' a b := by
  unfold Ref; simp only [h.hasFk_iff hT hT']

/-! ### Foreign keys the planner works with -/

theorem SameGet.onlyPk {T T' : Tables} (hT : TablesOK T) (hT' : TablesOK T') (h : SameGet T T') {e : Bool} {a : Key}
    {c : Str} {b : Key} : OnlyPk T e a c b ↔ OnlyPk T' e a c b := by
  have key : ∀ b', (∃ t, (b', t) ∈ T ∧ t.primaryKey = [c] ∧ (e = false → b'.1 = a.1)) ↔
      ∃ t, (b', t) ∈ T' ∧ t.primaryKey = [c] ∧ (e = false → b'.1 = a.1) := by
    intro b'
    constructor
    · rintro ⟨t, h1, h2, h3⟩
      obtain ⟨t', h4, h5⟩ := h.get_some (hT.get.2 h1)
      exact ⟨t', hT'.get.1 h4, h5.primaryKey ▸ h2, h3⟩
    · rintro ⟨t, h1, h2, h3⟩
      obtain ⟨t', h4, h5⟩ := h.symm.get_some (hT'.get.2 h1)
      exact ⟨t', hT.get.1 h4, h5.primaryKey ▸ h2, h3⟩
  unfold OnlyPk
  exact forall_congr' fun b' => by rw [key b']

theorem SameGet.inferred {T T' : Tables} (hT : TablesOK T) (hT' : TablesOK T') (h : SameGet T T') (e : Bool) {t t' : TableMeta}
    (ht : SameTable t t') : inferredFks e (pkMapLoop e (T.map Prod.snd) []) t =
      inferredFks e (pkMapLoop e (T'.map Prod.snd) []) t' := by
  unfold inferredFks
  rw [← ht.columns]
  refine List.filterMap_congr fun c _ => ?_
  have key : ∀ b, dget (pkMapLoop e (T.map Prod.snd) []) (keyPk e t.schema [c]) = some (some b) ↔
      dget (pkMapLoop e (T'.map Prod.snd) []) (keyPk e t'.schema [c]) = some (some b) := by
    intro b
    have h1 := pkMap_onlyPk hT (e := e) (a := t.key) (c := c) (b := b)
    have h2 := pkMap_onlyPk hT' (e := e) (a := t'.key) (c := c) (b := b)
    rw [show t.schema = t.key.1 from rfl, show t'.schema = t'.key.1 from rfl, h1, h2, ← ht.key]
    exact h.onlyPk hT hT'
  cases h1 : dget (pkMapLoop e (T.map Prod.snd) []) (keyPk e t.schema [c]) with
  | some o =>
    cases o with
    | some b =>
      rw [(key b).1 h1]
      simp only [ht.key, ht.foreignKeys.mem_iff]
    | none =>
      cases h2 : dget (pkMapLoop e (T'.map Prod.snd) []) (keyPk e t'.schema [c]) with
      | none => rfl
      | some o =>
        cases o with
        | none => rfl
        | some b => have := (key b).2 h2; rw [h1] at this; cases this
  | none =>
    cases h2 : dget (pkMapLoop e (T'.map Prod.snd) []) (keyPk e t'.schema [c]) with
    | none => rfl
    | some o =>
      cases o with
      | none => rfl
      | some b => have := (key b).2 h2; rw [h1] at this; cases this

theorem SameGet.inferMissing {T T' : Tables} (hT : TablesOK T) (hT' : TablesOK T') (h : SameGet T T') (e : Bool) :
    SameGet (inferMissing e T) (inferMissing e T') := by
  intro k
  rw [inferMissing_get, inferMissing_get]
  have := h k
  cases h1 : dget T k <;> cases h2 : dget T' k <;> rw [h1, h2] at this <;> cases this
  · exact .none
  · next g =>
    refine .some ⟨g.schema, g.name, g.columns, g.primaryKey, g.uniques, ?_, g.revForeignKeys⟩
    unfold addInferred
    simp only [h.inferred hT hT' e g]
    exact g.foreignKeys.append_right _

theorem updTable_get (T : Tables) (a : Key) (f : TableMeta → TableMeta) (k : Key) :
    dget (updTable T a f) k = (dget T k).map fun t => if k = a then f t else t := by
  rw [updTable_eq]
  exact dget_map_snd T (fun k t => if k = a then f t else t) k

theorem SameGet.upd {T T' : Tables} (h : SameGet T T') (a : Key) {f : TableMeta → TableMeta}
    (hf : ∀ t t', SameTable t t' → SameTable (f t) (f t')) : SameGet (updTable T a f) (updTable T' a f) := by
  intro k
  rw [updTable_get, updTable_get]
  have := h k
  cases h1 : dget T k <;> cases h2 : dget T' k <;> rw [h1, h2] at this <;> cases this
  · exact .none
  · next g =>
    refine .some ?_
    dsimp only
    split
    · exact hf _ _ g
    · exact g

theorem SameGet.removeIgnoreFk {T T' : Tables} (h : SameGet T T') {x : Str × Str} {U : Tables}
    (hU : removeIgnoreFk T x = .ok U) : ∃ U', removeIgnoreFk T' x = .ok U' ∧ SameGet U U' := by
  unfold Subsetter.removeIgnoreFk at hU ⊢
  cases h1 : parseName x.1 with
  | error e => rw [h1] at hU; cases hU
  | ok a =>
    rw [h1] at hU
    cases h2 : parseName x.2 with
    | error e => rw [h2] at hU; cases hU
    | ok b =>
      rw [h2] at hU
      dsimp only at hU ⊢
      have := h a
      cases h3 : dget T a <;> cases h4 : dget T' a <;> rw [h3, h4] at this <;> cases this
      · rw [h3] at hU; cases hU; exact ⟨_, rfl, h⟩
      · rw [h3] at hU; cases hU
        exact ⟨_, rfl, h.upd a fun t t' g => ⟨g.schema, g.name, g.columns, g.primaryKey, g.uniques,
          g.foreignKeys.filter _, g.revForeignKeys⟩⟩

theorem SameGet.removeIgnoreFks : ∀ {xs : List (Str × Str)} {T T' : Tables}, SameGet T T' → ∀ {U : Tables},
    removeIgnoreFks xs T = .ok U → ∃ U', removeIgnoreFks xs T' = .ok U' ∧ SameGet U U' := by
  intro xs
  induction xs with
  | nil => intro T T' h U hU; cases hU; exact ⟨T', rfl, h⟩
  | cons x xs ih =>
    intro T T' h U hU
    rw [Subsetter.removeIgnoreFks] at hU ⊢
    cases h1 : Subsetter.removeIgnoreFk T x with
    | error e => rw [h1] at hU; cases hU
    | ok V =>
      rw [h1] at hU
      obtain ⟨V', h2, h3⟩ := h.removeIgnoreFk h1
      rw [h2]
      exact ih h3 hU

theorem SameGet.addExtraFk {T T' : Tables} (h : SameGet T T') {x : ExtraFk} {U : Tables}
    (hU : addExtraFk T x = .ok U) : ∃ U', addExtraFk T' x = .ok U' ∧ SameGet U U' := by
  unfold Subsetter.addExtraFk at hU ⊢
  cases h1 : parseName x.srcTable with
  | error e => rw [h1] at hU; cases hU
  | ok a =>
    rw [h1] at hU
    cases h2 : parseName x.dstTable with
    | error e => rw [h2] at hU; cases hU
    | ok b =>
      rw [h2] at hU
      dsimp only at hU ⊢
      have := h a
      cases h3 : dget T a <;> cases h4 : dget T' a <;> rw [h3, h4] at this <;> cases this
      · rw [h3] at hU; cases hU; exact ⟨_, rfl, h⟩
      · next ta ta' ga =>
        rw [h3] at hU
        dsimp only at hU ⊢
        rw [← ga.columns]
        by_cases hs : (x.srcColumns.all fun c => decide (c ∈ ta.columns)) = true
        · rw [if_pos hs] at hU ⊢
          have := h b
          cases h5 : dget T b <;> cases h6 : dget T' b <;> rw [h5, h6] at this <;> cases this
          · rw [h5] at hU; cases hU; exact ⟨_, rfl, h⟩
          · next tb tb' gb =>
            rw [h5] at hU
            dsimp only at hU ⊢
            rw [← gb.columns]
            by_cases hd : (x.dstColumns.all fun c => decide (c ∈ tb.columns)) = true
            · rw [if_pos hd] at hU ⊢
              cases hU
              exact ⟨_, rfl, h.upd a fun t t' g => ⟨g.schema, g.name, g.columns, g.primaryKey, g.uniques,
                g.foreignKeys.append_right _, g.revForeignKeys⟩⟩
            · rw [if_neg hd] at hU ⊢
              cases hU; exact ⟨_, rfl, h⟩
        · rw [if_neg hs] at hU ⊢
          cases hU; exact ⟨_, rfl, h⟩

theorem SameGet.addExtraFks : ∀ {xs : List ExtraFk} {T T' : Tables}, SameGet T T' → ∀ {U : Tables},
    addExtraFks xs T = .ok U → ∃ U', addExtraFks xs T' = .ok U' ∧ SameGet U U' := by
  intro xs
  induction xs with
  | nil => intro T T' h U hU; cases hU; exact ⟨T', rfl, h⟩
  | cons x xs ih =>
    intro T T' h U hU
    rw [Subsetter.addExtraFks] at hU ⊢
    cases h1 : Subsetter.addExtraFk T x with
    | error e => rw [h1] at hU; cases hU
    | ok V =>
      rw [h1] at hU
      obtain ⟨V', h2, h3⟩ := h.addExtraFk h1
      rw [h2]
      exact ih h3 hU

theorem SameGet.rewriteFks {cfg cfg' : PlannerConfig} (hc : SameConfig cfg cfg') {T T' : Tables} (hT : TablesOK T)
    (hT' : TablesOK T') (h : SameGet T T') {U : Tables} (hU : rewriteFks cfg T = .ok U) :
    ∃ U', rewriteFks cfg' T' = .ok U' ∧ SameGet U U' := by
  have key : ∀ {V V' : Tables}, SameGet V V' → ∀ {U : Tables}, (match Subsetter.removeIgnoreFks cfg.ignoreFks V with
      | .error e => (Except.error e : Except PlanErr Tables)
      | .ok T' => Subsetter.addExtraFks cfg.extraFks T') = .ok U →
      ∃ U', (match Subsetter.removeIgnoreFks cfg'.ignoreFks V' with
        | .error e => (Except.error e : Except PlanErr Tables)
        | .ok T' => Subsetter.addExtraFks cfg'.extraFks T') = .ok U' ∧ SameGet U U' := by
    intro V V' hV U hU
    rw [← hc.ignoreFks, ← hc.extraFks]
    cases h1 : Subsetter.removeIgnoreFks cfg.ignoreFks V with
    | error e => rw [h1] at hU; cases hU
    | ok W =>
      rw [h1] at hU
      obtain ⟨W', h2, h3⟩ := hV.removeIgnoreFks h1
      rw [h2]
      exact h3.addExtraFks hU
  unfold Subsetter.rewriteFks at hU ⊢
  rw [← hc.infer]
  cases hi : cfg.infer <;> rw [hi] at hU
  · exact key h hU
  · exact key (h.inferMissing hT hT' false) hU
  · exact key (h.inferMissing hT hT' true) hU

/-! ### Reverse keys -/

theorem revOf_keys {T : Tables} (hT : TablesOK T) (k : Key) : revOf T k = (T.map Prod.fst).flatMap fun a =>
    match dget T a with
    | none => []
    | some t => (t.foreignKeys.filter fun fk => decide (fk.dst = k)).map (reverseFk t) := by
  unfold revOf
  rw [List.flatMap_map, List.flatMap_map]
  refine List.flatMap_congr fun p hp => ?_
  rw [hT.get.2 (show (p.1, p.2) ∈ T from hp)]

theorem SameGet.revOf {T T' : Tables} (hT : TablesOK T) (hT' : TablesOK T') (h : SameGet T T') (k : Key) :
    (revOf T k).Perm (revOf T' k) := by
  rw [revOf_keys hT, revOf_keys hT']
  refine List.Perm.flatMap (h.keys hT hT') fun a _ => ?_
  have := h a
  cases h1 : dget T a <;> cases h2 : dget T' a <;> rw [h1, h2] at this <;> cases this
  · next g =>
    have he : ∀ t t' : TableMeta, SameTable t t' → reverseFk t = reverseFk t' := by
      intro t t' g
      funext fk
      unfold reverseFk
      rw [g.schema, g.name]
    dsimp only
    rw [he _ _ g]
    exact (g.foreignKeys.filter _).map _

theorem SameGet.addRev {T T' : Tables} (hT : TablesOK T) (hT' : TablesOK T') (h : SameGet T T') :
    SameGet (addRev (Subsetter.revOf T) T) (addRev (Subsetter.revOf T') T') := by
  intro k
  rw [addRev_get, addRev_get]
  have := h k
  cases h1 : dget T k <;> cases h2 : dget T' k <;> rw [h1, h2] at this <;> cases this
  · exact .none
  · next g => exact .some ⟨g.schema, g.name, g.columns, g.primaryKey, g.uniques, g.foreignKeys,
      g.revForeignKeys.append (h.revOf hT hT' k)⟩

/-! ### One table -/

theorem isDistinct_same {t t' : TableMeta} (h : SameTable t t') (cols : List Str) : isDistinct t cols = isDistinct t' cols := by
  unfold isDistinct
  rw [Bool.eq_iff_iff]
  simp only [List.any_cons, Bool.or_eq_true, List.any_eq_true, h.primaryKey, h.uniques]

theorem fkJoin_same {T T' : Tables} (h : SameGet T T') {t t' : TableMeta} (ht : SameTable t t') :
    fkJoin T t = fkJoin T' t' := by
  funext fk
  unfold fkJoin
  have := h fk.dst
  cases h1 : dget T fk.dst <;> cases h2 : dget T' fk.dst <;> rw [h1, h2] at this <;> cases this
  · next g => simp only [isDistinct_same ht, isDistinct_same g]

theorem constraintClauses_same {t t' : TableMeta} (h : SameTable t t') (cs : List ColumnConstraint) :
    constraintClauses t cs = constraintClauses t' cs := by
  induction cs with
  | nil => rfl
  | cons c cs ih => rw [constraintClauses, constraintClauses, ih, h.columns, h.key]

theorem planTable_same {T T' : Tables} (h : SameGet T T') {t t' : TableMeta} (ht : SameTable t t')
    {C C' : Dict Str (List ColumnConstraint)} (hC : ∀ n, dget C n = dget C' n) (processed : List Key)
    (x : Option TargetConfig) : planTable T C t processed x = planTable T' C' t' processed x := by
  unfold planTable
  rw [sortFks_perm (ht.foreignKeys.filter fun fk => decide (fk.dst ∈ processed)),
    sortFks_perm (ht.revForeignKeys.filter fun fk => decide (fk.dst ∈ processed)), fkJoin_same h ht, hC, ht.key,
    show constraintClauses t = constraintClauses t' from funext (constraintClauses_same ht)]

/-! ### The order of tables -/

theorem solveOrder_same {T T' : Tables} (hT : TablesOK T) (hT' : TablesOK T') (h : SameGet T T') {targets targets' : List Str}
    (ht : ∀ n, n ∈ targets ↔ n ∈ targets') {pass pass' ign ign' : List Key} (hp : ∀ k, k ∈ pass ↔ k ∈ pass')
    (hi : ∀ k, k ∈ ign ↔ k ∈ ign') {order : List Str} (ho : solveOrder T targets pass ign = .ok order) :
    solveOrder T' targets' pass' ign' = .ok order := by
  have hG : SameGraph (planGraph T targets pass ign) (planGraph T' targets' pass' ign') := by
    constructor
    · intro u
      rw [planGraph_node hT, planGraph_node hT']
      simp only [h.isSome, hp, hi]
    · intro u v
      rw [planGraph_edge hT, planGraph_edge hT']
      simp only [h.isSome, hp, hi, ht, h.ref_iff hT hT']
  unfold solveOrder at ho ⊢
  dsimp only at ho ⊢
  cases hf : targets.find? (fun t => (dget (planGraph T targets pass ign) t).isNone) with
  | some s => rw [hf] at ho; cases ho
  | none =>
    rw [hf] at ho
    have hn : ∀ s ∈ targets, Node (planGraph T targets pass ign) s := by
      intro s hs
      have := List.find?_eq_none.1 hf s hs
      unfold Node
      rw [← dget_isSome_iff]
      cases h : dget (planGraph T targets pass ign) s <;> simp_all
    have hn' : ∀ s ∈ targets', Node (planGraph T' targets' pass' ign') s := fun s hs => (hG.1 s).1 (hn s ((ht s).2 hs))
    have hf' : targets'.find? (fun t => (dget (planGraph T' targets' pass' ign') t).isNone) = none := by
      refine List.find?_eq_none.2 fun s hs => ?_
      have := hn' s hs
      unfold Node at this
      rw [← dget_isSome_iff] at this
      cases h : dget (planGraph T' targets' pass' ign') s <;> simp_all
    rw [hf']
    dsimp only at ho ⊢
    cases hg : orderGraph (planGraph T targets pass ign) sourceNode with
    | error e => rw [hg] at ho; cases ho
    | ok l =>
      rw [hg] at ho
      rw [orderGraph_det (planGraph_isGraph hT hn) (planGraph_isGraph hT' hn') hG hg]
      exact ho

/-! ### The plan -/

theorem checkIgnore_same {T T' : Tables} (hT : TablesOK T) (hT' : TablesOK T') (h : SameGet T T') {ign ign' : List Key}
    (hi : ∀ k, k ∈ ign ↔ k ∈ ign') (hc : checkIgnore ign (T.map Prod.snd) = .ok ()) :
    checkIgnore ign' (T'.map Prod.snd) = .ok () := by
  rcases checkIgnore_iff (ign := ign) (ts := T.map Prod.snd) with ⟨-, h1⟩ | ⟨_, _, _, _, _, _, h1⟩
  swap
  · rw [hc] at h1; cases h1
  rcases checkIgnore_iff (ign := ign') (ts := T'.map Prod.snd) with ⟨h2, -⟩ | ⟨t', h3, fk, h4, h5, h6, -⟩
  · exact h2
  · exfalso
    obtain ⟨⟨k, t''⟩, h7, rfl⟩ := List.mem_map.1 h3
    obtain ⟨t, h8, h9⟩ := h.symm.get_some (hT'.get.2 h7)
    refine h1 t (List.mem_map_of_mem (f := Prod.snd) (hT.get.1 h8)) ?_ fk (h9.foreignKeys.mem_iff.1 h4) ((hi _).2 h6)
    rw [hi, ← h9.key]; exact h5

/-- A dictionary is determined by its keys and entries. -/
theorem dict_eq_map {ν : Type} {ks : List Key} {g : Key → ν} : ∀ {l : Dict Str ν}, l.map Prod.fst = ks.map Key.str →
    (ks.map Key.str).Nodup → (∀ k ∈ ks, (k.str, g k) ∈ l) → l = ks.map fun k => (k.str, g k) := by
  induction ks with
  | nil => intro l h _ _; simpa using h
  | cons k ks ih =>
    intro l h hnd hm
    cases l with
    | nil => simp at h
    | cons p l =>
      simp only [List.map_cons, List.cons.injEq] at h
      simp only [List.map_cons, List.nodup_cons] at hnd
      have hp : p = (k.str, g k) := by
        rcases List.mem_cons.1 (hm k (by simp)) with e | e
        · exact e.symm
        · exfalso
          apply hnd.1
          rw [← h.2]
          exact List.mem_map_of_mem (f := Prod.fst) e
      rw [List.map_cons, ← ih h.2 hnd.2 fun k' hk' => ?_, hp]
      rcases List.mem_cons.1 (hm k' (List.mem_cons_of_mem _ hk')) with e | e
      · exfalso
        apply hnd.1
        rw [← h.1, ← e]
        exact List.mem_map_of_mem hk'
      · exact e

theorem planTables_same {cfg cfg' : PlannerConfig} (hc : SameConfig cfg cfg') (hne : [] ∉ dkeys cfg.targets) {T T' : Tables}
    (hT : TablesOK T) (hT' : TablesOK T') (h : SameGet T T') {pass pass' ign ign' : List Key} (hpn : pass.Nodup)
    (hpn' : pass'.Nodup) (hp : ∀ k, k ∈ pass ↔ k ∈ pass') (hi : ∀ k, k ∈ ign ↔ k ∈ ign') {p : Plan}
    (hpl : planTables cfg ign pass T = .ok p) : ∃ p', planTables cfg' ign' pass' T' = .ok p' ∧ AlikePlan p p' := by
  have htk : ∀ n, n ∈ dkeys cfg.targets ↔ n ∈ dkeys cfg'.targets := by
    intro n
    unfold dkeys
    rw [← dget_isSome_iff, ← dget_isSome_iff, hc.targets]
  unfold planTables at hpl ⊢
  generalize hri : (if cfg.includeDependencies = true then checkIgnore ign (T.map Prod.snd) else .ok ()) = ri at hpl
  cases ri with
  | error e => cases hpl
  | ok u =>
    cases u
    have hri' : (if cfg'.includeDependencies = true then checkIgnore ign' (T'.map Prod.snd) else .ok ()) = .ok () := by
      rw [← hc.includeDependencies]
      by_cases hd : cfg.includeDependencies = true
      · rw [if_pos hd] at hri ⊢; exact checkIgnore_same hT hT' h hi hri
      · rw [if_neg hd]
    rw [hri']
    dsimp only at hpl ⊢
    cases h1 : checkPassthrough T pass pass with
    | error e => rw [h1] at hpl; cases hpl
    | ok found =>
      rw [h1] at hpl
      dsimp only at hpl
      obtain ⟨hf, hff⟩ := checkPassthrough_ok h1
      cases h1' : checkPassthrough T' pass' pass' with
      | error e =>
        exfalso
        obtain ⟨k, hk, d, -, hr, hd⟩ := checkPassthrough_error h1'
        obtain ⟨fk, t, g1, g2, g3⟩ := (h.ref_iff hT hT').2 hr
        have := hff k t (by
          rw [hf, List.mem_filter, hT.get.2 g1]
          exact ⟨(hp k).2 hk, rfl⟩) (hT.get.2 g1) fk g2
        exact hd ((hp d).1 (g3 ▸ this))
      | ok found' =>
        dsimp only
        obtain ⟨hf', -⟩ := checkPassthrough_ok h1'
        have hfp : found.Perm found' := by
          rw [List.perm_ext_iff_of_nodup (hf ▸ hpn.filter _) (hf' ▸ hpn'.filter _)]
          intro k
          rw [hf, hf', List.mem_filter, List.mem_filter, hp, h.isSome]
        cases h2 : solveOrder T (dkeys cfg.targets) found ign with
        | error e => rw [h2] at hpl; cases hpl
        | ok order =>
          rw [h2] at hpl
          rw [solveOrder_same hT hT' h htk (fun k => hfp.mem_iff) hi h2]
          dsimp only at hpl ⊢
          obtain ⟨ord, rfl, hord⟩ := solveOrder_facts hT hne h2
          rw [computeReverseKeys_spec] at hpl ⊢
          by_cases hcl : ∀ a fk b, HasFk T a fk b → (dget T b).isSome
          swap
          · rw [if_neg hcl] at hpl; cases hpl
          rw [if_pos hcl] at hpl
          rw [if_pos (fun a fk b hfk => by rw [← h.isSome]; exact hcl a fk b ((h.hasFk_iff hT hT').2 hfk))]
          dsimp only at hpl ⊢
          have hfsome : ∀ k ∈ found, (dget T k).isSome := by
            intro k hk; rw [hf] at hk; exact (List.mem_filter.1 hk).2
          have hfnd : found.Nodup := by rw [hf]; exact hpn.filter _
          have hnd : (found ++ ord).Nodup := by
            refine List.nodup_append.2 ⟨hfnd, hord.nodup, ?_⟩
            rintro a ha b hb rfl
            exact (hord.avail a hb).2.1 ha
          have hall : ∀ k ∈ found ++ ord, (dget T k).isSome := by
            intro k hk
            rcases List.mem_append.1 hk with hk | hk
            · exact hfsome k hk
            · exact (hord.avail k hk).1
          have hndq := map_str_nodup hT hall hnd
          have hndq' : ((found' ++ ord).map Key.str).Nodup := ((hfp.append_right ord).map _).nodup_iff.1 hndq
          have hfs : (found.map Key.str).Nodup := map_str_nodup hT hfsome hfnd
          have hfs' : (found'.map Key.str).Nodup := (hfp.map _).nodup_iff.1 hfs
          rw [foldl_dset_new passthroughQuery found [] (by simpa using hfs)] at hpl
          rw [foldl_dset_new passthroughQuery found' [] (by simpa using hfs')]
          simp only [List.nil_append] at hpl ⊢
          have hg := h.addRev hT hT'
          cases h4 : planLoop (addRev (revOf T) T) cfg (ord.map Key.str) []
              (found.map fun k => (k.str, passthroughQuery k)) with
          | error e => rw [h4] at hpl; cases hpl
          | ok Q =>
            rw [h4] at hpl
            cases hpl
            have hdot : ∀ k ∈ ord, '.' ∉ k.1 := fun k hk => found_nodot hT (hord.avail k hk).1
            obtain ⟨h5, h6, h7⟩ := planLoop_ok h4 hdot (by simpa using hord.nodup)
              (by rw [List.map_map]; simpa [Function.comp_def] using hndq)
            have hstep : ∀ pre k post, ord = pre ++ k :: post → ∃ t' q, dget (addRev (revOf T') T') k = some t' ∧
                planTable (addRev (revOf T') T') cfg'.tableConstraints t' (pre ++ [k]) (dget cfg'.targets k.str) = .ok q ∧
                (k.str, q) ∈ Q := by
              intro pre k post he
              obtain ⟨t, q, g1, g2, g3⟩ := h7 pre k post he
              obtain ⟨t', g4, g5⟩ := hg.get_some g1
              refine ⟨t', q, g4, ?_, g3⟩
              rw [← planTable_same hg g5 hc.tableConstraints, ← hc.targets]
              simpa using g2
            cases h4' : planLoop (addRev (revOf T') T') cfg' (ord.map Key.str) []
                (found'.map fun k => (k.str, passthroughQuery k)) with
            | error e =>
              exfalso
              obtain ⟨pre, k, post, t, he, g1, g2⟩ := planLoop_error h4' hdot
                (fun k hk => by
                  rw [← hg.isSome, addRev_get]
                  obtain ⟨t, ht⟩ := Option.isSome_iff_exists.1 (hord.avail k hk).1
                  rw [ht]; rfl) (by simpa using hord.nodup)
              obtain ⟨t', q, g3, g4, -⟩ := hstep pre k post he
              rw [g1] at g3; cases g3
              rw [List.nil_append, g4] at g2; cases g2
            | ok Q' =>
              obtain ⟨h5', h6', h7'⟩ := planLoop_ok h4' hdot (by simpa using hord.nodup)
                (by rw [List.map_map]; simpa [Function.comp_def] using hndq')
              have hQn : (Q.map Prod.fst).Nodup := by rw [h5]; simpa [Function.comp_def] using hndq
              have hQf : ∀ k ∈ found, (dget Q k.str).getD (passthroughQuery k) = passthroughQuery k := by
                intro k hk
                rw [dget_of_mem hQn (h6 _ (List.mem_map.2 ⟨k, hk, rfl⟩))]; rfl
              refine ⟨_, rfl, found.map (fun k => (k.str, passthroughQuery k)),
                found'.map (fun k => (k.str, passthroughQuery k)),
                ord.map (fun k => (k.str, (dget Q k.str).getD (passthroughQuery k))), ?_, ?_, hfp.map _, ?_, ?_⟩
              · have hm := dict_eq_map (l := Q) (ks := found ++ ord)
                  (g := fun k => (dget Q k.str).getD (passthroughQuery k)) (by rw [h5]; simp [Function.comp_def]) hndq
                  (by
                    intro k hk
                    rcases List.mem_append.1 hk with hk | hk
                    · rw [hQf k hk]; exact h6 _ (List.mem_map.2 ⟨k, hk, rfl⟩)
                    · obtain ⟨pre, post, he⟩ := List.append_of_mem hk
                      obtain ⟨_, q, -, -, g⟩ := hstep pre k post he
                      rw [dget_of_mem hQn g]; exact g)
                refine hm.trans ?_
                rw [List.map_append]
                congr 1
                exact List.map_congr_left fun k hk => by rw [hQf k hk]
              · have hm := dict_eq_map (l := Q') (ks := found' ++ ord)
                  (g := fun k => (dget Q k.str).getD (passthroughQuery k)) (by rw [h5']; simp [Function.comp_def]) hndq'
                  (by
                    intro k hk
                    rcases List.mem_append.1 hk with hk | hk
                    · rw [hQf k (hfp.mem_iff.2 hk)]; exact h6' _ (List.mem_map.2 ⟨k, hk, rfl⟩)
                    · obtain ⟨pre, post, he⟩ := List.append_of_mem hk
                      obtain ⟨t, q, g1, g2, g⟩ := hstep pre k post he
                      obtain ⟨t', q', g1', g2', g'⟩ := h7' pre k post he
                      rw [g1] at g1'; cases g1'
                      rw [List.nil_append, g2] at g2'; cases g2'
                      rw [dget_of_mem hQn g]; exact g')
                refine hm.trans ?_
                rw [List.map_append]
                congr 1
                exact List.map_congr_left fun k hk => by rw [hQf k (hfp.mem_iff.2 hk)]
              · simp [Function.comp_def]
              · simp [Function.comp_def]

theorem planInternal_same {cfg cfg' : PlannerConfig} (hc : SameConfig cfg cfg') {T T' : Tables} (hI : Input cfg T)
    (hT' : TablesOK T') (h : SameTables T T') {p : Plan} (hp : planInternal cfg T = .ok p) :
    ∃ p', planInternal cfg' T' = .ok p' ∧ AlikePlan p p' := by
  have hnm : ∀ {l l' : List Str}, (∀ n, n ∈ l ↔ n ∈ l') → ∀ k, Named l k ↔ Named l' k := by
    intro l l' hl k
    unfold Named; simp only [hl]
  unfold planInternal at hp ⊢
  rcases parseSet_cases cfg.ignore with ⟨ign, h1, -, h2⟩ | ⟨h1, -⟩
  swap
  · rw [h1] at hp; cases hp
  rw [h1] at hp
  rcases parseSet_cases cfg.passthrough with ⟨pass, h3, h3n, h4⟩ | ⟨h3, -⟩
  swap
  · rw [h3] at hp; cases hp
  rw [h3] at hp
  rcases parseSet_cases cfg'.ignore with ⟨ign', h1', -, h2'⟩ | ⟨h1', n, h2', h3'⟩
  swap
  · exfalso
    have := parseSet_isOk.1 ⟨_, h1⟩ n ((hc.ignore n).2 h2')
    rw [← parseTableName_isSome, h3'] at this; cases this
  rcases parseSet_cases cfg'.passthrough with ⟨pass', h3', h3n', h4'⟩ | ⟨h3', n, h4', h5'⟩
  swap
  · exfalso
    have := parseSet_isOk.1 ⟨_, h3⟩ n ((hc.passthrough n).2 h4')
    rw [← parseTableName_isSome, h5'] at this; cases this
  rw [h1', h3']
  dsimp only at hp ⊢
  cases h5 : rewriteFks cfg T with
  | error e => rw [h5] at hp; cases hp
  | ok U =>
    rw [h5] at hp
    obtain ⟨U', h6, h7⟩ := (h.get hI.tables hT').rewriteFks hc hI.tables hT' h5
    rw [h6]
    exact planTables_same hc hI.named (rewriteFks_ok hI.tables hI.extra h5).1
      (rewriteFks_ok hT' (hc.extraFks ▸ hI.extra) h6).1 h7 h3n h3n' (fun k => by rw [h4, h4', hnm hc.passthrough])
      (fun k => by rw [h2, h2', hnm hc.ignore]) hp

/-! ### From the database -/

theorem Spec.SameDb.ref {db db' : Dict Str TableMeta} (h : SameDb db db') {a b : Key} (hr : DbRef db a b) : DbRef db' a b := by
  obtain ⟨n, t, fk, h1, h2, h3, h4⟩ := hr
  obtain ⟨t', h5, h6⟩ := h.left n t h1
  exact ⟨n, t', fk, h5, by rw [← h6.schema, ← h6.name]; exact h2, h6.foreignKeys.mem_iff.1 h3, h4⟩

theorem Spec.SameDb.selected {db db' : Dict Str TableMeta} (h : SameDb db db') {fnmatch : Str → Str → Bool} {s s' : List Str}
    (hs : ∀ n, n ∈ s → n ∈ s') {k : Key} (hr : Selected fnmatch db s k) : Selected fnmatch db' s' k := by
  obtain ⟨n, t, h1, h2, pat, h3, h4⟩ := hr
  obtain ⟨t', h5, h6⟩ := h.left n t h1
  exact ⟨n, t', h5, by rw [← h6.schema, ← h6.name]; exact h2, pat, hs pat h3, h4⟩

theorem Spec.SameDb.loaded {db db' : Dict Str TableMeta} (hdb : DbOK db) (hdb' : DbOK db') (h : SameDb db db')
    {fnmatch : Str → Str → Bool} {s s' : List Str} (hs : ∀ n, n ∈ s → n ∈ s') {fwd bwd : Bool} {l l' : Loaded}
    (hl : fromEngine fnmatch db s fwd bwd = some (some l)) (hl' : fromEngine fnmatch db' s' fwd bwd = some (some l'))
    {k : Key} {t : TableMeta} (hk : (k, t) ∈ l.tables) : ∃ t', (k, t') ∈ l'.tables ∧ SameTable t t' := by
  rcases fromEngine_spec (fnmatch := fnmatch) hdb s fwd bwd with ⟨l₀, h1, h2, -, h4, h5⟩ | ⟨h1, -⟩
  swap
  · rw [hl] at h1; cases h1
  rw [hl] at h1; cases h1
  rcases fromEngine_spec (fnmatch := fnmatch) hdb' s' fwd bwd with ⟨l₀, h1', h2', -, h4', h5'⟩ | ⟨h1', -⟩
  swap
  · rw [hl'] at h1'; cases h1'
  rw [hl'] at h1'; cases h1'
  obtain ⟨a, g1, g2⟩ := (h5 k).1 (List.mem_map_of_mem (f := Prod.fst) hk)
  have hk' := (h5' k).2 ⟨a, h.selected hs g1, Relation.ReflTransGen.mono (fun x y hxy => by
    rcases hxy with ⟨e, hxy⟩ | ⟨e, hxy⟩
    · exact .inl ⟨e, h.ref hxy⟩
    · exact .inr ⟨e, h.ref hxy⟩) _ _ g2⟩
  obtain ⟨⟨k', t'⟩, g3, e0⟩ := List.mem_map.1 hk'
  have e0 : k' = k := e0
  subst e0
  obtain ⟨⟨n, g4⟩, g5⟩ := h4 _ _ hk
  obtain ⟨⟨n', g6⟩, g7⟩ := h4' _ _ g3
  obtain ⟨t'', g8, g9⟩ := h.left n t g4
  have e1 := hdb.name_eq n t g4
  have e2 := hdb'.name_eq n' t' g6
  have e3 : n = n' := by
    rw [← g5] at g7
    simp only [Prod.mk.injEq] at g7
    rw [e1, e2, g7.1, g7.2]
  subst e3
  have e4 := dget_of_mem hdb'.names_nodup g6
  rw [dget_of_mem hdb'.names_nodup g8] at e4
  cases e4
  exact ⟨_, g3, g9⟩

end Subsetter
