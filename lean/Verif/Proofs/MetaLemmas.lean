import Verif.Spec.Planner
import Verif.Proofs.Names
import Verif.Proofs.PyDict
import Verif.Proofs.Simplify

/- Loaded tables: reverse keys and rewriting of foreign keys. -/
set_option linter.unusedSimpArgs false
namespace Subsetter
open Spec

theorem dget_map_snd {κ ν ν' : Type} [DecidableEq κ] (T : Dict κ ν) (f : κ → ν → ν') (k : κ) :
    dget (T.map fun p => (p.1, f p.1 p.2)) k = (dget T k).map (f k) := by
  induction T with
  | nil => rfl
  | cons p T ih =>
    obtain ⟨a, t⟩ := p
    simp only [List.map_cons, dget_cons]
    split
    · next h => subst h; rfl
    · exact ih

theorem updTable_eq (T : Tables) (k : Key) (f : TableMeta → TableMeta) :
    updTable T k f = T.map fun p => (p.1, if p.1 = k then f p.2 else p.2) := by
  unfold updTable
  apply List.map_congr_left
  rintro ⟨a, t⟩ _
  by_cases h : a = k <;> simp [h]

theorem dget_updTable (T : Tables) (k : Key) (f : TableMeta → TableMeta) (x : Key) :
    dget (updTable T k f) x = (dget T x).map fun t => if x = k then f t else t := by
  rw [updTable_eq, dget_map_snd T fun a t => if a = k then f t else t]

theorem updTable_keys (T : Tables) (k : Key) (f : TableMeta → TableMeta) :
    (updTable T k f).map Prod.fst = T.map Prod.fst := by
  rw [updTable_eq]; simp [Function.comp_def]

/-! ### Reverse keys -/

/-- Append reverse keys. -/
def addRev (f : Key → List ForeignKey) (T : Tables) : Tables :=
  T.map fun p => (p.1, { p.2 with revForeignKeys := p.2.revForeignKeys ++ f p.1 })

theorem addRev_keys (f : Key → List ForeignKey) (T : Tables) :
    (addRev f T).map Prod.fst = T.map Prod.fst := by
  simp [addRev, Function.comp_def]

theorem addRev_get (f : Key → List ForeignKey) (T : Tables) (k : Key) :
    dget (addRev f T) k = (dget T k).map fun t =>
      { t with revForeignKeys := t.revForeignKeys ++ f k } :=
  dget_map_snd T (fun k (t : TableMeta) =>
    ({ t with revForeignKeys := t.revForeignKeys ++ f k } : TableMeta)) k

theorem addRev_addRev (f g : Key → List ForeignKey) (T : Tables) :
    addRev g (addRev f T) = addRev (fun k => f k ++ g k) T := by
  simp [addRev, Function.comp_def]

theorem revKeysInner_spec (t : TableMeta) : ∀ (fks : List ForeignKey) (T : Tables),
    revKeysInner t fks T =
      if ∀ fk ∈ fks, (dget T fk.dst).isSome then
        some (addRev (fun k => (fks.filter fun fk => decide (fk.dst = k)).map (reverseFk t)) T)
      else none := by
  intro fks
  induction fks with
  | nil => intro T; simp [revKeysInner, addRev]
  | cons fk fks ih =>
    intro T
    rw [revKeysInner]
    cases h : dget T fk.dst with
    | none => simp [h]
    | some d =>
      simp only
      rw [ih]
      have h1 : ∀ x, (dget (updTable T fk.dst fun d =>
          { d with revForeignKeys := d.revForeignKeys ++ [reverseFk t fk] }) x).isSome =
          (dget T x).isSome := by
        intro x; rw [dget_updTable]; simp
      simp only [h1, List.forall_mem_cons, h, Option.isSome_some, true_and]
      split
      · congr 1
        have : (updTable T fk.dst fun d =>
            { d with revForeignKeys := d.revForeignKeys ++ [reverseFk t fk] }) =
            addRev (fun k => if fk.dst = k then [reverseFk t fk] else []) T := by
          rw [updTable_eq]
          unfold addRev
          apply List.map_congr_left
          rintro ⟨a, s⟩ _
          by_cases e : a = fk.dst
          · simp [e]
          · simp [e, Ne.symm e]
        rw [this, addRev_addRev]
        congr 1
        funext k
        by_cases e : fk.dst = k
        · simp [e]
        · simp [e]
      · rfl

theorem revKeysLoop_spec : ∀ (ts : List TableMeta) (T : Tables),
    revKeysLoop ts T =
      if ∀ t ∈ ts, ∀ fk ∈ t.foreignKeys, (dget T fk.dst).isSome then
        some (addRev (fun k => ts.flatMap fun t =>
          (t.foreignKeys.filter fun fk => decide (fk.dst = k)).map (reverseFk t)) T)
      else none := by
  intro ts
  induction ts with
  | nil => intro T; simp [revKeysLoop, addRev]
  | cons t ts ih =>
    intro T
    rw [revKeysLoop, revKeysInner_spec]
    by_cases h : ∀ fk ∈ t.foreignKeys, (dget T fk.dst).isSome
    · rw [if_pos h]
      simp only
      rw [ih]
      have h1 : ∀ f x, (dget (addRev f T) x).isSome = (dget T x).isSome := by
        intro f x; rw [addRev_get]; simp
      simp only [h1, List.forall_mem_cons]
      by_cases h2 : ∀ t ∈ ts, ∀ fk ∈ t.foreignKeys, (dget T fk.dst).isSome
      · rw [if_pos h2, if_pos ⟨h, h2⟩, addRev_addRev]
        simp only [List.flatMap_cons]
      · rw [if_neg h2, if_neg (fun h3 => h2 h3.2)]
    · rw [if_neg h]
      simp only [List.forall_mem_cons]
      rw [if_neg (fun h3 => h h3.1)]

/-- The reverse keys of table `k`. -/
def revOf (T : Tables) (k : Key) : List ForeignKey :=
  (T.map Prod.snd).flatMap fun t =>
    (t.foreignKeys.filter fun fk => decide (fk.dst = k)).map (reverseFk t)

open Classical in
theorem computeReverseKeys_spec (T : Tables) :
    computeReverseKeys T =
      if ∀ a fk b, HasFk T a fk b → (dget T b).isSome then some (addRev (revOf T) T) else none := by
  unfold computeReverseKeys
  rw [revKeysLoop_spec]
  have : (∀ t ∈ T.map Prod.snd, ∀ fk ∈ t.foreignKeys, (dget T fk.dst).isSome = true) ↔
      ∀ a fk b, HasFk T a fk b → (dget T b).isSome := by
    constructor
    · rintro h a fk b ⟨t, h1, h2, rfl⟩
      exact h t (List.mem_map_of_mem (f := Prod.snd) h1) fk h2
    · intro h t ht fk hfk
      obtain ⟨⟨a, t⟩, h1, rfl⟩ := List.mem_map.1 ht
      exact h a fk _ ⟨t, h1, hfk, rfl⟩
  by_cases h : ∀ a fk b, HasFk T a fk b → (dget T b).isSome
  · rw [if_pos h, if_pos (this.2 h)]; rfl
  · rw [if_neg h, if_neg (fun h' => h (this.1 h'))]

/-- The tables have no reverse keys yet, so afterwards `k` has the reverse of `fk` exactly if some
table has `fk` to `k`. -/
theorem mem_revOf {T : Tables} (hT : TablesOK T) {k : Key} {rfk : ForeignKey} :
    rfk ∈ revOf T k ↔ ∃ a fk, HasFk T a fk k ∧ rfk = ⟨fk.dstColumns, a.1, a.2, fk.columns⟩ := by
  unfold revOf
  simp only [List.mem_flatMap, List.mem_map, List.mem_filter, decide_eq_true_eq]
  constructor
  · rintro ⟨t, ⟨⟨a, t'⟩, h1, rfl⟩, fk, ⟨h2, h3⟩, rfl⟩
    refine ⟨a, fk, ⟨t', h1, h2, h3⟩, ?_⟩
    rw [← hT.key_eq a t' h1]; rfl
  · rintro ⟨a, fk, ⟨t, h1, h2, h3⟩, rfl⟩
    refine ⟨t, ⟨(a, t), h1, rfl⟩, fk, ⟨h2, h3⟩, ?_⟩
    rw [← hT.key_eq a t h1]; rfl

theorem Spec.TablesOK.get {T : Tables} (hT : TablesOK T) {k : Key} {t : TableMeta} :
    dget T k = some t ↔ (k, t) ∈ T :=
  ⟨dget_some_mem, dget_of_mem hT.keys_nodup⟩

/-! ### Rewriting foreign keys -/

/-- Tables after changing only lists of foreign keys. -/
structure SameBut (T T' : Tables) : Prop where
  keys : T'.map Prod.fst = T.map Prod.fst
  same : ∀ k t', dget T' k = some t' → ∃ t, dget T k = some t ∧
    t' = { t with foreignKeys := t'.foreignKeys }

theorem SameBut.refl (T : Tables) : SameBut T T := ⟨rfl, fun _ t' h => ⟨t', h, rfl⟩⟩

theorem SameBut.trans {T T' T'' : Tables} (h : SameBut T T') (h' : SameBut T' T'') :
    SameBut T T'' := by
  refine ⟨by rw [h'.keys, h.keys], fun k t'' ht => ?_⟩
  obtain ⟨t', h1, h2⟩ := h'.same k t'' ht
  obtain ⟨t, h3, h4⟩ := h.same k t' h1
  refine ⟨t, h3, ?_⟩
  rw [h2, h4]

theorem sameBut_updTable (T : Tables) (k : Key) (f : TableMeta → List ForeignKey) :
    SameBut T (updTable T k fun t => { t with foreignKeys := f t }) := by
  refine ⟨updTable_keys _ _ _, fun x t' h => ?_⟩
  rw [dget_updTable, Option.map_eq_some_iff] at h
  obtain ⟨t, h1, rfl⟩ := h
  refine ⟨t, h1, ?_⟩
  by_cases e : x = k <;> simp [e]

theorem Spec.TablesOK.of_sameBut {T T' : Tables} (hT : TablesOK T) (h : SameBut T T')
    (hfk : ∀ k t', dget T' k = some t' → ∀ fk ∈ t'.foreignKeys,
      fk.columns.length = fk.dstColumns.length ∧ fk.columns ≠ []) : TablesOK T' := by
  have hnd : (T'.map Prod.fst).Nodup := by rw [h.keys]; exact hT.keys_nodup
  refine ⟨hnd, fun k t' hm => ?_, fun k t' hm => ?_, fun k t' hm => ?_, fun k t' hm =>
    hfk k t' (dget_of_mem hnd hm)⟩
  · obtain ⟨t, h1, h2⟩ := h.same k t' (dget_of_mem hnd hm)
    rw [h2]; exact hT.key_eq k t (dget_some_mem h1)
  · obtain ⟨t, h1, -⟩ := h.same k t' (dget_of_mem hnd hm)
    exact hT.no_dot k t (dget_some_mem h1)
  · obtain ⟨t, h1, h2⟩ := h.same k t' (dget_of_mem hnd hm)
    rw [h2]; exact hT.no_rev k t (dget_some_mem h1)

/-- Foreign keys after removing one relationship. -/
theorem removeIgnoreFk_spec {T T' : Tables} {x : Str × Str} (h : removeIgnoreFk T x = .ok T') :
    ∃ src dst, parseTableName x.1 = some src ∧ parseTableName x.2 = some dst ∧ SameBut T T' ∧
      ∀ k t', dget T' k = some t' → ∃ t, dget T k = some t ∧
        t'.foreignKeys = if k = src then t.foreignKeys.filter fun fk => decide (fk.dst ≠ dst)
          else t.foreignKeys := by
  unfold removeIgnoreFk parseName at h
  cases h1 : parseTableName x.1 with
  | none => rw [h1] at h; cases h
  | some src =>
    rw [h1] at h
    cases h2 : parseTableName x.2 with
    | none => rw [h2] at h; cases h
    | some dst =>
      rw [h2] at h
      simp only at h
      refine ⟨src, dst, rfl, rfl, ?_⟩
      cases h3 : dget T src with
      | none =>
        rw [h3] at h
        cases h
        refine ⟨SameBut.refl T, fun k t' ht => ⟨t', ht, ?_⟩⟩
        rw [if_neg]
        rintro rfl; rw [h3] at ht; cases ht
      | some t =>
        rw [h3] at h
        cases h
        refine ⟨sameBut_updTable _ _ _, fun k t' ht => ?_⟩
        rw [dget_updTable, Option.map_eq_some_iff] at ht
        obtain ⟨t0, h4, rfl⟩ := ht
        refine ⟨t0, h4, ?_⟩
        by_cases e : k = src <;> simp [e]

/-- Foreign keys after `_remove_ignore_fks`: those not named by any entry, in the same order. -/
theorem removeIgnoreFks_spec : ∀ {xs : List (Str × Str)} {T T' : Tables},
    removeIgnoreFks xs T = .ok T' → SameBut T T' ∧
      (∀ x ∈ xs, (parseTableName x.1).isSome ∧ (parseTableName x.2).isSome) ∧
      ∀ k t', dget T' k = some t' → ∃ t, dget T k = some t ∧
        t'.foreignKeys = t.foreignKeys.filter fun fk =>
          decide (∀ x ∈ xs, ¬ (parseTableName x.1 = some k ∧ parseTableName x.2 = some fk.dst)) := by
  intro xs
  induction xs with
  | nil =>
    intro T T' h
    cases h
    exact ⟨SameBut.refl T, by simp, fun k t' ht => ⟨t', ht, by simp⟩⟩
  | cons x xs ih =>
    intro T T' h
    rw [removeIgnoreFks] at h
    cases h1 : removeIgnoreFk T x with
    | error e => rw [h1] at h; cases h
    | ok T1 =>
      rw [h1] at h
      obtain ⟨h2, h2', h3⟩ := ih h
      obtain ⟨src, dst, h4, h5, h6, h7⟩ := removeIgnoreFk_spec h1
      refine ⟨h6.trans h2, ?_, fun k t' ht => ?_⟩
      · intro y hy
        rcases List.mem_cons.1 hy with rfl | hy
        · simp [h4, h5]
        · exact h2' y hy
      obtain ⟨t1, h8, h9⟩ := h3 k t' ht
      obtain ⟨t, h10, h11⟩ := h7 k t1 h8
      refine ⟨t, h10, ?_⟩
      rw [h9, h11]
      by_cases e : k = src
      · subst e
        rw [if_pos rfl, List.filter_filter]
        refine List.filter_congr fun fk _ => ?_
        rw [Bool.eq_iff_iff]
        simp only [Bool.and_eq_true, decide_eq_true_eq, List.forall_mem_cons, h4, h5,
          Option.some.injEq, true_and]
        constructor
        · rintro ⟨a, b⟩; exact ⟨fun c => b c.symm, a⟩
        · rintro ⟨a, b⟩; exact ⟨b, fun c => a c.symm⟩
      · rw [if_neg e]
        refine List.filter_congr fun fk _ => ?_
        rw [Bool.eq_iff_iff]
        simp only [decide_eq_true_eq, List.forall_mem_cons, h4, Option.some.injEq]
        simp [Ne.symm e]

/-- The key an extra_fks entry asks for, if it is valid for the tables: both tables exist and have
the named columns. -/
def extraKey (T : Tables) (k : Key) (x : ExtraFk) : Option ForeignKey :=
  match parseTableName x.srcTable, parseTableName x.dstTable with
  | some src, some dst =>
    match dget T src, dget T dst with
    | some t, some d =>
      if src = k ∧ (∀ c ∈ x.srcColumns, c ∈ t.columns) ∧ (∀ c ∈ x.dstColumns, c ∈ d.columns) then
        some ⟨x.srcColumns, dst.1, dst.2, x.dstColumns⟩
      else none
    | _, _ => none
  | _, _ => none

theorem addExtraFk_spec {T T' : Tables} {x : ExtraFk} (h : addExtraFk T x = .ok T') :
    SameBut T T' ∧ (parseTableName x.srcTable).isSome ∧ (parseTableName x.dstTable).isSome ∧
      ∀ k t', dget T' k = some t' → ∃ t, dget T k = some t ∧
        t'.foreignKeys = t.foreignKeys ++ (extraKey T k x).toList := by
  unfold addExtraFk parseName at h
  cases h1 : parseTableName x.srcTable with
  | none => rw [h1] at h; cases h
  | some src =>
    rw [h1] at h
    cases h2 : parseTableName x.dstTable with
    | none => rw [h2] at h; cases h
    | some dst =>
      rw [h2] at h
      simp only at h
      have hno : (∀ k, extraKey T k x = none) → T' = T → SameBut T T' ∧ (some src).isSome ∧
          (some dst).isSome ∧ ∀ k t', dget T' k = some t' → ∃ t, dget T k = some t ∧
            t'.foreignKeys = t.foreignKeys ++ (extraKey T k x).toList := by
        rintro hk rfl
        refine ⟨SameBut.refl _, rfl, rfl, fun k t' ht => ⟨t', ht, by rw [hk]; simp⟩⟩
      cases h3 : dget T src with
      | none =>
        rw [h3] at h; cases h
        exact hno (fun k => by simp [extraKey, h1, h2, h3]) rfl
      | some t =>
        rw [h3] at h
        simp only at h
        by_cases h4 : x.srcColumns.all (fun c => decide (c ∈ t.columns)) = true
        · rw [if_pos h4] at h
          cases h5 : dget T dst with
          | none =>
            rw [h5] at h; cases h
            exact hno (fun k => by simp [extraKey, h1, h2, h3, h5]) rfl
          | some d =>
            rw [h5] at h
            simp only at h
            by_cases h6 : x.dstColumns.all (fun c => decide (c ∈ d.columns)) = true
            · rw [if_pos h6] at h
              cases h
              refine ⟨sameBut_updTable _ _ _, rfl, rfl, fun k t' ht => ?_⟩
              rw [dget_updTable, Option.map_eq_some_iff] at ht
              obtain ⟨t0, h7, rfl⟩ := ht
              refine ⟨t0, h7, ?_⟩
              simp only [List.all_eq_true, decide_eq_true_eq] at h4 h6
              by_cases e : k = src
              · subst e
                simp only [if_true, extraKey, h1, h2, h3, h5]
                rw [if_pos ⟨trivial, h4, h6⟩]; rfl
              · simp [extraKey, h1, h2, h3, h5, e, Ne.symm e]
            · rw [if_neg h6] at h
              cases h
              simp only [List.all_eq_true, decide_eq_true_eq] at h6
              exact hno (fun k => by
                simp only [extraKey, h1, h2, h3, h5]
                rw [if_neg (fun h => h6 h.2.2)]) rfl
        · rw [if_neg h4] at h
          cases h
          simp only [List.all_eq_true, decide_eq_true_eq] at h4
          refine hno (fun k => ?_) rfl
          simp only [extraKey, h1, h2, h3]
          cases dget T dst with
          | none => rfl
          | some d => simp only; rw [if_neg (fun h => h4 h.2.1)]

theorem extraKey_congr {T T' : Tables} (h : SameBut T T') (k : Key) (x : ExtraFk) :
    extraKey T' k x = extraKey T k x := by
  have hcol : ∀ a, (dget T' a).map TableMeta.columns = (dget T a).map TableMeta.columns := by
    intro a
    cases h1 : dget T' a with
    | none =>
      have : dget T a = none := by
        rw [dget_none_iff] at h1 ⊢; rwa [← h.keys]
      rw [this]
    | some t' =>
      obtain ⟨t, h2, h3⟩ := h.same a t' h1
      rw [h2, h3]; rfl
  unfold extraKey
  cases parseTableName x.srcTable with
  | none => rfl
  | some src =>
    cases parseTableName x.dstTable with
    | none => rfl
    | some dst =>
      have h1 := hcol src
      have h2 := hcol dst
      simp only
      cases e1 : dget T' src <;> cases e2 : dget T src <;> rw [e1, e2] at h1 <;>
        simp only [Option.map_none, Option.map_some, reduceCtorEq, Option.some.injEq] at h1
      cases e3 : dget T' dst <;> cases e4 : dget T dst <;> rw [e3, e4] at h2 <;>
        simp only [Option.map_none, Option.map_some, reduceCtorEq, Option.some.injEq] at h2
      simp only [h1, h2]

/-- Foreign keys after `_add_extra_fks`: the old ones followed by the valid extra ones. -/
theorem addExtraFks_spec : ∀ {xs : List ExtraFk} {T T' : Tables},
    addExtraFks xs T = .ok T' → SameBut T T' ∧
      ∀ k t', dget T' k = some t' → ∃ t, dget T k = some t ∧
        t'.foreignKeys = t.foreignKeys ++ xs.filterMap (extraKey T k) := by
  intro xs
  induction xs with
  | nil =>
    intro T T' h
    cases h
    exact ⟨SameBut.refl T, fun k t' ht => ⟨t', ht, by simp⟩⟩
  | cons x xs ih =>
    intro T T' h
    rw [addExtraFks] at h
    cases h1 : addExtraFk T x with
    | error e => rw [h1] at h; cases h
    | ok T1 =>
      rw [h1] at h
      obtain ⟨h2, h3⟩ := ih h
      obtain ⟨h4, -, -, h5⟩ := addExtraFk_spec h1
      refine ⟨h4.trans h2, fun k t' ht => ?_⟩
      obtain ⟨t1, h6, h7⟩ := h3 k t' ht
      obtain ⟨t, h8, h9⟩ := h5 k t1 h6
      refine ⟨t, h8, ?_⟩
      have : extraKey T1 k = extraKey T k := by funext x; exact extraKey_congr h4 k x
      rw [h7, h9, List.append_assoc, this, List.filterMap_cons]
      cases extraKey T k x <;> rfl

/-! ### Inference -/

/-- A table with its inferred keys. -/
def addInferred (b : Bool) (T : Tables) (t : TableMeta) : TableMeta :=
  { t with foreignKeys :=
      t.foreignKeys ++ inferredFks b (pkMapLoop b (T.map Prod.snd) []) t }

theorem inferMissing_get (b : Bool) (T : Tables) (k : Key) :
    dget (inferMissing b T) k = (dget T k).map (addInferred b T) := by
  unfold inferMissing
  exact dget_map_snd T (fun _ t => addInferred b T t) k

theorem inferMissing_sameBut (b : Bool) (T : Tables) : SameBut T (inferMissing b T) := by
  refine ⟨by simp [inferMissing, Function.comp_def], fun k t' h => ?_⟩
  rw [inferMissing_get, Option.map_eq_some_iff] at h
  obtain ⟨t, h1, rfl⟩ := h
  exact ⟨t, h1, rfl⟩

theorem inferredFks_cols {b : Bool} {m : Dict (Option Str × List Str) (Option Key)} {t : TableMeta}
    {fk : ForeignKey} (h : fk ∈ inferredFks b m t) :
    fk.columns.length = fk.dstColumns.length ∧ fk.columns ≠ [] := by
  unfold inferredFks at h
  obtain ⟨col, -, h⟩ := List.mem_filterMap.1 h
  cases h1 : dget m (keyPk b t.schema [col]) with
  | none => rw [h1] at h; cases h
  | some o =>
    rw [h1] at h
    cases o with
    | none => cases h
    | some dst =>
      simp only at h
      split at h
      · cases h; simp
      · cases h

/-- Rewriting keeps tables well formed. -/
theorem rewriteFks_ok {cfg : PlannerConfig} {T T' : Tables} (hT : TablesOK T)
    (hx : ∀ x ∈ cfg.extraFks, x.Valid) (h : rewriteFks cfg T = .ok T') :
    TablesOK T' ∧ SameBut T T' := by
  unfold rewriteFks at h
  set T0 := (match cfg.infer with
        | .none => T
        | .schema => inferMissing false T
        | .all => inferMissing true T) with hT0
  have h0 : SameBut T T0 ∧ ∀ k t', dget T0 k = some t' → ∀ fk ∈ t'.foreignKeys,
      fk.columns.length = fk.dstColumns.length ∧ fk.columns ≠ [] := by
    have hinf : ∀ b, SameBut T (inferMissing b T) ∧ ∀ k t', dget (inferMissing b T) k = some t' →
        ∀ fk ∈ t'.foreignKeys, fk.columns.length = fk.dstColumns.length ∧ fk.columns ≠ [] := by
      intro b
      refine ⟨inferMissing_sameBut b T, fun k t' ht fk hfk => ?_⟩
      rw [inferMissing_get, Option.map_eq_some_iff] at ht
      obtain ⟨t, h1, rfl⟩ := ht
      rcases List.mem_append.1 hfk with hfk | hfk
      · exact hT.fk_cols k t (dget_some_mem h1) fk hfk
      · exact inferredFks_cols hfk
    rw [hT0]
    cases cfg.infer with
    | none => exact ⟨SameBut.refl T, fun k t' ht fk hfk => hT.fk_cols k t' (dget_some_mem ht) fk hfk⟩
    | schema => exact hinf false
    | all => exact hinf true
  change (match removeIgnoreFks cfg.ignoreFks T0 with
    | .error e => (Except.error e : Except PlanErr Tables)
    | .ok T' => addExtraFks cfg.extraFks T') = .ok T' at h
  cases h1 : removeIgnoreFks cfg.ignoreFks T0 with
  | error e => rw [h1] at h; cases h
  | ok T1 =>
    rw [h1] at h
    obtain ⟨h2, -, h3⟩ := removeIgnoreFks_spec h1
    obtain ⟨h4, h5⟩ := addExtraFks_spec h
    have hs := (h0.1.trans h2).trans h4
    refine ⟨hT.of_sameBut hs fun k t' ht fk hfk => ?_, hs⟩
    obtain ⟨t1, h6, h7⟩ := h5 k t' ht
    obtain ⟨t0, h8, h9⟩ := h3 k t1 h6
    rw [h7] at hfk
    rcases List.mem_append.1 hfk with hfk | hfk
    · rw [h9] at hfk
      exact h0.2 k t0 h8 fk (List.mem_filter.1 hfk).1
    · obtain ⟨x, hxm, hxk⟩ := List.mem_filterMap.1 hfk
      have hv := hx x hxm
      unfold extraKey at hxk
      split at hxk
      · split at hxk
        · split at hxk
          · cases hxk
            exact ⟨hv.2.1.symm, hv.1⟩
          · cases hxk
        · cases hxk
      · cases hxk

end Subsetter
