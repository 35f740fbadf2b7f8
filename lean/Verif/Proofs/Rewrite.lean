import Verif.Proofs.MetaLemmas

/- The foreign keys after inference, `ignore_fks` and `extra_fks`. -/
set_option linter.unusedSimpArgs false
namespace Subsetter
open Spec

/-- Tables sharing an entry of `pk_map`. -/
def pkTables (b : Bool) (ts : List TableMeta) (key : Option Str × List Str) : List TableMeta :=
  ts.filter fun t => !t.primaryKey.isEmpty && decide (keyPk b t.schema t.primaryKey = key)

/-- The entry of `pk_map` after adding tables. -/
def pkEntry : Option (Option Key) → List TableMeta → Option (Option Key)
  | m, [] => m
  | none, [t] => some (some t.key)
  | _, _ => some none

theorem pkEntry_cons (m : Option (Option Key)) (t : TableMeta) (l : List TableMeta) :
    pkEntry m (t :: l) = pkEntry (some (match m with | none => some t.key | some _ => none)) l := by
  rcases m with _ | m <;> rcases l with _ | ⟨t', _ | ⟨t'', l⟩⟩ <;> rfl

theorem pkMapLoop_get (b : Bool) : ∀ (ts : List TableMeta)
    (m : Dict (Option Str × List Str) (Option Key)) (key : Option Str × List Str),
    dget (pkMapLoop b ts m) key = pkEntry (dget m key) (pkTables b ts key) := by
  intro ts
  induction ts with
  | nil => intro m key; rfl
  | cons t ts ih =>
    intro m key
    rw [pkMapLoop]
    cases hpk : t.primaryKey.isEmpty with
    | true =>
      rw [if_pos rfl, ih]
      simp [pkTables, List.filter_cons, hpk]
    | false =>
      rw [if_neg (by simp)]
      simp only
      have hset : ∀ v : Option Key, dget (dset m (keyPk b t.schema t.primaryKey) v) key =
          if keyPk b t.schema t.primaryKey = key then some v else dget m key := by
        intro v
        by_cases he : keyPk b t.schema t.primaryKey = key
        · subst he; rw [if_pos rfl, dget_dset_self]
        · rw [if_neg he, dget_dset_ne _ _ he]
      by_cases he : keyPk b t.schema t.primaryKey = key
      · have hl : pkTables b (t :: ts) key = t :: pkTables b ts key := by
          simp [pkTables, List.filter_cons, hpk, he]
        rw [hl, pkEntry_cons]
        cases hd : dget m (keyPk b t.schema t.primaryKey) with
        | none => simp only [ih, hset, if_pos he]; rw [he] at hd; rw [hd]
        | some v => simp only [ih, hset, if_pos he]; rw [he] at hd; rw [hd]
      · have hl : pkTables b (t :: ts) key = pkTables b ts key := by
          simp [pkTables, List.filter_cons, hpk, he]
        rw [hl]
        cases hd : dget m (keyPk b t.schema t.primaryKey) with
        | none => simp only [ih, hset, if_neg he]
        | some v => simp only [ih, hset, if_neg he]

theorem pkEntry_some {l : List TableMeta} {k : Key} :
    pkEntry none l = some (some k) ↔ ∃ t, l = [t] ∧ t.key = k := by
  match l with
  | [] => simp [pkEntry]
  | [t] => simp [pkEntry]
  | t :: t' :: l => simp [pkEntry]

theorem keyPk_eq {e : Bool} {s s' : Str} {p p' : List Str} :
    keyPk e s p = keyPk e s' p' ↔ (e = false → s = s') ∧ p = p' := by
  cases e <;> simp [keyPk]

theorem pkMap_onlyPk {T : Tables} (hT : TablesOK T) {e : Bool} {a : Key} {c : Str} {b : Key} :
    dget (pkMapLoop e (T.map Prod.snd) []) (keyPk e a.1 [c]) = some (some b) ↔
      OnlyPk T e a c b := by
  rw [pkMapLoop_get, show dget ([] : Dict (Option Str × List Str) (Option Key)) _ = none from rfl,
    pkEntry_some]
  have hmem : ∀ t, t ∈ pkTables e (T.map Prod.snd) (keyPk e a.1 [c]) ↔
      ∃ k, (k, t) ∈ T ∧ t.primaryKey = [c] ∧ (e = false → k.1 = a.1) := by
    intro t
    unfold pkTables
    simp only [List.mem_filter, List.mem_map, Bool.and_eq_true, Bool.not_eq_true',
      List.isEmpty_eq_false_iff, decide_eq_true_eq, keyPk_eq]
    constructor
    · rintro ⟨⟨⟨k, t'⟩, hk, he⟩, -, h1, h2⟩
      have he : t' = t := he
      rw [he] at hk
      have := hT.key_eq k t hk
      exact ⟨k, hk, h2, by rw [← this]; exact h1⟩
    · rintro ⟨k, hk, h1, h2⟩
      have := hT.key_eq k t hk
      exact ⟨⟨_, hk, rfl⟩, by rw [h1]; simp, by rw [← this] at h2; exact h2, h1⟩
  have hnd : (pkTables e (T.map Prod.snd) (keyPk e a.1 [c])).Nodup := by
    unfold pkTables
    refine List.Nodup.filter _ ?_
    have h1 : (T.map Prod.snd).map TableMeta.key = T.map Prod.fst := by
      rw [List.map_map]
      exact List.map_congr_left fun q hq => hT.key_eq q.1 q.2 hq
    exact List.Nodup.of_map TableMeta.key (h1 ▸ hT.keys_nodup)
  revert hmem hnd
  generalize pkTables e (T.map Prod.snd) (keyPk e a.1 [c]) = l
  intro hmem hnd
  constructor
  · rintro ⟨t, rfl, rfl⟩ b'
    constructor
    · rintro ⟨t', h1, h2⟩
      have := (hmem t').2 ⟨b', h1, h2⟩
      simp only [List.mem_singleton] at this
      subst this
      exact (hT.key_eq b' t' h1).symm
    · rintro rfl
      obtain ⟨k, h1, h2⟩ := (hmem t).1 (by simp)
      have := hT.key_eq k t h1
      refine ⟨t, ?_, ?_⟩
      · rw [show t.key = k from this]; exact h1
      · rw [show t.key = k from this]; exact h2
  · intro h
    obtain ⟨t, h1, h2⟩ := (h b).2 rfl
    have hkey := hT.key_eq b t h1
    refine ⟨t, ?_, hkey⟩
    have hin : t ∈ l := (hmem t).2 ⟨b, h1, h2⟩
    have hall : ∀ t' ∈ l, t' = t := by
      intro t' ht'
      obtain ⟨k, h3, h4⟩ := (hmem t').1 ht'
      have : k = b := (h k).1 ⟨t', h3, h4⟩
      subst this
      have e1 := hT.get.2 h3
      rw [hT.get.2 h1] at e1
      exact (Option.some.inj e1).symm
    match l, hin, hall, hnd with
    | [x], _, hall, _ => rw [hall x (by simp)]
    | x :: y :: l, _, hall, hnd =>
      exfalso
      have e1 := hall x (by simp)
      have e2 := hall y (by simp)
      subst e1; subst e2
      simp at hnd

theorem mem_inferredFks {T : Tables} (hT : TablesOK T) {e : Bool} {a : Key} {t : TableMeta}
    (ht : (a, t) ∈ T) {fk : ForeignKey} :
    fk ∈ inferredFks e (pkMapLoop e (T.map Prod.snd) []) t ↔
      fk ∉ t.foreignKeys ∧ ∃ b, Inferred T e a fk b := by
  have hkey : t.key = a := hT.key_eq a t ht
  have hsch : t.schema = a.1 := by rw [← hkey]; rfl
  unfold inferredFks
  simp only [List.mem_filterMap]
  constructor
  · rintro ⟨c, hc, h⟩
    cases h1 : dget (pkMapLoop e (T.map Prod.snd) []) (keyPk e t.schema [c]) with
    | none => rw [h1] at h; cases h
    | some o =>
      rw [h1] at h
      cases o with
      | none => cases h
      | some b =>
        simp only at h
        by_cases hif : b ≠ t.key ∧ (⟨[c], b.1, b.2, [c]⟩ : ForeignKey) ∉ t.foreignKeys
        · rw [if_pos hif] at h
          cases h
          rw [hsch] at h1
          exact ⟨hif.2, b, t, c, ht, hc, rfl, hkey ▸ hif.1, (pkMap_onlyPk hT).1 h1⟩
        · rw [if_neg hif] at h; cases h
  · rintro ⟨hn, b, t', c, ht', hc, rfl, hne, ho⟩
    have : t' = t := by
      have e1 := hT.get.2 ht'
      rw [hT.get.2 ht] at e1
      exact (Option.some.inj e1).symm
    subst this
    refine ⟨c, hc, ?_⟩
    rw [hsch, (pkMap_onlyPk hT).2 ho]
    simp only
    rw [if_pos ⟨hkey ▸ hne, hn⟩]

theorem inferred_dst {T : Tables} {e : Bool} {a b : Key} {fk : ForeignKey}
    (h : Inferred T e a fk b) : fk.dst = b := by
  obtain ⟨t, c, -, -, rfl, -⟩ := h; rfl

theorem hasFk_inferMissing {T : Tables} (hT : TablesOK T) {e : Bool} {a b : Key} {fk : ForeignKey} :
    HasFk (inferMissing e T) a fk b ↔ HasFk T a fk b ∨ Inferred T e a fk b := by
  have hT' := hT.of_sameBut (inferMissing_sameBut e T) (by
    intro k t' h fk hfk
    rw [inferMissing_get, Option.map_eq_some_iff] at h
    obtain ⟨t, h1, rfl⟩ := h
    rcases List.mem_append.1 hfk with h2 | h2
    · exact hT.fk_cols k t (hT.get.1 h1) fk h2
    · exact inferredFks_cols h2)
  constructor
  · rintro ⟨t', h1, h2, h3⟩
    have := hT'.get.2 h1
    rw [inferMissing_get, Option.map_eq_some_iff] at this
    obtain ⟨t, h4, rfl⟩ := this
    have h5 := hT.get.1 h4
    rcases List.mem_append.1 h2 with h2 | h2
    · exact .inl ⟨t, h5, h2, h3⟩
    · obtain ⟨-, b', hb'⟩ := (mem_inferredFks hT h5).1 h2
      have : b' = b := by rw [← h3]; exact (inferred_dst hb').symm
      exact .inr (this ▸ hb')
  · have hget : ∀ {t}, (a, t) ∈ T → (a, addInferred e T t) ∈ inferMissing e T := by
      intro t h
      exact hT'.get.1 (by rw [inferMissing_get, hT.get.2 h]; rfl)
    rintro (⟨t, h1, h2, h3⟩ | h)
    · exact ⟨_, hget h1, List.mem_append.2 (.inl h2), h3⟩
    · have hd := inferred_dst h
      obtain ⟨t, c, h1, -⟩ := id h
      refine ⟨_, hget h1, ?_, hd⟩
      by_cases hin : fk ∈ t.foreignKeys
      · exact List.mem_append.2 (.inl hin)
      · exact List.mem_append.2 (.inr ((mem_inferredFks hT h1).2 ⟨hin, b, h⟩))

theorem extraKey_some {T : Tables} (hT : TablesOK T) {k : Key} {x : ExtraFk} {fk : ForeignKey} :
    extraKey T k x = some fk ↔ ∃ b, parseTableName x.srcTable = some k ∧
      parseTableName x.dstTable = some b ∧ (∃ t, (k, t) ∈ T ∧ ∀ c ∈ x.srcColumns, c ∈ t.columns) ∧
      (∃ t, (b, t) ∈ T ∧ ∀ c ∈ x.dstColumns, c ∈ t.columns) ∧
      fk = ⟨x.srcColumns, b.1, b.2, x.dstColumns⟩ := by
  constructor
  · intro h
    unfold extraKey at h
    split at h
    · rename_i src dst h1 h2
      split at h
      · rename_i t d h3 h4
        split at h
        · rename_i h5
          obtain ⟨rfl, h5, h6⟩ := h5
          cases h
          exact ⟨dst, h1, h2, ⟨t, hT.get.1 h3, h5⟩, ⟨d, hT.get.1 h4, h6⟩, rfl⟩
        · cases h
      · cases h
    · cases h
  · rintro ⟨b, h1, h2, ⟨t, h3, h4⟩, ⟨d, h5, h6⟩, rfl⟩
    unfold extraKey
    simp only [h1, h2, hT.get.2 h3, hT.get.2 h5]
    rw [if_pos ⟨trivial, h4, h6⟩]

/-- The keys after `rewriteFks`. -/
theorem rewriteFks_used {cfg : PlannerConfig} {T T' : Tables} (hT : TablesOK T)
    (hx : ∀ x ∈ cfg.extraFks, x.Valid) (h : rewriteFks cfg T = .ok T') (a : Key) (fk : ForeignKey)
    (b : Key) : HasFk T' a fk b ↔ UsedFk cfg T a fk b := by
  have hT' := (rewriteFks_ok hT hx h).1
  unfold rewriteFks at h
  set T0 := (match cfg.infer with
        | .none => T
        | .schema => inferMissing false T
        | .all => inferMissing true T) with hT0
  have hinf : ∀ e, TablesOK (inferMissing e T) := fun e =>
    hT.of_sameBut (inferMissing_sameBut e T) (by
      intro k t' h fk hfk
      rw [inferMissing_get, Option.map_eq_some_iff] at h
      obtain ⟨t, h1, rfl⟩ := h
      rcases List.mem_append.1 hfk with h2 | h2
      · exact hT.fk_cols k t (hT.get.1 h1) fk h2
      · exact inferredFks_cols h2)
  have h0 : SameBut T T0 ∧ TablesOK T0 ∧ ∀ a fk b, HasFk T0 a fk b ↔
      HasFk T a fk b ∨ ∃ e, InferMode.everywhere cfg.infer = some e ∧ Inferred T e a fk b := by
    rw [hT0]
    cases cfg.infer with
    | none => exact ⟨SameBut.refl T, hT, fun a fk b => by simp [InferMode.everywhere]⟩
    | schema =>
      refine ⟨inferMissing_sameBut _ T, hinf false, fun a fk b => ?_⟩
      rw [hasFk_inferMissing hT]; simp [InferMode.everywhere]
    | all =>
      refine ⟨inferMissing_sameBut _ T, hinf true, fun a fk b => ?_⟩
      rw [hasFk_inferMissing hT]; simp [InferMode.everywhere]
  change (match removeIgnoreFks cfg.ignoreFks T0 with
    | .error e => (Except.error e : Except PlanErr Tables)
    | .ok T' => addExtraFks cfg.extraFks T') = .ok T' at h
  cases h1 : removeIgnoreFks cfg.ignoreFks T0 with
  | error e => rw [h1] at h; cases h
  | ok T1 =>
    rw [h1] at h
    obtain ⟨h2, -, h3⟩ := removeIgnoreFks_spec h1
    obtain ⟨h4, h5⟩ := addExtraFks_spec h
    have hT1 : TablesOK T1 := h0.2.1.of_sameBut h2 (by
      intro k t' ht fk hfk
      obtain ⟨t0, h8, h9⟩ := h3 k t' ht
      rw [h9] at hfk
      exact h0.2.1.fk_cols k t0 (h0.2.1.get.1 h8) fk (List.mem_filter.1 hfk).1)
    have hex : ∀ k x, extraKey T1 k x = extraKey T k x := fun k x =>
      extraKey_congr (h0.1.trans h2) k x
    unfold UsedFk
    rw [← h0.2.2]
    constructor
    · rintro ⟨t', h6, h7, h8⟩
      obtain ⟨t1, h9, h10⟩ := h5 a t' (hT'.get.2 h6)
      obtain ⟨t0, h11, h12⟩ := h3 a t1 h9
      rw [h10] at h7
      rcases List.mem_append.1 h7 with h7 | h7
      · left
        rw [h12] at h7
        obtain ⟨h13, h14⟩ := List.mem_filter.1 h7
        simp only [decide_eq_true_eq] at h14
        refine ⟨⟨t0, h0.2.1.get.1 h11, h13, h8⟩, ?_⟩
        rintro ⟨x, hx1, hx2, hx3⟩
        exact h14 x hx1 ⟨hx2, by rw [hx3, ← h8]; rfl⟩
      · right
        obtain ⟨x, hx1, hx2⟩ := List.mem_filterMap.1 h7
        rw [hex] at hx2
        obtain ⟨b', e1, e2, e3, e4, rfl⟩ := (extraKey_some hT).1 hx2
        have : b' = b := h8
        subst this
        exact ⟨x, hx1, e1, e2, e3, e4, rfl⟩
    · have hget : ∀ {t0}, (a, t0) ∈ T0 → ∃ t1 t', dget T1 a = some t1 ∧ dget T' a = some t' := by
        intro t0 h6
        have k1 : a ∈ T1.map Prod.fst := by
          rw [h2.keys]; exact List.mem_map_of_mem (f := Prod.fst) h6
        have k2 : a ∈ T'.map Prod.fst := by rw [h4.keys]; exact k1
        obtain ⟨t1, e1⟩ := Option.isSome_iff_exists.1 (dget_isSome_iff.2 k1)
        obtain ⟨t', e2⟩ := Option.isSome_iff_exists.1 (dget_isSome_iff.2 k2)
        exact ⟨t1, t', e1, e2⟩
      rintro (⟨⟨t0, h6, h7, h8⟩, h9⟩ | ⟨x, hx1, e1, e2, e3, e4, rfl⟩)
      · obtain ⟨t1, t', e1, e2⟩ := hget h6
        obtain ⟨t1', k1, k2⟩ := h5 a t' e2
        rw [e1] at k1; cases k1
        obtain ⟨t0', k3, k4⟩ := h3 a t1 e1
        rw [h0.2.1.get.2 h6] at k3; cases k3
        refine ⟨t', hT'.get.1 e2, ?_, h8⟩
        rw [k2, k4]
        refine List.mem_append.2 (.inl (List.mem_filter.2 ⟨h7, ?_⟩))
        simp only [decide_eq_true_eq]
        rintro x hx1 ⟨hx2, hx3⟩
        exact h9 ⟨x, hx1, hx2, by rw [hx3, ← h8]; rfl⟩
      · have e3' := e3
        obtain ⟨t, e5, e6⟩ := e3
        have k0 : a ∈ T0.map Prod.fst := by
          rw [h0.1.keys]; exact List.mem_map_of_mem (f := Prod.fst) e5
        obtain ⟨⟨a', t0⟩, k0', he⟩ := List.mem_map.1 k0
        have he : a' = a := he
        subst he
        obtain ⟨t1, t', k1, k2⟩ := hget k0'
        obtain ⟨t1', k3, k4⟩ := h5 _ t' k2
        refine ⟨t', hT'.get.1 k2, ?_, rfl⟩
        rw [k4]
        refine List.mem_append.2 (.inr (List.mem_filterMap.2 ⟨x, hx1, ?_⟩))
        rw [hex]
        exact (extraKey_some hT).2 ⟨b, e1, e2, e3', e4, rfl⟩

/-- `rewriteFks` fails only on names that are not of the form `schema.table`. -/
theorem rewriteFks_error {cfg : PlannerConfig} {T : Tables} {e : PlanErr}
    (h : rewriteFks cfg T = .error e) : e = .badName := by
  have hp : ∀ {s : Str} {e : PlanErr}, parseName s = .error e → e = .badName := by
    intro s e h
    unfold parseName at h
    cases h1 : parseTableName s with
    | none => rw [h1] at h; cases h; rfl
    | some k => rw [h1] at h; cases h
  have h1 : ∀ {xs : List (Str × Str)} {T : Tables} {e}, removeIgnoreFks xs T = .error e →
      e = .badName := by
    intro xs
    induction xs with
    | nil => intro T e h; cases h
    | cons x xs ih =>
      intro T e h
      rw [removeIgnoreFks] at h
      cases h1 : removeIgnoreFk T x with
      | ok T' => rw [h1] at h; exact ih h
      | error e' =>
        rw [h1] at h; cases h
        unfold removeIgnoreFk at h1
        cases h2 : parseName x.1 with
        | error e'' => rw [h2] at h1; cases h1; exact hp h2
        | ok src =>
          rw [h2] at h1
          cases h3 : parseName x.2 with
          | error e'' => rw [h3] at h1; cases h1; exact hp h3
          | ok dst =>
            rw [h3] at h1
            cases h4 : dget T src <;> simp [h4] at h1
  have h2 : ∀ {xs : List ExtraFk} {T : Tables} {e}, addExtraFks xs T = .error e →
      e = .badName := by
    intro xs
    induction xs with
    | nil => intro T e h; cases h
    | cons x xs ih =>
      intro T e h
      rw [addExtraFks] at h
      cases h1 : addExtraFk T x with
      | ok T' => rw [h1] at h; exact ih h
      | error e' =>
        rw [h1] at h; cases h
        unfold addExtraFk at h1
        cases h2 : parseName x.srcTable with
        | error e'' => rw [h2] at h1; cases h1; exact hp h2
        | ok src =>
          rw [h2] at h1
          cases h3 : parseName x.dstTable with
          | error e'' => rw [h3] at h1; cases h1; exact hp h3
          | ok dst =>
            rw [h3] at h1
            exfalso
            cases h4 : dget T src with
            | none => simp [h4] at h1
            | some t =>
              simp only [h4] at h1
              split at h1
              · cases h5 : dget T dst with
                | none => simp [h5] at h1
                | some d =>
                  simp only [h5] at h1
                  split at h1 <;> cases h1
              · cases h1
  have h4 : ∀ T0 : Tables, (match removeIgnoreFks cfg.ignoreFks T0 with
      | .error e => (Except.error e : Except PlanErr Tables)
      | .ok T' => addExtraFks cfg.extraFks T') = .error e → e = .badName := by
    intro T0 h
    cases h3 : removeIgnoreFks cfg.ignoreFks T0 with
    | error e' => rw [h3] at h; cases h; exact h1 h3
    | ok T1 => rw [h3] at h; exact h2 h
  exact h4 _ h

end Subsetter
