import Verif.Spec.Compact
import Verif.Proofs.Materialize
import Mathlib.Data.List.Perm.Subperm

/- Lemmas about identifier compaction. -/
namespace Subsetter
open Spec

/-! ### Identifiers -/

variable {le : List Val → List Val → Bool} {start : Int} {pk : List Str} {rows : List Row}

theorem sortedPositions_perm : (sortedPositions le pk rows).Perm (List.range rows.length) :=
  List.perm_insertionSort _ _

theorem compactIds_length : (compactIds le start pk rows).length = rows.length := by simp [compactIds]

theorem compactIds_get {i : Nat} (hi : i < rows.length) :
    (compactIds le start pk rows)[i]? = some (((sortedPositions le pk rows).idxOf i : Nat) + start) := by
  simp only [compactIds, List.getElem?_map, List.getElem?_range hi, Option.map_some, Option.some.injEq]
  omega

theorem mem_compactIds {x : Int} : x ∈ compactIds le start pk rows ↔
    ∃ i, i < rows.length ∧ x = ((sortedPositions le pk rows).idxOf i : Nat) + start := by
  simp only [compactIds, List.mem_map, List.mem_range]
  constructor
  · rintro ⟨i, h1, rfl⟩
    exact ⟨i, h1, by omega⟩
  · rintro ⟨i, h1, rfl⟩
    exact ⟨i, h1, by omega⟩

theorem compactIds_fills : FillsFrom start (compactIds le start pk rows) := by
  have hp := sortedPositions_perm (le := le) (pk := pk) (rows := rows)
  have hnd : (sortedPositions le pk rows).Nodup := hp.nodup_iff.2 List.nodup_range
  have hlen : (sortedPositions le pk rows).length = rows.length := by rw [hp.length_eq, List.length_range]
  have hmem : ∀ i, i ∈ sortedPositions le pk rows ↔ i < rows.length := fun i => by rw [hp.mem_iff, List.mem_range]
  refine ⟨?_, fun x => ?_⟩
  · unfold compactIds
    refine List.Nodup.map_on ?_ List.nodup_range
    intro i hi j hj h
    have h' : (sortedPositions le pk rows).idxOf i = (sortedPositions le pk rows).idxOf j := by omega
    exact (List.idxOf_inj ((hmem i).2 (List.mem_range.1 hi))).1 h'
  · rw [mem_compactIds, compactIds_length]
    constructor
    · rintro ⟨i, h1, rfl⟩
      have := List.idxOf_lt_length_iff.2 ((hmem i).2 h1)
      omega
    · rintro ⟨h1, h2⟩
      have hj : (x - start).toNat < (sortedPositions le pk rows).length := by omega
      refine ⟨(sortedPositions le pk rows)[(x - start).toNat], (hmem _).1 (List.getElem_mem _), ?_⟩
      rw [hnd.idxOf_getElem]
      omega

/-! ### Columns looked up -/

theorem isCompacted_iff {compact : Dict Key (List Str)} {k : Key} {c : Str} :
    c ∈ (dget compact k).getD [] ↔ IsCompacted compact k c := by
  unfold IsCompacted
  cases dget compact k <;> simp

/-- The entries of `remoteCols` come from foreign keys, and every pair makes an entry. -/
theorem remoteCols_aux (compact : Dict Key (List Str)) : ∀ (fks : List ForeignKey) (d0 : Dict Str (Key × Str)),
    (∀ c x, dget (fks.foldl (fun d fk => (fk.columns.zip fk.dstColumns).foldl (fun d e =>
        if e.2 ∈ (dget compact fk.dst).getD [] then dset d e.1 (fk.dst, e.2) else d) d) d0) c = some x →
      dget d0 c = some x ∨ ∃ fk ∈ fks, (c, x.2) ∈ fk.columns.zip fk.dstColumns ∧ fk.dst = x.1 ∧
        IsCompacted compact x.1 x.2) ∧
    (∀ c, ((dget d0 c).isSome ∨ ∃ fk ∈ fks, ∃ dc, (c, dc) ∈ fk.columns.zip fk.dstColumns ∧
        IsCompacted compact fk.dst dc) →
      (dget (fks.foldl (fun d fk => (fk.columns.zip fk.dstColumns).foldl (fun d e =>
        if e.2 ∈ (dget compact fk.dst).getD [] then dset d e.1 (fk.dst, e.2) else d) d) d0) c).isSome)
  | [], d0 => by
    refine ⟨fun c x h => .inl h, fun c h => ?_⟩
    rcases h with h | ⟨fk, h, -⟩
    · exact h
    · cases h
  | fk :: fks, d0 => by
    have inner : ∀ (es : List (Str × Str)) (d1 : Dict Str (Key × Str)),
        (∀ c x, dget (es.foldl (fun d e => if e.2 ∈ (dget compact fk.dst).getD [] then dset d e.1 (fk.dst, e.2) else d) d1) c = some x →
          dget d1 c = some x ∨ ((c, x.2) ∈ es ∧ fk.dst = x.1 ∧ IsCompacted compact x.1 x.2)) ∧
        (∀ c, ((dget d1 c).isSome ∨ ∃ dc, (c, dc) ∈ es ∧ IsCompacted compact fk.dst dc) →
          (dget (es.foldl (fun d e => if e.2 ∈ (dget compact fk.dst).getD [] then dset d e.1 (fk.dst, e.2) else d) d1) c).isSome) := by
      intro es
      induction es with
      | nil =>
        intro d1
        refine ⟨fun c x h => .inl h, fun c h => ?_⟩
        rcases h with h | ⟨dc, h, -⟩
        · exact h
        · cases h
      | cons e es ih =>
        intro d1
        obtain ⟨e1, e2⟩ := e
        rw [List.foldl_cons]
        by_cases he : e2 ∈ (dget compact fk.dst).getD []
        · rw [if_pos he]
          obtain ⟨h1, h2⟩ := ih (dset d1 e1 (fk.dst, e2))
          refine ⟨fun c x h => ?_, fun c h => h2 c ?_⟩
          · rcases h1 c x h with h | ⟨h3, h4⟩
            · rw [dget_dset] at h
              split at h
              · rename_i hc
                cases h
                subst hc
                exact .inr ⟨by simp, rfl, isCompacted_iff.1 he⟩
              · exact .inl h
            · exact .inr ⟨by simp [h3], h4⟩
          · rw [dget_dset]
            split
            · exact .inl rfl
            · rename_i hc
              rcases h with h | ⟨dc, h3, h4⟩
              · exact .inl h
              · rcases List.mem_cons.1 h3 with h3 | h3
                · cases h3; exact absurd rfl hc
                · exact .inr ⟨dc, h3, h4⟩
        · rw [if_neg he]
          obtain ⟨h1, h2⟩ := ih d1
          refine ⟨fun c x h => ?_, fun c h => h2 c ?_⟩
          · rcases h1 c x h with h | ⟨h3, h4⟩
            · exact .inl h
            · exact .inr ⟨by simp [h3], h4⟩
          · rcases h with h | ⟨dc, h3, h4⟩
            · exact .inl h
            · rcases List.mem_cons.1 h3 with h3 | h3
              · cases h3; exact absurd (isCompacted_iff.2 h4) he
              · exact .inr ⟨dc, h3, h4⟩
    rw [List.foldl_cons]
    obtain ⟨i1, i2⟩ := inner (fk.columns.zip fk.dstColumns) d0
    obtain ⟨h1, h2⟩ := remoteCols_aux compact fks ((fk.columns.zip fk.dstColumns).foldl (fun d e =>
        if e.2 ∈ (dget compact fk.dst).getD [] then dset d e.1 (fk.dst, e.2) else d) d0)
    refine ⟨fun c x h => ?_, fun c h => h2 c ?_⟩
    · rcases h1 c x h with h | ⟨fk', h3, h4⟩
      · rcases i1 c x h with h | h
        · exact .inl h
        · exact .inr ⟨fk, by simp, h⟩
      · exact .inr ⟨fk', by simp [h3], h4⟩
    · rcases h with h | ⟨fk', h3, dc, h4, h5⟩
      · exact .inl (i2 c (.inl h))
      · rcases List.mem_cons.1 h3 with rfl | h3
        · exact .inl (i2 c (.inr ⟨dc, h4, h5⟩))
        · exact .inr ⟨fk', h3, dc, h4, h5⟩

theorem remoteCols_some {T : Tables} {compact : Dict Key (List Str)} {k : Key} {t : TableMeta}
    (ht : dget T k = some t) {c : Str} {x : Key × Str} (h : dget (remoteCols compact t.foreignKeys) c = some x) :
    PointsTo T compact k c x.1 x.2 := by
  rcases (remoteCols_aux compact t.foreignKeys []).1 c x h with h | ⟨fk, h1, h2, h3, h4⟩
  · cases h
  · exact ⟨t, fk, ht, h1, h3, h2, h4⟩

theorem remoteCols_none {T : Tables} {compact : Dict Key (List Str)} {k : Key} {t : TableMeta}
    (ht : dget T k = some t) {c : Str} (h : dget (remoteCols compact t.foreignKeys) c = none) (d : Key) (dc : Str) :
    ¬ PointsTo T compact k c d dc := by
  rintro ⟨t', fk, h1, h2, rfl, h3, h4⟩
  rw [ht] at h1
  cases h1
  have := (remoteCols_aux compact t.foreignKeys []).2 c (.inr ⟨fk, h2, dc, h3, h4⟩)
  unfold remoteCols at h
  rw [h] at this
  cases this

/-- The targets of the entries of `remoteCols`. -/
theorem remoteCols_count (compact : Dict Key (List Str)) (x : Key) : ∀ (fks : List ForeignKey) (d0 : Dict Str (Key × Str)),
    ((fks.foldl (fun d fk => (fk.columns.zip fk.dstColumns).foldl (fun d e =>
        if e.2 ∈ (dget compact fk.dst).getD [] then dset d e.1 (fk.dst, e.2) else d) d) d0).map fun e => e.2.1).count x ≤
      (d0.map fun e => e.2.1).count x + (fks.map fun fk =>
        if fk.dst = x then ((fk.columns.zip fk.dstColumns).filter fun e =>
          decide (e.2 ∈ (dget compact fk.dst).getD [])).length else 0).sum
  | [], d0 => by simp
  | fk :: fks, d0 => by
    have one : ∀ (d : Dict Str (Key × Str)) (c : Str) (v : Key × Str),
        ((dset d c v).map fun e => e.2.1).count x ≤ (d.map fun e => e.2.1).count x + if v.1 = x then 1 else 0 := by
      intro d c v
      induction d with
      | nil => simp [dset, List.count_cons]
      | cons e d ih =>
        obtain ⟨a, b⟩ := e
        unfold dset
        split
        · simp only [List.map_cons, List.count_cons, beq_iff_eq]
          split <;> omega
        · simp only [List.map_cons, List.count_cons, beq_iff_eq]
          omega
    have inner : ∀ (es : List (Str × Str)) (d1 : Dict Str (Key × Str)),
        ((es.foldl (fun d e => if e.2 ∈ (dget compact fk.dst).getD [] then dset d e.1 (fk.dst, e.2) else d) d1).map
          fun e => e.2.1).count x ≤ (d1.map fun e => e.2.1).count x +
          if fk.dst = x then (es.filter fun e => decide (e.2 ∈ (dget compact fk.dst).getD [])).length else 0 := by
      intro es
      induction es with
      | nil => intro d1; simp
      | cons e es ih =>
        intro d1
        rw [List.foldl_cons]
        by_cases he : e.2 ∈ (dget compact fk.dst).getD []
        · rw [if_pos he]
          refine (ih _).trans ?_
          have h1 := one d1 e.1 (fk.dst, e.2)
          rw [List.filter_cons_of_pos (by simpa using he), List.length_cons]
          by_cases hx : fk.dst = x
          · simp only [hx, if_true] at h1 ⊢
            omega
          · simp only [hx, if_false] at h1 ⊢
            omega
        · rw [if_neg he, List.filter_cons_of_neg (by simpa using he)]
          exact ih d1
    rw [List.foldl_cons, List.map_cons, List.sum_cons]
    refine (remoteCols_count compact x fks _).trans ?_
    have := inner (fk.columns.zip fk.dstColumns) d0
    omega

theorem lookups_mem {compact : Dict Key (List Str)} {k : Key} {t : TableMeta} {c : Str} {x : Key × Str} :
    (c, x) ∈ lookups compact k t ↔ c ∈ t.columns ∧ ¬ IsCompacted compact k c ∧
      dget (remoteCols compact t.foreignKeys) c = some x := by
  simp only [lookups, List.mem_filterMap]
  constructor
  · rintro ⟨c', h1, h2⟩
    split at h2
    · cases h2
    · rename_i h3
      cases h4 : dget (remoteCols compact t.foreignKeys) c' with
      | none => rw [h4] at h2; cases h2
      | some y =>
        rw [h4] at h2
        cases h2
        exact ⟨h1, fun h => h3 (isCompacted_iff.2 h), h4⟩
  · rintro ⟨h1, h2, h3⟩
    refine ⟨c, h1, ?_⟩
    rw [if_neg (fun h => h2 (isCompacted_iff.1 h)), h3]
    rfl

theorem lookups_nodup {compact : Dict Key (List Str)} {k : Key} {t : TableMeta} (ht : t.columns.Nodup) :
    ((lookups compact k t).map Prod.fst).Nodup := by
  unfold lookups
  have : ∀ l : List Str, (l.filterMap fun c => if c ∈ (dget compact k).getD [] then none
      else (dget (remoteCols compact t.foreignKeys) c).map fun x => (c, x)).map Prod.fst =
      l.filter fun c => decide (c ∉ (dget compact k).getD []) && (dget (remoteCols compact t.foreignKeys) c).isSome := by
    intro l
    induction l with
    | nil => rfl
    | cons a l ih =>
      by_cases h : a ∈ (dget compact k).getD []
      · simp [List.filterMap_cons, h, ih]
      · cases h2 : dget (remoteCols compact t.foreignKeys) a with
        | none => simp [List.filterMap_cons, h, ih, h2]
        | some x => simp [List.filterMap_cons, h, ih, h2]
  rw [this]
  exact ht.filter _

/-- As many lookups in a table as foreign keys to compacted columns of it, at most. -/
theorem lookups_count {T : Tables} {compact : Dict Key (List Str)} {k : Key} {t : TableMeta} (ht : dget T k = some t)
    (hcols : t.columns.Nodup) (hone : OneLookupEach T compact k) (x : Key) :
    ((lookups compact k t).map fun e => e.2.1).count x ≤ (compactRefs compact t).count x := by
  have h1 : ((lookups compact k t).map fun e => e.2.1).count x ≤
      ((remoteCols compact t.foreignKeys).map fun e => e.2.1).count x := by
    have hsub : List.Subperm (lookups compact k t) (remoteCols compact t.foreignKeys) := by
      refine List.subperm_of_subset (List.Nodup.of_map _ (lookups_nodup hcols)) ?_
      rintro ⟨c, y⟩ he
      exact dget_some_mem (lookups_mem.1 he).2.2
    obtain ⟨l, h2, h3⟩ := hsub
    rw [← (h2.map fun e => e.2.1).count_eq]
    exact (h3.map fun e => e.2.1).count_le x
  have h2 := remoteCols_count compact x t.foreignKeys []
  refine (h1.trans h2).trans ?_
  rw [List.map_nil, List.count_nil, Nat.zero_add]
  unfold compactRefs
  have hone' := hone t ht
  generalize t.foreignKeys = fks at hone'
  induction fks with
  | nil => simp
  | cons fk fks ih =>
    have ih' := ih fun f hf => hone' f (by simp [hf])
    rw [List.map_cons, List.sum_cons]
    obtain ⟨g1, g2⟩ := hone' fk (by simp)
    have hle : ((fk.columns.zip fk.dstColumns).filter fun e => decide (e.2 ∈ (dget compact fk.dst).getD [])).length ≤ 1 := by
      have hnd : (fk.columns.zip fk.dstColumns).Nodup := by
        generalize fk.dstColumns = ds
        generalize fk.columns = cs at g1
        induction cs generalizing ds with
        | nil => simp
        | cons a cs ih2 =>
          rw [List.nodup_cons] at g1
          cases ds with
          | nil => simp
          | cons b ds =>
            rw [List.zip_cons_cons, List.nodup_cons]
            exact ⟨fun hm => g1.1 (List.of_mem_zip hm).1, ih2 ds g1.2⟩
      have hnd' := hnd.filter fun e => decide (e.2 ∈ (dget compact fk.dst).getD [])
      have hall : ∀ e ∈ (fk.columns.zip fk.dstColumns).filter fun e => decide (e.2 ∈ (dget compact fk.dst).getD []),
          ∀ e' ∈ (fk.columns.zip fk.dstColumns).filter fun e => decide (e.2 ∈ (dget compact fk.dst).getD []), e = e' := by
        intro e he e' he'
        rw [List.mem_filter, decide_eq_true_eq] at he he'
        exact g2 e he.1 e' he'.1 (isCompacted_iff.1 he.2) (isCompacted_iff.1 he'.2)
      generalize (fk.columns.zip fk.dstColumns).filter (fun e => decide (e.2 ∈ (dget compact fk.dst).getD [])) = l at hnd' hall
      match l, hnd', hall with
      | [], _, _ => simp
      | [_], _, _ => simp
      | a :: b :: l, hnd', hall =>
        have := hall a (by simp) b (by simp)
        subst this
        simp at hnd'
    by_cases hany : fk.dstColumns.any (fun c => decide (c ∈ (dget compact fk.dst).getD [])) = true
    · rw [List.filter_cons, if_pos hany, List.map_cons, List.count_cons]
      by_cases hx : fk.dst = x
      · simp only [hx, if_true, beq_self_eq_true] at hle ⊢
        omega
      · simp only [hx, if_false, beq_iff_eq]
        omega
    · rw [List.filter_cons, if_neg hany]
      have h0 : ((fk.columns.zip fk.dstColumns).filter fun e => decide (e.2 ∈ (dget compact fk.dst).getD [])) = [] := by
        rw [List.filter_eq_nil_iff]
        intro e he hc
        apply hany
        rw [List.any_eq_true]
        exact ⟨e.2, (List.of_mem_zip he).2, hc⟩
      rw [h0]
      simp only [List.length_nil, ite_self, Nat.zero_add]
      exact ih'

/-! ### Looking up identifiers -/

theorem lookupIds_unique {l : List (Int × Row)} {dc : Str} (hu : UniqueIn (l.map Prod.snd) dc) (v : Val) :
    (l.filterMap (fun e => if v ≠ .null ∧ v = e.2.get dc then some (Val.int e.1) else none) = [] ∧
      ∀ j m, (j, m) ∈ l → ¬ (v ≠ .null ∧ v = m.get dc)) ∨
    ∃ j, l.filterMap (fun e => if v ≠ .null ∧ v = e.2.get dc then some (Val.int e.1) else none) = [.int j] := by
  induction l with
  | nil => exact .inl ⟨rfl, by simp⟩
  | cons e l ih =>
    obtain ⟨i, r⟩ := e
    unfold UniqueIn at hu
    rw [List.map_cons, List.pairwise_cons] at hu
    by_cases h : v ≠ .null ∧ v = r.get dc
    · right
      refine ⟨i, ?_⟩
      rw [List.filterMap_cons, if_pos h]
      simp only [List.cons.injEq, true_and]
      rw [List.filterMap_eq_nil_iff]
      intro e he
      rw [if_neg]
      rintro ⟨h1, h2⟩
      exact hu.1 e.2 (List.mem_map_of_mem he) (by rw [← h.2]; exact h1) (by rw [← h.2, h2])
    · rw [List.filterMap_cons, if_neg h]
      rcases ih hu.2 with ⟨h1, h2⟩ | h1
      · refine .inl ⟨h1, fun j m hm => ?_⟩
        rcases List.mem_cons.1 hm with hm | hm
        · cases hm; exact h
        · exact h2 j m hm
      · exact .inr h1

theorem lookupIds_one {idsOf : Key → List (Int × Row)} {x : Key × Str}
    (hu : UniqueIn ((idsOf x.1).map Prod.snd) x.2) (v : Val) :
    ∃ w, lookupIds idsOf x v = [w] ∧
      (∀ j m, (j, m) ∈ idsOf x.1 → v ≠ .null → v = m.get x.2 → w = .int j) ∧
      ((∀ j m, (j, m) ∈ idsOf x.1 → ¬ (v ≠ .null ∧ v = m.get x.2)) → w = .null) := by
  unfold lookupIds
  rcases lookupIds_unique hu v with ⟨h1, h2⟩ | ⟨j, h1⟩
  · simp only [h1, if_true]
    exact ⟨.null, rfl, fun j m hm g1 g2 => absurd ⟨g1, g2⟩ (h2 j m hm), fun _ => rfl⟩
  · simp only [h1, List.cons_ne_nil, if_false]
    refine ⟨.int j, rfl, fun j' m hm g1 g2 => ?_, fun h2 => ?_⟩
    · have : Val.int j' ∈ (idsOf x.1).filterMap (fun e => if v ≠ .null ∧ v = e.2.get x.2 then some (Val.int e.1) else none) := by
        rw [List.mem_filterMap]
        exact ⟨(j', m), hm, by rw [if_pos ⟨g1, g2⟩]⟩
      rw [h1, List.mem_singleton] at this
      exact this.symm
    · exfalso
      have : Val.int j ∈ (idsOf x.1).filterMap (fun e => if v ≠ .null ∧ v = e.2.get x.2 then some (Val.int e.1) else none) := by
        rw [h1]; simp
      rw [List.mem_filterMap] at this
      obtain ⟨⟨j', m⟩, g1, g2⟩ := this
      rw [if_neg (h2 j' m g1)] at g2
      cases g2

theorem lookupAll_one {idsOf : Key → List (Int × Row)} (r : Row) : ∀ {ls : List (Str × Key × Str)},
    (ls.map Prod.fst).Nodup → (∀ e ∈ ls, UniqueIn ((idsOf e.2.1).map Prod.snd) e.2.2) →
    ∃ d, lookupAll idsOf r ls = [d] ∧ (∀ c, c ∉ ls.map Prod.fst → dget d c = none) ∧
      ∀ c x, (c, x) ∈ ls → ∃ w, dget d c = some w ∧
        (∀ j m, (j, m) ∈ idsOf x.1 → r.get c ≠ .null → r.get c = m.get x.2 → w = .int j) ∧
        ((∀ j m, (j, m) ∈ idsOf x.1 → ¬ (r.get c ≠ .null ∧ r.get c = m.get x.2)) → w = .null)
  | [], _, _ => ⟨[], rfl, fun _ _ => rfl, by simp⟩
  | e :: ls, hnd, hu => by
    obtain ⟨c0, x0⟩ := e
    rw [List.map_cons, List.nodup_cons] at hnd
    obtain ⟨d, h1, h2, h3⟩ := lookupAll_one r hnd.2 fun e he => hu e (by simp [he])
    obtain ⟨w, h4, h5⟩ := lookupIds_one (hu (c0, x0) (by simp)) (r.get c0)
    refine ⟨(c0, w) :: d, ?_, fun c hc => ?_, fun c x hx => ?_⟩
    · unfold lookupAll
      rw [h1]
      dsimp only at h4 ⊢
      rw [h4]
      rfl
    · rw [List.map_cons, List.mem_cons, not_or] at hc
      simp only [dget, if_neg (Ne.symm hc.1)]
      exact h2 c hc.2
    · rcases List.mem_cons.1 hx with hx | hx
      · cases hx
        exact ⟨w, by simp [dget], h5⟩
      · have hne : c0 ≠ c := by
          rintro rfl
          exact hnd.1 (List.mem_map.2 ⟨_, hx, rfl⟩)
        obtain ⟨w', h6, h7⟩ := h3 c x hx
        exact ⟨w', by simp only [dget, if_neg hne]; exact h6, h7⟩

theorem compactRow_get {loc cols : List Str} {r : Row} {id : Int} {d : Dict Str Val} {c : Str} (hc : c ∈ cols) :
    (compactRow loc cols r id d).get c = if c ∈ loc then .int id else (dget d c).getD (r.get c) := by
  unfold compactRow Row.get
  induction cols with
  | nil => cases hc
  | cons a cols ih =>
    by_cases h : a = c
    · subst h
      simp only [List.map_cons, dget, if_true, Option.getD_some]
      split
      · rfl
      · cases dget d a <;> rfl
    · simp only [List.map_cons, dget, if_neg h]
      exact ih (by rcases List.mem_cons.1 hc with e | e; exact absurd e.symm h; exact e)

/-- What is copied for a table. -/
theorem copyRows_value {E : Engine} {T : Tables} {compact : Dict Key (List Str)} {src : Key → List Row}
    {reopen : Bool} {temps : Temps} {k : Key} {q : TableQuery} {t : TableMeta} (ht : dget T k = some t)
    (hcols : t.columns.Nodup) {S : Key → List Row}
    (hrun : sampleRows E T src reopen temps k q = .ok (S k))
    (htemps : ∀ x ∈ lookups compact k t, dget temps (x.2.1, 0) = some (S x.2.1))
    (hu : ∀ c d dc, PointsTo T compact k c d dc → ¬ IsCompacted compact k c → UniqueIn (S d) dc)
    {outs : List Row} (hout : copyRows E T le start compact src reopen temps k q = .ok outs) :
      List.Forall₂ (fun e out => CompactedRow T compact S
          (fun d => compactIds le start (((dget T d).map TableMeta.primaryKey).getD []) (S d)) k t.columns e.2 e.1 out)
        ((compactIds le start t.primaryKey (S k)).zip (S k)) outs := by
  unfold copyRows at hout
  rw [hrun] at hout; dsimp only at hout
  rw [ht] at hout; dsimp only at hout
  have hids : ∀ d, dget temps (d, 0) = some (S d) → tempIds T le start temps d =
      (compactIds le start (((dget T d).map TableMeta.primaryKey).getD []) (S d)).zip (S d) := by
    intro d hd
    unfold tempIds
    simp only [hd, Option.getD_some]
  split at hout
  · rename_i h
    cases hout
    have hno : ∀ c, ¬ IsCompacted compact k c := fun c hc => by
      have := isCompacted_iff.2 hc
      rw [h.2] at this
      cases this
    have hnp : ∀ c d dc, ¬ PointsTo T compact k c d dc := fun c d dc =>
      remoteCols_none ht (by rw [h.1]; rfl) d dc
    have : ∀ (ids : List Int) (rows : List Row), ids.length = rows.length → List.Forall₂ (fun e out =>
        CompactedRow T compact S (fun d => compactIds le start (((dget T d).map TableMeta.primaryKey).getD []) (S d))
          k t.columns e.2 e.1 out) (ids.zip rows) rows := by
      intro ids
      induction ids with
      | nil => intro rows h; cases rows with | nil => exact .nil | cons _ _ => cases h
      | cons i ids ih =>
        intro rows h
        cases rows with
        | nil => cases h
        | cons r rows =>
          refine .cons ⟨.inl rfl, fun c _ hc => absurd hc (hno c), fun c _ _ d dc hp => absurd hp (hnp c d dc),
            fun c _ _ d dc hp => absurd hp (hnp c d dc), fun _ _ _ _ => rfl⟩ (ih rows (by simpa using h))
    exact this _ _ compactIds_length
  · split at hout
    · cases hout
    cases hout
    have hone : ∀ (es : List (Int × Row)), List.Forall₂ (fun e out =>
        CompactedRow T compact S (fun d => compactIds le start (((dget T d).map TableMeta.primaryKey).getD []) (S d))
          k t.columns e.2 e.1 out) es (es.flatMap fun e =>
            (lookupAll (tempIds T le start temps) e.2 (lookups compact k t)).map
              (compactRow ((dget compact k).getD []) t.columns e.2 e.1)) := by
      intro es
      induction es with
      | nil => exact .nil
      | cons e es ih =>
        have hlook : ∀ c x, (c, x) ∈ lookups compact k t → PointsTo T compact k c x.1 x.2 ∧ ¬ IsCompacted compact k c ∧
            tempIds T le start temps x.1 =
              (compactIds le start (((dget T x.1).map TableMeta.primaryKey).getD []) (S x.1)).zip (S x.1) := by
          intro c x hx
          obtain ⟨g1, g2, g3⟩ := lookups_mem.1 hx
          have hp := remoteCols_some ht g3
          exact ⟨hp, g2, hids _ (htemps _ hx)⟩
        obtain ⟨d, h1, h2, h3⟩ := lookupAll_one (idsOf := tempIds T le start temps) e.2 (lookups_nodup (compact := compact) (k := k) hcols)
          (by
            rintro ⟨c, x⟩ hx
            obtain ⟨g1, g2, g3⟩ := hlook c x hx
            dsimp only
            rw [g3, List.map_snd_zip (le_of_eq compactIds_length.symm)]
            exact hu c x.1 x.2 g1 g2)
        rw [List.flatMap_cons, h1, List.map_cons, List.map_nil, List.singleton_append]
        refine .cons ⟨.inr ?_, ?_, ?_, ?_, ?_⟩ ih
        · simp [compactRow, dkeys, Function.comp_def]
        · intro c hc hcc
          rw [compactRow_get hc, if_pos (isCompacted_iff.2 hcc)]
        · intro c hc hcc dd dc hp honly j m hm g1 g2
          rw [compactRow_get hc, if_neg (fun h => hcc (isCompacted_iff.1 h))]
          cases hr : dget (remoteCols compact t.foreignKeys) c with
          | none => exact absurd hp (remoteCols_none ht hr dd dc)
          | some x =>
            obtain ⟨e1, e2⟩ := honly _ _ (remoteCols_some ht hr)
            obtain ⟨x1, x2⟩ := x
            dsimp only at e1 e2
            subst e1 e2
            obtain ⟨w, g3, g4, -⟩ := h3 c _ (lookups_mem.2 ⟨hc, hcc, hr⟩)
            rw [g3]
            refine g4 j m ?_ g1 g2
            rw [(hlook c _ (lookups_mem.2 ⟨hc, hcc, hr⟩)).2.2]
            exact hm
        · intro c hc hcc dd dc hp honly hno
          rw [compactRow_get hc, if_neg (fun h => hcc (isCompacted_iff.1 h))]
          cases hr : dget (remoteCols compact t.foreignKeys) c with
          | none => exact absurd hp (remoteCols_none ht hr dd dc)
          | some x =>
            obtain ⟨e1, e2⟩ := honly _ _ (remoteCols_some ht hr)
            obtain ⟨x1, x2⟩ := x
            dsimp only at e1 e2
            subst e1 e2
            obtain ⟨w, g3, -, g4⟩ := h3 c _ (lookups_mem.2 ⟨hc, hcc, hr⟩)
            rw [g3]
            refine g4 fun j m hm => ?_
            rw [(hlook c _ (lookups_mem.2 ⟨hc, hcc, hr⟩)).2.2] at hm
            rcases hno m (List.of_mem_zip hm).2 with g5 | g5
            · exact fun g6 => g6.1 g5
            · exact fun g6 => g5 g6.2
        · intro c hc hcc hnp
          rw [compactRow_get hc, if_neg (fun h => hcc (isCompacted_iff.1 h)), h2]
          · rfl
          · intro hm
            obtain ⟨⟨c', x⟩, g1, rfl⟩ := List.mem_map.1 hm
            exact hnp _ _ (hlook _ _ g1).1
    exact hone _

theorem copyRows_ok {E : Engine} {T : Tables} {compact : Dict Key (List Str)} {src : Key → List Row}
    {reopen : Bool} {temps : Temps} {k : Key} {q : TableQuery} {t : TableMeta} (ht : dget T k = some t)
    (hcols : t.columns.Nodup) {S : Key → List Row}
    (hrun : sampleRows E T src reopen temps k q = .ok (S k))
    (hctx : ∃ l, buildContext T temps reopen [] (copyRefs compact temps k t q) = some l)
    (htemps : ∀ c d dc, PointsTo T compact k c d dc → ¬ IsCompacted compact k c → dget temps (d, 0) = some (S d))
    (hu : ∀ c d dc, PointsTo T compact k c d dc → ¬ IsCompacted compact k c → UniqueIn (S d) dc) :
    ∃ outs, copyRows E T le start compact src reopen temps k q = .ok outs ∧
      List.Forall₂ (fun e out => CompactedRow T compact S
          (fun d => compactIds le start (((dget T d).map TableMeta.primaryKey).getD []) (S d)) k t.columns e.2 e.1 out)
        ((compactIds le start t.primaryKey (S k)).zip (S k)) outs := by
  have hex : ∃ outs, copyRows E T le start compact src reopen temps k q = .ok outs := by
    unfold copyRows
    rw [hrun]; dsimp only
    rw [ht]; dsimp only
    split
    · exact ⟨_, rfl⟩
    · obtain ⟨l, hl⟩ := hctx
      rw [hl]
      exact ⟨_, rfl⟩
  obtain ⟨outs, h⟩ := hex
  refine ⟨outs, h, copyRows_value ht hcols hrun ?_ hu h⟩
  rintro ⟨c, x⟩ hx
  obtain ⟨g1, g2, g3⟩ := lookups_mem.1 hx
  exact htemps c _ _ (remoteCols_some ht g3) g2

theorem buildContext_zero {T : Tables} {temps : Temps} {reopen : Bool} : ∀ {ts : List TableId} {counts : Dict Key Nat}
    {l : List (Option (Key × Nat))}, buildContext T temps reopen counts ts = some l → ∀ t ∈ ts, t.sampled = true →
    (reopen = true ∨ dget counts t.key = none) → (dget temps (t.key, 0)).isSome
  | [], _, _, _, t, ht, _, _ => by cases ht
  | t0 :: ts, counts, l, h, t, ht, hs, hc => by
    unfold buildContext at h
    by_cases hs0 : t0.sampled = true
    · rw [if_pos hs0] at h
      dsimp only at h
      cases h1 : dget temps (t0.key, if reopen = true then 0 else (dget counts t0.key).getD 0) with
      | none => rw [h1] at h; cases h
      | some rows =>
        rw [h1] at h; dsimp only at h
        obtain ⟨l', h2, -⟩ := Option.map_eq_some_iff.1 h
        by_cases e : t0.key = t.key
        · have hz : (if reopen = true then 0 else (dget counts t0.key).getD 0) = 0 := by
            rcases hc with hc | hc
            · rw [if_pos hc]
            · rw [e, hc]; split <;> rfl
          rw [hz, e] at h1
          rw [h1]; rfl
        · rcases List.mem_cons.1 ht with rfl | ht
          · exact absurd rfl e
          · refine buildContext_zero h2 t ht hs ?_
            rcases hc with hc | hc
            · exact .inl hc
            · right
              split
              · exact hc
              · rw [dget_dset, if_neg e, hc]
    · rw [if_neg hs0] at h
      cases h1 : dget T t0.key with
      | none => rw [h1] at h; cases h
      | some r =>
        rw [h1] at h; dsimp only at h
        obtain ⟨l', h2, -⟩ := Option.map_eq_some_iff.1 h
        rcases List.mem_cons.1 ht with rfl | ht
        · exact absurd hs hs0
        · exact buildContext_zero h2 t ht hs hc

/-- If a table could be copied, the temporary tables for its lookups exist. -/
theorem copyRows_temps {E : Engine} {T : Tables} {compact : Dict Key (List Str)} {src : Key → List Row}
    {reopen : Bool} {temps : Temps} {k : Key} {q : TableQuery} {t : TableMeta} (ht : dget T k = some t)
    {outs : List Row} (hout : copyRows E T le start compact src reopen temps k q = .ok outs) :
    ∀ x ∈ lookups compact k t, (dget temps (x.2.1, 0)).isSome := by
  intro x hx
  unfold copyRows at hout
  split at hout
  · cases hout
  rw [ht] at hout; dsimp only at hout
  split at hout
  · rename_i h
    obtain ⟨c, y⟩ := x
    obtain ⟨g1, g2, g3⟩ := lookups_mem.1 hx
    rw [h.1] at g3
    cases g3
  · split at hout
    · cases hout
    · rename_i l hl
      refine buildContext_zero (t := ⟨x.2.1.1, x.2.1.2, true⟩) hl ?_ rfl (.inr rfl)
      unfold copyRefs
      exact List.mem_append_right _ (List.mem_map.2 ⟨x, hx, rfl⟩)

/-! ### References to temporary tables -/

/-- The state after materialisation. -/
theorem materialized {T : Tables} {p : Plan} (hp : PlanOK T p) (ha : Acyclic p) (E : Engine)
    (compact : Dict Key (List Str)) (src : Key → List Row) (reopen : Bool) :
    ∃ order temps, materializationOrder T compact p = .ok order ∧
      materialize E T src reopen p order [] = .ok temps ∧ MatInv E T src reopen p order temps ∧
      (∀ x, x ∈ order.map Prod.fst ↔ (∃ q, Planned p x q) ∧ Wanted T compact p x) ∧
      (∀ x n, (x, n) ∈ order → ∀ k q, Planned p k q → useCount T compact k q x ≤ n) ∧
      IsSample E T src p (sampleOf E T src p temps) ∧
      ∀ k q, Planned p k q → sampleRows E T src reopen temps k q = .ok (sampleOf E T src p temps k) := by
  rcases materializationOrder_spec hp compact with ⟨order, h1, h2, h3, h4, h5, h6⟩ | ⟨h1, h2⟩
  · obtain ⟨temps, h7, h8⟩ := materialize_spec (E := E) (src := src) (reopen := reopen) hp order [] []
      (matInv_nil E T src reopen p) (by simpa using h3)
      (fun k hk => ((h4 k).1 hk).1)
      (by intro l₁ k n l₂ hl d hd; simpa using h5 l₁ k n l₂ hl d hd)
      (by
        intro x n hx k q hq
        have := h6 x n (by simpa using hx) k q hq
        unfold useCount at this; omega)
    simp only [List.nil_append] at h8
    have hall : ∀ k q, Planned p k q → ∀ d, Uses q d → d ∈ order.map Prod.fst := by
      intro k q hq d hd
      exact (h4 d).2 ⟨hp.uses_planned k d ⟨q, hq, hd⟩, k, q, hq, Or.inl hd⟩
    have htemp : ∀ d, d ∈ order.map Prod.fst → (dget temps (d, 0)).isSome := by
      intro d hd
      obtain ⟨⟨d', n⟩, hm, rfl⟩ := List.mem_map.1 hd
      exact h8.copies _ n hm 0 (Or.inl rfl)
    have hev : ∀ k q, Planned p k q →
        q.eval E (sampleEnv T src (sampleOf E T src p temps)) = q.eval E (execEnv T src temps) :=
      fun k q hq => sampleEnv_eval q fun d hd => htemp d (hall k q hq d hd)
    have hS : ∀ k q, Planned p k q → sampleOf E T src p temps k = q.eval E (execEnv T src temps) := by
      intro k q hq
      unfold sampleOf
      cases hr : dget temps (k, 0) with
      | some rows =>
        obtain ⟨q', hq', h9, -⟩ := h8.rows k rows hr
        rw [Planned.unique hp hq hq']; exact h9
      | none => simp only [Planned.get hp hq]
    refine ⟨order, temps, h1, h7, h8, h4, h6, fun k q hq => by rw [hS k q hq, hev k q hq], ?_⟩
    intro k q hq
    unfold sampleRows
    cases hr : dget temps (k, 0) with
    | some rows => simp only [sampleOf, hr]
    | none =>
      simp only
      rw [runQuery_ok hp h8 hq (hall k q hq), hS k q hq]
      intro x n hx
      have := h6 x n hx k q hq
      unfold useCount at this; omega
  · exact absurd ha h2

theorem pointsTo_compactRefs {T : Tables} {compact : Dict Key (List Str)} {k : Key} {c : Str} {d : Key} {dc : Str}
    (h : PointsTo T compact k c d dc) : ∃ t, dget T k = some t ∧ d ∈ compactRefs compact t := by
  obtain ⟨t, fk, h1, h2, rfl, h3, h4⟩ := h
  refine ⟨t, h1, ?_⟩
  simp only [compactRefs, List.mem_map, List.mem_filter, List.any_eq_true, decide_eq_true_eq]
  exact ⟨fk, ⟨h2, dc, (List.of_mem_zip h3).2, isCompacted_iff.2 h4⟩, rfl⟩

/-- All references of the statement that copies a table resolve. -/
theorem copyRefs_resolve {T : Tables} {p : Plan} (hp : PlanOK T p) {E : Engine} {compact : Dict Key (List Str)}
    {src : Key → List Row} {reopen : Bool} {order : List (Key × Nat)} {temps : Temps}
    (hI : MatInv E T src reopen p order temps)
    (h4 : ∀ x, x ∈ order.map Prod.fst ↔ (∃ q, Planned p x q) ∧ Wanted T compact p x)
    (h6 : ∀ x n, (x, n) ∈ order → ∀ k q, Planned p k q → useCount T compact k q x ≤ n)
    {k : Key} (hpl : ∀ c d dc, PointsTo T compact k c d dc → ∃ q, Planned p d q)
    {q : TableQuery} (hq : Planned p k q) {t : TableMeta} (ht : dget T k = some t)
    (hcols : t.columns.Nodup) (hone : reopen = false → OneLookupEach T compact k) :
    ∃ l, buildContext T temps reopen [] (copyRefs compact temps k t q) = some l := by
  have hlook : ∀ c x, (c, x) ∈ lookups compact k t → x.1 ∈ order.map Prod.fst := by
    intro c x hx
    obtain ⟨g1, g2, g3⟩ := lookups_mem.1 hx
    have hpt := remoteCols_some ht g3
    exact (h4 _).2 ⟨hpl _ _ _ hpt, k, q, hq, .inr (pointsTo_compactRefs hpt)⟩
  have hmem : ∀ x ∈ copyRefs compact temps k t q, x.sampled = true → x.key ∈ order.map Prod.fst := by
    intro x hx hs
    unfold copyRefs at hx
    rcases List.mem_append.1 hx with hx | hx
    · have hx' : x ∈ q.refs := by
        split at hx
        · cases hx
        · exact hx
      exact (h4 _).2 ⟨hp.uses_planned k _ ⟨q, hq, x, hx', hs, rfl⟩, k, q, hq, .inl ⟨x, hx', hs, rfl⟩⟩
    · obtain ⟨⟨c, y⟩, g1, rfl⟩ := List.mem_map.1 hx
      exact hlook c y g1
  refine buildContext_ok T temps reopen _ [] ?_ ?_
  · intro x hx hs
    unfold copyRefs at hx
    rcases List.mem_append.1 hx with hx | hx
    · have hx' : x ∈ q.refs := by
        split at hx
        · cases hx
        · exact hx
      exact hp.refs_known k q hq x hx'
    · obtain ⟨y, g1, rfl⟩ := List.mem_map.1 hx
      cases hs
  · intro x hx hs i hi1 hi2
    obtain ⟨⟨x', n⟩, hn, hxn⟩ := List.mem_map.1 (hmem x hx hs)
    simp only at hxn
    subst hxn
    refine hI.copies _ n hn i ?_
    cases hre : reopen
    · refine Or.inr ⟨rfl, ?_⟩
      have h1 := (hi2 hre).2
      have h2 := h6 _ _ hn k q hq
      simp only [gd, dget_nil, Option.getD_none, Nat.zero_add] at h1
      have hle : (((copyRefs compact temps k t q).filter fun t => t.sampled).map TableId.key).count x.key ≤
          (sampledRefs q).count x.key + (compactRefs compact t).count x.key := by
        unfold copyRefs
        rw [List.filter_append, List.map_append, List.count_append]
        have e1 : (((if (dget temps (k, 0)).isSome then ([] : List TableId) else q.refs).filter fun t => t.sampled).map
            TableId.key).count x.key ≤ (sampledRefs q).count x.key := by
          split
          · simp
          · exact le_refl _
        have e2 : ((((lookups compact k t).map fun x => (⟨x.2.1.1, x.2.1.2, true⟩ : TableId)).filter fun t => t.sampled).map
            TableId.key) = (lookups compact k t).map fun e => e.2.1 := by
          rw [List.filter_eq_self.2, List.map_map]
          · rfl
          · intro a ha
            obtain ⟨y, -, rfl⟩ := List.mem_map.1 ha
            rfl
        rw [e2]
        have := lookups_count ht hcols (hone hre) x.key
        omega
      have h3 : useCount T compact k q x.key = (sampledRefs q).count x.key + (compactRefs compact t).count x.key := by
        simp [useCount, ht]
      omega
    · exact Or.inl (hi1 hre)

theorem copyCompacted_ok {E : Engine} {T : Tables} {compact : Dict Key (List Str)} {src : Key → List Row}
    {reopen : Bool} {p : Plan} {temps : Temps} {R : Key → List Row → Prop} (hp : PlanOK T p)
    (h : ∀ k q, Planned p k q → ∃ outs, copyRows E T le start compact src reopen temps k q = .ok outs ∧ R k outs) :
    ∀ ks : List Key, (∀ k ∈ ks, '.' ∉ k.1 ∧ ∃ q, Planned p k q) →
    ∃ res, copyCompacted E T le start compact src reopen p temps (ks.map Key.str) = .ok res ∧
      List.Forall₂ (fun k e => e.1 = k ∧ R k e.2) ks res
  | [], _ => ⟨[], rfl, .nil⟩
  | k :: ks, hk => by
    obtain ⟨h1, q, h2⟩ := hk k (by simp)
    obtain ⟨res, h3, h4⟩ := copyCompacted_ok hp h ks fun k' hk' => hk k' (by simp [hk'])
    obtain ⟨outs, h5, h6⟩ := h k q h2
    refine ⟨(k, outs) :: res, ?_, .cons ⟨rfl, h6⟩ h4⟩
    rw [List.map_cons]
    unfold copyCompacted
    rw [parse_of_nodot h1]; dsimp only
    rw [Planned.get hp h2]; dsimp only
    rw [h5]; dsimp only
    rw [h3]

end Subsetter
