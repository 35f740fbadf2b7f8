import Verif.Proofs.Compact
import Verif.Props.Exec
import Verif.Model.Planner

/-
Properties C24, C31 and C32: compaction of identifiers and copies of temporary tables.
-/
namespace Subsetter.Props
open Subsetter Spec

variable {le : List Val → List Val → Bool} {start : Int}

/-! ### C31 -/

/-- C31. The identifiers given to `N` rows are `start_key, …, start_key + N - 1`, each once. -/
theorem c31_ids_fill (le : List Val → List Val → Bool) (start : Int) (pk : List Str) (rows : List Row) :
    (compactIds le start pk rows).length = rows.length ∧ FillsFrom start (compactIds le start pk rows) :=
  ⟨compactIds_length, compactIds_fills⟩

/-- C31. They follow the order of the primary keys: of two rows the one with the smaller identifier does not
come after the other. -/
theorem c31_order (htrans : ∀ a b c, le a b = true → le b c = true → le a c = true)
    (htotal : ∀ a b, le a b = true ∨ le b a = true) {pk : List Str} {rows : List Row} {i j : Nat} {r s : Row}
    {x y : Int} (hi : rows[i]? = some r) (hj : rows[j]? = some s)
    (hx : (compactIds le start pk rows)[i]? = some x) (hy : (compactIds le start pk rows)[j]? = some y)
    (hxy : x ≤ y) : le (pk.map r.get) (pk.map s.get) = true := by
  have hi' := (List.getElem?_eq_some_iff.1 hi).1
  have hj' := (List.getElem?_eq_some_iff.1 hj).1
  rw [compactIds_get hi'] at hx
  rw [compactIds_get hj'] at hy
  cases hx
  cases hy
  have hle : (sortedPositions le pk rows).idxOf i ≤ (sortedPositions le pk rows).idxOf j := by omega
  have hmem : ∀ n, n < rows.length → n ∈ sortedPositions le pk rows := fun n hn =>
    (sortedPositions_perm.mem_iff).2 (List.mem_range.2 hn)
  have hs : (sortedPositions le pk rows).Pairwise fun i j =>
      le (keyAt pk rows i) (keyAt pk rows j) = true := by
    have : Std.Total (fun i j : Nat => le (keyAt pk rows i) (keyAt pk rows j) = true) :=
      ⟨fun a b => htotal _ _⟩
    have : IsTrans Nat (fun i j : Nat => le (keyAt pk rows i) (keyAt pk rows j) = true) :=
      ⟨fun a b c => htrans _ _ _⟩
    exact List.pairwise_insertionSort _ _
  rcases Nat.lt_or_eq_of_le hle with hlt | heq
  · have h1 := List.idxOf_lt_length_iff.2 (hmem i hi')
    have h2 := List.idxOf_lt_length_iff.2 (hmem j hj')
    have := (List.pairwise_iff_getElem.1 hs) _ _ h1 h2 hlt
    rw [List.getElem_idxOf, List.getElem_idxOf] at this
    unfold keyAt at this
    rw [hi, hj] at this
    exact this
  · have e : i = j := (List.idxOf_inj (hmem i hi')).1 heq
    subst e
    rw [hi] at hj
    cases hj
    rcases htotal (pk.map r.get) (pk.map r.get) with h | h <;> exact h

/-! ### C32 -/

/-- What compaction needs of the tables and the plan. -/
structure CompactOK (T : Tables) (compact : Dict Key (List Str)) (p : Plan) : Prop where
  plan : PlanOK T p
  acyclic : Acyclic p
  /-- compacted tables are planned -/
  planned : ∀ d c, IsCompacted compact d c → ∃ q, Planned p d q
  columns : ∀ k t, dget T k = some t → t.columns.Nodup

theorem CompactOK.pointed {T : Tables} {compact : Dict Key (List Str)} {p : Plan} (h : CompactOK T compact p) {k : Key}
    (c : Str) (d : Key) (dc : Str) (hp : PointsTo T compact k c d dc) : ∃ q, Planned p d q := by
  obtain ⟨-, -, -, -, -, -, g⟩ := hp
  exact h.planned d dc g

/-- Columns looked up have no value twice among the sampled rows. -/
def LookupsUnique (T : Tables) (compact : Dict Key (List Str)) (p : Plan) (S : Key → List Row) : Prop :=
  ∀ k q, Planned p k q → ∀ c d dc, PointsTo T compact k c d dc → ¬ IsCompacted compact k c → UniqueIn (S d) dc

/-- C31 and C32. Every run with compaction succeeds and writes the sample, with compacted columns replaced by
new identifiers, columns that refer to them by the identifier of the row they referred to, and everything else
as it was: one row for every sampled row. -/
theorem c32_run_partial {T : Tables} {compact : Dict Key (List Str)} {p : Plan} (h : CompactOK T compact p)
    (E : Engine) (src : Key → List Row) {reopen : Bool}
    (hone : reopen = false → ∀ k q, Planned p k q → OneLookupEach T compact k) :
    ∃ S ids, IsSample E T src p S ∧ (∀ k, (ids k).length = (S k).length ∧ FillsFrom start (ids k)) ∧
      (LookupsUnique T compact p S → ∀ ks : List Key, (∀ k ∈ ks, '.' ∉ k.1 ∧ ∃ q, Planned p k q) →
        ∃ res, execCompact E T le start compact src reopen p (ks.map Key.str) = .ok res ∧
          List.Forall₂ (fun k e => e.1 = k ∧ ∃ t, dget T k = some t ∧
            List.Forall₂ (fun x out => CompactedRow T compact S ids k t.columns x.2 x.1 out)
              ((ids k).zip (S k)) e.2) ks res) := by
  obtain ⟨order, temps, h1, h2, h3, h4, h5, h6, h7⟩ := materialized h.plan h.acyclic E compact src reopen
  refine ⟨sampleOf E T src p temps, fun k => compactIds le start (((dget T k).map TableMeta.primaryKey).getD [])
    (sampleOf E T src p temps k), h6, fun k => ⟨compactIds_length, compactIds_fills⟩, fun hu ks hks => ?_⟩
  have hrows : ∀ k q, Planned p k q → ∃ outs, copyRows E T le start compact src reopen temps k q = .ok outs ∧
      ∃ t, dget T k = some t ∧ List.Forall₂ (fun x out => CompactedRow T compact (sampleOf E T src p temps)
        (fun k => compactIds le start (((dget T k).map TableMeta.primaryKey).getD []) (sampleOf E T src p temps k)) k
          t.columns x.2 x.1 out)
        ((compactIds le start (((dget T k).map TableMeta.primaryKey).getD []) (sampleOf E T src p temps k)).zip
          (sampleOf E T src p temps k)) outs := by
    intro k q hq
    have hT : (dget T k).isSome := by
      obtain ⟨nm, g1, g2⟩ := hq
      obtain ⟨k', g3, g4⟩ := h.plan.known nm q g1
      rw [g2] at g3; cases g3; exact g4
    obtain ⟨t, ht⟩ := Option.isSome_iff_exists.1 hT
    have hctx := copyRefs_resolve h.plan h3 h4 h5 h.pointed hq ht (h.columns k t ht) fun e => hone e k q hq
    obtain ⟨outs, g1, g2⟩ := copyRows_ok (le := le) (start := start) ht (h.columns k t ht) (h7 k q hq) hctx (by
        intro c d dc hp _
        have hd : d ∈ order.map Prod.fst := by
          obtain ⟨-, -, -, -, -, -, g4⟩ := id hp
          exact (h4 d).2 ⟨h.planned d dc g4, k, q, hq, .inr (pointsTo_compactRefs hp)⟩
        obtain ⟨⟨d', n⟩, hn, rfl⟩ := List.mem_map.1 hd
        obtain ⟨rows, hr⟩ := Option.isSome_iff_exists.1 (h3.copies _ n hn 0 (.inl rfl))
        dsimp only at hr ⊢
        rw [hr]
        simp only [sampleOf, hr]) (hu k q hq)
    refine ⟨outs, g1, t, ht, ?_⟩
    have e : ((dget T k).map TableMeta.primaryKey).getD [] = t.primaryKey := by rw [ht]; rfl
    rw [e]
    exact g2
  obtain ⟨res, g1, g2⟩ := copyCompacted_ok h.plan hrows ks hks
  refine ⟨res, ?_, g2⟩
  unfold execCompact
  rw [h1]; dsimp only
  rw [h2]; dsimp only
  exact g1

/-- C31. The values written to a compacted column are the identifiers. -/
theorem c31_written {T : Tables} {compact : Dict Key (List Str)} {S : Key → List Row} {ids : Key → List Int}
    {k : Key} {columns : List Str} {outs : List Row} (hlen : (ids k).length = (S k).length)
    (h : List.Forall₂ (fun x out => CompactedRow T compact S ids k columns x.2 x.1 out) ((ids k).zip (S k)) outs)
    {c : Str} (hc : c ∈ columns) (hcc : IsCompacted compact k c) :
    outs.map (fun o => o.get c) = (ids k).map Val.int := by
  have : ∀ (es : List (Int × Row)) (outs : List Row),
      List.Forall₂ (fun x out => CompactedRow T compact S ids k columns x.2 x.1 out) es outs →
      outs.map (fun o => o.get c) = (es.map Prod.fst).map Val.int := by
    intro es
    induction es with
    | nil => intro outs h; cases h; rfl
    | cons e es ih =>
      intro outs h
      cases h with
      | cons h1 h2 => rw [List.map_cons, List.map_cons, List.map_cons, ih _ h2, h1.own c hc hcc]
  rw [this _ _ h, List.map_fst_zip (le_of_eq hlen)]

theorem zip_fst_inj {α β : Type} : ∀ {l : List α} {l' : List β} {a : α} {b b' : β}, l.Nodup → (a, b) ∈ l.zip l' →
    (a, b') ∈ l.zip l' → b = b'
  | [], _, _, _, _, _, h, _ => by simp at h
  | _ :: _, [], _, _, _, _, h, _ => by simp at h
  | x :: l, y :: l', a, b, b', hnd, h, h' => by
    rw [List.nodup_cons] at hnd
    rw [List.zip_cons_cons, List.mem_cons] at h h'
    rcases h with h | h <;> rcases h' with h' | h'
    · cases h; cases h'; rfl
    · cases h; exact absurd (List.of_mem_zip h').1 hnd.1
    · cases h'; exact absurd (List.of_mem_zip h).1 hnd.1
    · exact zip_fst_inj hnd.2 h h'

theorem zip_snd_mem {α β : Type} : ∀ {l : List α} {l' : List β} {b : β}, l.length = l'.length → b ∈ l' →
    ∃ a, (a, b) ∈ l.zip l'
  | [], [], _, _, h => by cases h
  | [], _ :: _, _, h, _ => by cases h
  | _ :: _, [], _, h, _ => by cases h
  | x :: l, y :: l', b, hl, h => by
    rcases List.mem_cons.1 h with rfl | h
    · exact ⟨x, by simp⟩
    · obtain ⟨a, ha⟩ := zip_snd_mem (by simpa using hl) h
      exact ⟨a, by simp [ha]⟩

/-- C32. After compaction a row refers to exactly the rows it referred to before. -/
theorem c32_reference_kept_partial {T : Tables} {compact : Dict Key (List Str)} {S : Key → List Row}
    {ids : Key → List Int} {k d : Key} {cols dcols : List Str} {ccols pcols : List Str}
    (hids : (ids d).Nodup) (hlen : (ids d).length = (S d).length) (hsafe : ∀ e ∈ ccols.zip pcols, e.1 ∈ cols ∧ e.2 ∈ dcols ∧ PairSafe T compact k d e)
    {r m out out' : Row} {i j : Int} (hr : CompactedRow T compact S ids k cols r i out)
    (hjm : (j, m) ∈ (ids d).zip (S d)) (hm : CompactedRow T compact S ids d dcols m j out') :
    Refers ccols pcols out out' ↔ Refers ccols pcols r m := by
  unfold Refers
  refine forall_congr' fun e => forall_congr' fun he => ?_
  obtain ⟨h1, h2, h3, h4⟩ := hsafe e he
  rcases h4 with ⟨h5, h6, h7⟩ | ⟨h5, h6, h7⟩
  · have hm' := hm.own e.2 h2 h5
    rw [hm']
    constructor
    · rintro ⟨g1, g2⟩
      by_cases hex : ∃ m' ∈ S d, r.get e.1 ≠ .null ∧ r.get e.1 = m'.get e.2
      · obtain ⟨m', g3, g4, g5⟩ := hex
        obtain ⟨j', hj'⟩ := zip_snd_mem hlen g3
        rw [hr.found e.1 h1 h3 d e.2 h6 h7 j' m' hj' g4 g5] at g2
        cases g2
        rw [zip_fst_inj hids hj' hjm] at g5
        exact ⟨g4, g5⟩
      · refine absurd (hr.lost e.1 h1 h3 d e.2 h6 h7 fun m' hm' => ?_) g1
        by_contra hno
        push Not at hno
        exact hex ⟨m', hm', hno⟩
    · rintro ⟨g1, g2⟩
      rw [hr.found e.1 h1 h3 d e.2 h6 h7 j m hjm g1 g2]
      simp
  · rw [hr.kept e.1 h1 h3 h7, hm.kept e.2 h2 h5 h6]

/-! ### C24 -/

/-- The copies returned are of tables asked for. -/
theorem buildContext_keys (T : Tables) (temps : Temps) (reopen : Bool) : ∀ (ts : List TableId) (counts : Dict Key Nat)
    (l : List (Option (Key × Nat))), buildContext T temps reopen counts ts = some l →
    ∀ k i, (k, i) ∈ l.filterMap id → ∃ x ∈ ts, x.sampled = true ∧ x.key = k := by
  intro ts
  induction ts with
  | nil => intro counts l h; cases h; simp
  | cons t ts ih =>
    intro counts l h k i hm
    unfold buildContext at h
    split at h
    · rename_i hs
      dsimp only at h
      split at h
      · cases h
      · rw [Option.map_eq_some_iff] at h
        obtain ⟨l', h1, rfl⟩ := h
        simp only [List.filterMap_cons, id, List.mem_cons] at hm
        rcases hm with hm | hm
        · cases hm
          exact ⟨t, by simp, hs, rfl⟩
        · obtain ⟨x, g1, g2⟩ := ih _ _ h1 k i hm
          exact ⟨x, by simp [g1], g2⟩
    · split at h
      · cases h
      · rw [Option.map_eq_some_iff] at h
        obtain ⟨l', h1, rfl⟩ := h
        simp only [List.filterMap_cons, id] at hm
        obtain ⟨x, g1, g2⟩ := ih _ _ h1 k i hm
        exact ⟨x, by simp [g1], g2⟩

/-- C24. On a database that cannot reopen temporary tables, a statement never uses a copy twice through its
references, and every copy it uses exists. -/
theorem c24_no_copy_twice (T : Tables) (temps : Temps) (refs : List TableId) {l : List (Option (Key × Nat))}
    (h : buildContext T temps false [] refs = some l) :
    (l.filterMap id).Nodup ∧ ∀ x ∈ l.filterMap id, (dget temps x).isSome :=
  ⟨(buildContext_nodup T temps refs [] l h).1, fun x hx => (buildContext_nodup T temps refs [] l h).2.2 x.1 x.2 hx⟩

/-- C24. If no foreign key involves two compacted columns, all references resolve: materialisation succeeds, and
so does every statement that copies a table.  Unless a table refers to a compacted column of its own, no copy is
used twice in such a statement, counting the one the rows themselves are read from. -/
theorem c24_references_resolve_partial {T : Tables} {compact : Dict Key (List Str)} {p : Plan}
    (h : CompactOK T compact p) (hone : ∀ k q, Planned p k q → OneLookupEach T compact k)
    (E : Engine) (src : Key → List Row) :
    ∃ order temps, materializationOrder T compact p = .ok order ∧
      materialize E T src false p order [] = .ok temps ∧
      ∀ k q t, Planned p k q → dget T k = some t →
        ∃ l, buildContext T temps false [] (copyRefs compact temps k t q) = some l ∧
          ((∀ c dc, ¬ PointsTo T compact k c k dc) →
            ((if (dget temps (k, 0)).isSome then [(k, 0)] else []) ++ l.filterMap id).Nodup) := by
  obtain ⟨order, temps, h1, h2, h3, h4, h5, h6, h7⟩ := materialized h.plan h.acyclic E compact src false
  refine ⟨order, temps, h1, h2, fun k q t hq ht => ?_⟩
  obtain ⟨l, hl⟩ := copyRefs_resolve h.plan h3 h4 h5 h.pointed hq ht (h.columns k t ht) fun _ => hone k q hq
  refine ⟨l, hl, fun hself => ?_⟩
  have hnd := (buildContext_nodup T temps _ [] l hl).1
  split
  · rename_i hs
    rw [List.singleton_append, List.nodup_cons]
    refine ⟨fun hm => ?_, hnd⟩
    obtain ⟨x, g1, g2, g3⟩ := buildContext_keys T temps false _ [] l hl k 0 hm
    unfold copyRefs at g1
    rw [if_pos hs, List.nil_append] at g1
    obtain ⟨⟨c, y⟩, g4, rfl⟩ := List.mem_map.1 g1
    have hp := remoteCols_some ht (lookups_mem.1 g4).2.2
    have e : y.1 = k := g3
    rw [e] at hp
    exact hself _ _ hp
  · simpa using hnd

/-! ### Which columns are compacted -/

theorem isCompacted_dset {cc : Dict Key (List Str)} {k k' : Key} {cols : List Str} {c : Str} :
    IsCompacted (dset cc k cols) k' c ↔ if k = k' then c ∈ cols else IsCompacted cc k' c := by
  unfold IsCompacted
  rw [dget_dset]
  split <;> simp

theorem namedColumns_ok {T : Tables} {pass : List Str} : ∀ {l : List (Str × List Str)} {cc cc' : Dict Key (List Str)},
    namedColumns T pass l cc = .ok cc' → (l.map Prod.fst).Nodup →
    (∀ e ∈ l, ∀ k, parseTableName e.1 = some k → dget cc k = none) →
    ∀ k c, IsCompacted cc' k c ↔ IsCompacted cc k c ∨ ∃ table cols, (table, cols) ∈ l ∧ c ∈ cols ∧
      parseTableName table = some k ∧ (dget T k).isSome ∧ table ∉ pass
  | [], cc, cc', h, _, _, k, c => by
    cases h
    simp
  | (table, cols) :: l, cc, cc', h, hnd, hfresh, k, c => by
    rw [List.map_cons, List.nodup_cons] at hnd
    have skip : ∀ {cc1}, namedColumns T pass l cc1 = .ok cc' →
        (∀ e ∈ l, ∀ k, parseTableName e.1 = some k → dget cc1 k = none) →
        (IsCompacted cc' k c ↔ IsCompacted cc1 k c ∨ ∃ table cols, (table, cols) ∈ l ∧ c ∈ cols ∧
          parseTableName table = some k ∧ (dget T k).isSome ∧ table ∉ pass) :=
      fun h1 h2 => namedColumns_ok h1 hnd.2 h2 k c
    have hfresh' : ∀ e ∈ l, ∀ k, parseTableName e.1 = some k → dget cc k = none := fun e he => hfresh e (by simp [he])
    have none_of : (¬ (c ∈ cols ∧ parseTableName table = some k ∧ (dget T k).isSome ∧ table ∉ pass)) →
        ((∃ table' cols', (table', cols') ∈ (table, cols) :: l ∧ c ∈ cols' ∧
          parseTableName table' = some k ∧ (dget T k).isSome ∧ table' ∉ pass) ↔
        ∃ table' cols', (table', cols') ∈ l ∧ c ∈ cols' ∧
          parseTableName table' = some k ∧ (dget T k).isSome ∧ table' ∉ pass) := by
      intro hno
      constructor
      · rintro ⟨t', c', h1, h2⟩
        rcases List.mem_cons.1 h1 with h1 | h1
        · cases h1; exact absurd h2 hno
        · exact ⟨t', c', h1, h2⟩
      · rintro ⟨t', c', h1, h2⟩
        exact ⟨t', c', by simp [h1], h2⟩
    unfold namedColumns at h
    split at h
    · rename_i hc
      rw [skip h hfresh', none_of (by rw [hc]; simp)]
    · cases hk : parseTableName table with
      | none => rw [hk] at h; cases h
      | some k0 =>
        rw [hk] at h; dsimp only at h
        rw [hk] at none_of
        split at h
        · rename_i hT
          rw [skip h hfresh', none_of]
          rintro ⟨-, h1, h2, -⟩
          cases h1
          rw [Option.isNone_iff_eq_none] at hT
          rw [hT] at h2
          cases h2
        · rename_i hT
          split at h
          · rename_i hp
            rw [skip h hfresh', none_of]
            exact fun h => h.2.2.2 hp
          · rename_i hp
            have hne : ∀ e ∈ l, ∀ k, parseTableName e.1 = some k → k0 ≠ k := by
              rintro e he k1 h1 rfl
              have := parse_inj hk h1
              exact hnd.1 (List.mem_map.2 ⟨e, he, this.symm⟩)
            rw [skip h (fun e he k1 h1 => by rw [dget_dset_ne _ _ (hne e he k1 h1)]; exact hfresh' e he k1 h1),
              isCompacted_dset]
            by_cases hkk : k0 = k
            · subst hkk
              rw [if_pos rfl, mem_toSet]
              have hcc : ¬ IsCompacted cc k0 c := by
                rintro ⟨x, h1, -⟩
                rw [hfresh (table, cols) (by simp) k0 hk] at h1
                cases h1
              constructor
              · rintro (h1 | ⟨t', c', h1, h2, h3, -⟩)
                · refine .inr ⟨table, cols, by simp, h1, hk, ?_, hp⟩
                  cases hTk : dget T k0 with
                  | none => rw [hTk] at hT; exact absurd rfl hT
                  | some _ => rfl
                · exact absurd rfl (hne _ h1 _ h3)
              · rintro (h1 | ⟨t', c', h1, h2, h3, -⟩)
                · exact absurd h1 hcc
                · rcases List.mem_cons.1 h1 with h1 | h1
                  · cases h1; exact .inl h2
                  · exact absurd rfl (hne _ h1 _ h3)
            · rw [if_neg hkk, none_of]
              rintro ⟨-, h1, -⟩
              cases h1
              exact hkk rfl

theorem keyColumn_ok {cfg : CompactConfig} {pass : List Str} {cc : Dict Key (List Str)} {e : Key × TableMeta} {k : Key}
    {c : Str} : IsCompacted (keyColumn cfg pass cc e) k c ↔ IsCompacted cc k c ∨
      (e.1 = k ∧ e.2.primaryKey = [c] ∧ c ∈ e.2.intColumns ∧ e.1.str ∉ pass ∧
        (cfg.primaryKeys = true ∨ ∃ a, e.2.autoincrement = some a)) := by
  unfold keyColumn
  split
  · rename_i c0 hc
    split
    · rename_i hp
      exact ⟨.inl, fun h => h.elim id fun h => absurd hp h.2.2.2.1⟩
    · rename_i hp
      split
      · rename_i hi
        refine ⟨.inl, fun h => h.elim id fun h => ?_⟩
        rw [hc] at h
        have := h.2.1
        cases this
        exact absurd h.2.2.1 hi
      · rename_i hi
        rw [not_not] at hi
        split
        · rename_i ha
          rw [isCompacted_dset]
          have ha' : cfg.primaryKeys = true ∨ ∃ a, e.2.autoincrement = some a := by
            rw [Bool.or_eq_true, Option.isSome_iff_exists] at ha
            exact ha
          by_cases hk : e.1 = k
          · subst hk
            rw [if_pos rfl, mem_setAdd, isCompacted_iff, hc]
            constructor
            · rintro (h | rfl)
              · exact .inl h
              · exact .inr ⟨rfl, rfl, hi, hp, ha'⟩
            · rintro (h | ⟨-, h, -⟩)
              · exact .inl h
              · cases h; exact .inr rfl
          · rw [if_neg hk]
            exact ⟨.inl, fun h => h.elim id fun h => absurd h.1 hk⟩
        · rename_i ha
          refine ⟨.inl, fun h => h.elim id fun h => ?_⟩
          exfalso
          apply ha
          rw [Bool.or_eq_true, Option.isSome_iff_exists]
          exact h.2.2.2.2
  · rename_i hc
    exact ⟨.inl, fun h => h.elim id fun h => absurd h.2.1 (hc c)⟩

theorem keyColumns_ok {cfg : CompactConfig} {pass : List Str} {k : Key} {c : Str} :
    ∀ (l : List (Key × TableMeta)) (cc : Dict Key (List Str)),
    IsCompacted (l.foldl (keyColumn cfg pass) cc) k c ↔ IsCompacted cc k c ∨
      ∃ t, (k, t) ∈ l ∧ t.primaryKey = [c] ∧ c ∈ t.intColumns ∧ k.str ∉ pass ∧
        (cfg.primaryKeys = true ∨ ∃ a, t.autoincrement = some a)
  | [], cc => by simp
  | (k0, t0) :: l, cc => by
    rw [List.foldl_cons, keyColumns_ok l, keyColumn_ok]
    constructor
    · rintro ((h | ⟨h1, h2⟩) | ⟨t, h1, h2⟩)
      · exact .inl h
      · dsimp only at h1
        subst h1
        exact .inr ⟨t0, by simp, h2⟩
      · exact .inr ⟨t, by simp [h1], h2⟩
    · rintro (h | ⟨t, h1, h2⟩)
      · exact .inl (.inl h)
      · rcases List.mem_cons.1 h1 with h1 | h1
        · cases h1
          exact .inl (.inr ⟨rfl, h2⟩)
        · exact .inr ⟨t, h1, h2⟩

/-- C32. The columns compacted are exactly those configured; if primary keys or autoincrement keys are
compacted, no compacted column is part of a foreign key. -/
theorem c32_columns {T : Tables} {pass : List Str} {cfg : CompactConfig} (hcfg : (cfg.columns.map Prod.fst).Nodup)
    {cc : Dict Key (List Str)} (h : getCompactColumns T pass cfg = .ok cc) :
    (∀ k c, IsCompacted cc k c ↔ NamedColumn T pass cfg k c ∨ KeyColumn T pass cfg k c) ∧
    (cfg.primaryKeys = true ∨ cfg.autoIncrementKeys = true →
      ∀ k t, (k, t) ∈ T → ∀ fk ∈ t.foreignKeys, ∀ c ∈ fk.columns, ¬ IsCompacted cc k c) := by
  unfold getCompactColumns at h
  cases h1 : namedColumns T pass cfg.columns [] with
  | error e => rw [h1] at h; cases h
  | ok cc0 =>
    rw [h1] at h; dsimp only at h
    have hn := namedColumns_ok h1 hcfg fun _ _ _ _ => rfl
    have hn' : ∀ k c, IsCompacted cc0 k c ↔ NamedColumn T pass cfg k c := by
      intro k c
      rw [hn k c]
      constructor
      · rintro (⟨x, h, -⟩ | h)
        · cases h
        · exact h
      · exact .inr
    split at h
    · rename_i hoff
      cases h
      rw [Bool.and_eq_true, Bool.not_eq_true', Bool.not_eq_true'] at hoff
      refine ⟨fun k c => ?_, fun hon => ?_⟩
      · rw [hn' k c]
        refine ⟨.inl, fun h => h.elim id ?_⟩
        rintro ⟨t, -, -, -, -, h | ⟨h, -⟩⟩
        · rw [hoff.1] at h; cases h
        · rw [hoff.2] at h; cases h
      · rw [hoff.1, hoff.2] at hon
        rcases hon with h | h <;> cases h
    · rename_i hoff
      split at h
      · cases h
      · rename_i hfk
        cases h
        have hon : cfg.primaryKeys = true ∨ cfg.autoIncrementKeys = true := by
          cases h2 : cfg.primaryKeys
          · cases h3 : cfg.autoIncrementKeys
            · rw [h2, h3] at hoff; exact absurd rfl hoff
            · exact .inr rfl
          · exact .inl rfl
        refine ⟨fun k c => ?_, fun _ k t hkt fk hfk' c hc hcc => ?_⟩
        · rw [keyColumns_ok, hn' k c]
          refine or_congr_right ?_
          unfold KeyColumn
          refine exists_congr fun t => and_congr_right fun _ => and_congr_right fun _ => and_congr_right fun _ =>
            and_congr_right fun _ => ?_
          constructor
          · rintro (h | h)
            · exact .inl h
            · rcases hon with hon | hon
              · exact .inl hon
              · exact .inr ⟨hon, h⟩
          · rintro (h | ⟨-, h⟩)
            · exact .inl h
            · exact .inr h
        · apply hfk
          unfold withinFk
          rw [List.any_eq_true]
          refine ⟨(k, t), hkt, ?_⟩
          rw [List.any_eq_true]
          refine ⟨fk, hfk', ?_⟩
          rw [List.any_eq_true]
          exact ⟨c, hc, by rw [decide_eq_true_eq, isCompacted_iff]; exact hcc⟩

/-! ### Examples -/

/-- Rows are ordered by the first key column. -/
def cxLe (a b : List Val) : Bool :=
  match a, b with
  | .int x :: _, .int y :: _ => decide (x ≤ y)
  | _, _ => true

def cxU : Key := (str! "s", str! "u")
def cxO : Key := (str! "s", str! "o")
def cxP : Key := (str! "s", str! "p")
def cxFk (c : Str) (d : Key) (dc : Str) : ForeignKey := { columns := [c], dstSchema := d.1, dstTable := d.2, dstColumns := [dc] }
def cxTable (k : Key) (columns pk : List Str) (auto : Option Str) (fks : List ForeignKey) : Key × TableMeta :=
  (k, { schema := k.1, name := k.2, columns := columns, primaryKey := pk, intColumns := columns, autoincrement := auto, foreignKeys := fks })
/-- All rows of the given tables. -/
def cxPlan (ks : List Key) : Plan := ⟨ks.map fun k => (k.str, passthroughQuery k), []⟩
def cxRun (T : Tables) (compact : Dict Key (List Str)) (src : Key → List Row) (reopen : Bool) (ks : List Key) :
    Except ExecErr (List (Key × List Row)) :=
  execCompact exEngine T cxLe 1 compact src reopen (cxPlan ks) (ks.map Key.str)
def cxPair (a b : Str) (x y : Val) : Row := [(a, x), (b, y)]

/-- Orders refer to users. -/
def cxTables : Tables :=
  [cxTable cxU [str! "id"] [str! "id"] (some (str! "id")) [],
   cxTable cxO [str! "id", str! "uid"] [str! "id"] (some (str! "id")) [cxFk (str! "uid") cxU (str! "id")]]
def cxSrc : Key → List Row := fun k =>
  if k = cxU then [[(str! "id", .int 9)], [(str! "id", .int 5)]]
  else if k = cxO then [cxPair (str! "id") (str! "uid") (.int 30) (.int 9), cxPair (str! "id") (str! "uid") (.int 20) (.int 5),
    cxPair (str! "id") (str! "uid") (.int 40) .null]
  else []
def cxCompact : Dict Key (List Str) := [(cxU, [str! "id"]), (cxO, [str! "id"])]

/-- C31 and C32 at work, on both kinds of databases. -/
example : getCompactColumns cxTables [] { primaryKeys := true } = .ok cxCompact ∧
    ∀ reopen, cxRun cxTables cxCompact cxSrc reopen [cxU, cxO] = .ok
      [(cxU, [[(str! "id", .int 2)], [(str! "id", .int 1)]]),
       (cxO, [cxPair (str! "id") (str! "uid") (.int 2) (.int 2), cxPair (str! "id") (str! "uid") (.int 1) (.int 1),
        cxPair (str! "id") (str! "uid") (.int 3) .null])] := ⟨by decide, by decide⟩

theorem cxPlan_planned {ks : List Key} (hks : ∀ k ∈ ks, '.' ∉ k.1) {k : Key} {q : TableQuery} :
    Planned (cxPlan ks) k q ↔ k ∈ ks ∧ q = passthroughQuery k := by
  unfold Planned cxPlan
  constructor
  · rintro ⟨name, h1, h2⟩
    obtain ⟨k', h3, h4⟩ := List.mem_map.1 h1
    cases h4
    rw [parse_of_nodot (hks k' h3)] at h2
    cases h2
    exact ⟨h3, rfl⟩
  · rintro ⟨h1, rfl⟩
    exact ⟨k.str, List.mem_map.2 ⟨k, h1, rfl⟩, parse_of_nodot (hks k h1)⟩

theorem cxNoNeeds {ks : List Key} (hks : ∀ k ∈ ks, '.' ∉ k.1) (k d : Key) : ¬ Needs (cxPlan ks) k d := by
  rintro ⟨q, h, x, h1, h2, h3⟩
  obtain ⟨-, rfl⟩ := (cxPlan_planned hks).1 h
  simp only [passthroughQuery, TableQuery.refs, Stmt.refs, Sel.refs, Option.getD_none, List.map_nil, List.mem_singleton] at h1
  subst h1
  cases h2

theorem cxPlan_ok {T : Tables} {ks : List Key} (hks : ∀ k ∈ ks, '.' ∉ k.1) (hnd : (ks.map Key.str).Nodup)
    (hT : ∀ k ∈ ks, (dget T k).isSome) : PlanOK T (cxPlan ks) where
  names_nodup := by
    have : (cxPlan ks).queries.map Prod.fst = ks.map Key.str := by
      unfold cxPlan
      rw [List.map_map]
      rfl
    rw [this]
    exact hnd
  known := by
    intro name q h
    obtain ⟨k, h3, h4⟩ := List.mem_map.1 h
    cases h4
    exact ⟨k, parse_of_nodot (hks k h3), hT k h3⟩
  refs_known := by
    intro k q h x hx
    obtain ⟨h1, rfl⟩ := (cxPlan_planned hks).1 h
    simp only [passthroughQuery, TableQuery.refs, Stmt.refs, Sel.refs, Option.getD_none, List.map_nil, List.mem_singleton] at hx
    subst hx
    exact hT k h1
  uses_planned := fun k d h => absurd h (cxNoNeeds hks k d)

theorem cxKeys_ok : ∀ k ∈ [cxU, cxO], '.' ∉ k.1 := by decide

theorem cxPoints {k d : Key} {c dc : Str} (h : PointsTo cxTables cxCompact k c d dc) :
    k = cxO ∧ c = str! "uid" ∧ d = cxU ∧ dc = str! "id" := by
  obtain ⟨t, fk, h1, h2, h3, h4, h5⟩ := h
  have h1 := dget_some_mem h1
  simp only [cxTables, cxTable, List.mem_cons, List.not_mem_nil, or_false] at h1
  rcases h1 with h1 | h1
  · cases h1; cases h2
  · cases h1
    simp only [List.mem_singleton] at h2
    subst h2
    simp only [cxFk, List.zip_cons_cons, List.zip_nil_right, List.mem_singleton] at h4
    cases h4
    exact ⟨rfl, rfl, h3.symm, rfl⟩

/-- The hypotheses of `c32_run_partial`, `c24_references_resolve_partial` and of `c32_reference_kept_partial` are met
by the example. -/
theorem cxCompactOK : CompactOK cxTables cxCompact (cxPlan [cxU, cxO]) where
  plan := cxPlan_ok cxKeys_ok (by decide) (by decide)
  acyclic := by
    intro k h
    obtain ⟨d, -, h⟩ := Relation.TransGen.tail'_iff.1 h
    exact cxNoNeeds cxKeys_ok _ _ h
  planned := by
    rintro d c ⟨cols, h, -⟩
    have h := dget_some_mem h
    simp only [cxCompact, List.mem_cons, List.not_mem_nil, or_false] at h
    refine ⟨_, (cxPlan_planned cxKeys_ok).2 ⟨?_, rfl⟩⟩
    rcases h with h | h <;> cases h <;> simp
  columns := by
    intro k t h
    have h := dget_some_mem h
    simp only [cxTables, cxTable, List.mem_cons, List.not_mem_nil, or_false] at h
    rcases h with h | h <;> cases h <;> decide

theorem cxOneLookup (k : Key) : OneLookupEach cxTables cxCompact k := by
  intro t h fk hfk
  have h := dget_some_mem h
  simp only [cxTables, cxTable, List.mem_cons, List.not_mem_nil, or_false] at h
  rcases h with h | h
  · cases h; cases hfk
  · cases h
    simp only [List.mem_singleton] at hfk
    subst hfk
    refine ⟨by decide, ?_⟩
    simp [cxFk]

example (S : Key → List Row) (hS : S cxU = cxSrc cxU) : LookupsUnique cxTables cxCompact (cxPlan [cxU, cxO]) S := by
  rintro k q - c d dc h -
  obtain ⟨-, -, rfl, rfl⟩ := cxPoints h
  rw [hS]
  unfold UniqueIn
  decide

example : PairSafe cxTables cxCompact cxO cxU (str! "uid", str! "id") := by
  refine ⟨?_, .inl ⟨⟨_, rfl, by simp⟩, ⟨_, cxFk (str! "uid") cxU (str! "id"), rfl, by simp, rfl, by simp [cxFk], ⟨_, rfl, by simp⟩⟩, ?_⟩⟩
  · rintro ⟨cols, h, h'⟩
    cases h
    simp at h'
  · intro d' dc' h
    exact ⟨(cxPoints h).2.2.1, (cxPoints h).2.2.2⟩

/-! ### Where C24 and C32 fail -/

/-- A column configured by name may be part of a foreign key when neither kind of key is compacted: the
reference is then replaced by a row number. -/
theorem c32_named_column_breaks_reference :
    getCompactColumns cxTables [] { columns := [(str! "s.o", [str! "uid"])] } = .ok [(cxO, [str! "uid"])] ∧
    cxRun cxTables [(cxO, [str! "uid"])] cxSrc true [cxU, cxO] = .ok
      [(cxU, [[(str! "id", .int 9)], [(str! "id", .int 5)]]),
       (cxO, [cxPair (str! "id") (str! "uid") (.int 30) (.int 2), cxPair (str! "id") (str! "uid") (.int 20) (.int 1),
        cxPair (str! "id") (str! "uid") (.int 40) (.int 3)])] ∧
    getCompactColumns cxTables [] { autoIncrementKeys := true, columns := [(str! "s.o", [str! "uid"])] } =
      .error .withinForeignKey := ⟨by decide, by decide, by decide⟩

/-- Profiles share the key of users, and pictures refer to profiles. -/
def cxChain : Tables :=
  [cxTable cxU [str! "id"] [str! "id"] (some (str! "id")) [],
   cxTable cxP [str! "uid"] [str! "uid"] none [cxFk (str! "uid") cxU (str! "id")],
   cxTable cxO [str! "pid"] [] none [cxFk (str! "pid") cxP (str! "uid")]]
def cxChainSrc : Key → List Row := fun k =>
  if k = cxU then [[(str! "id", .int 9)], [(str! "id", .int 5)]]
  else if k = cxP then [[(str! "uid", .int 9)]]
  else if k = cxO then [[(str! "pid", .int 9)]] else []

/-- A key column that refers to a compacted one changes with it, but columns that refer to that key do not. -/
theorem c32_chain_not_followed :
    getCompactColumns cxChain [] { autoIncrementKeys := true } = .ok [(cxU, [str! "id"])] ∧
    (∀ reopen, cxRun cxChain [(cxU, [str! "id"])] cxChainSrc reopen [cxU, cxP, cxO] = .ok
      [(cxU, [[(str! "id", .int 2)], [(str! "id", .int 1)]]), (cxP, [[(str! "uid", .int 2)]]),
       (cxO, [[(str! "pid", .int 9)]])]) ∧
    getCompactColumns cxChain [] { primaryKeys := true } = .error .withinForeignKey := ⟨by decide, by decide, by decide⟩

/-- Two users with the same code, to which an order refers. -/
def cxCodes : Tables :=
  [cxTable cxU [str! "id", str! "code"] [str! "id"] none [],
   cxTable cxO [str! "code"] [] none [cxFk (str! "code") cxU (str! "code")]]
def cxCodesSrc : Key → List Row := fun k =>
  if k = cxU then [cxPair (str! "id") (str! "code") (.int 5) (.int 7), cxPair (str! "id") (str! "code") (.int 9) (.int 7)]
  else if k = cxO then [[(str! "code", .int 7)]] else []

/-- A row that refers to a compacted column holding its value twice is copied twice. -/
theorem c32_duplicates_rows :
    getCompactColumns cxCodes [] { columns := [(str! "s.u", [str! "code"])] } = .ok [(cxU, [str! "code"])] ∧
    cxRun cxCodes [(cxU, [str! "code"])] cxCodesSrc true [cxU, cxO] = .ok
      [(cxU, [cxPair (str! "id") (str! "code") (.int 5) (.int 1), cxPair (str! "id") (str! "code") (.int 9) (.int 2)]),
       (cxO, [[(str! "code", .int 1)], [(str! "code", .int 2)]])] := ⟨by decide, by decide⟩

/-- A reference to a row that is not part of the sample becomes NULL. -/
theorem c32_dangling_reference_lost :
    cxRun cxTables [(cxU, [str! "id"])] (fun k => if k = cxO then [cxPair (str! "id") (str! "uid") (.int 30) (.int 7)] else cxSrc k)
      true [cxU, cxO] = .ok
      [(cxU, [[(str! "id", .int 2)], [(str! "id", .int 1)]]),
       (cxO, [cxPair (str! "id") (str! "uid") (.int 30) .null])] := by decide

/-- Orders refer to users by two compacted columns at once. -/
def cxWide : Tables :=
  [cxTable cxU [str! "a", str! "b"] [str! "a"] none [],
   cxTable cxO [str! "x", str! "y"] [] none [{ columns := [str! "x", str! "y"], dstSchema := cxU.1, dstTable := cxU.2, dstColumns := [str! "a", str! "b"] }]]
def cxWideSrc : Key → List Row := fun k =>
  if k = cxU then [cxPair (str! "a") (str! "b") (.int 5) (.int 7)]
  else if k = cxO then [cxPair (str! "x") (str! "y") (.int 5) (.int 7)] else []

/-- C24 fails: copies are counted once per foreign key but used once per column.  On a database that cannot
reopen temporary tables the second use fails with a `KeyError`. -/
theorem c24_copy_missing :
    getCompactColumns cxWide [] { columns := [(str! "s.u", [str! "a", str! "b"])] } = .ok [(cxU, [str! "a", str! "b"])] ∧
    cxRun cxWide [(cxU, [str! "a", str! "b"])] cxWideSrc false [cxU, cxO] = .error .keyError ∧
    cxRun cxWide [(cxU, [str! "a", str! "b"])] cxWideSrc true [cxU, cxO] = .ok
      [(cxU, [cxPair (str! "a") (str! "b") (.int 1) (.int 1)]),
       (cxO, [cxPair (str! "x") (str! "y") (.int 1) (.int 1)])] := ⟨by decide, by decide, by decide⟩

/-- Users refer to their manager. -/
def cxSelf : Tables :=
  [cxTable cxU [str! "id", str! "boss"] [str! "id"] (some (str! "id")) [cxFk (str! "boss") cxU (str! "id")]]

/-- C24 fails: the statement that copies a table that refers to a compacted column of its own reads the rows
from the first copy and looks identifiers up in the same copy. -/
theorem c24_own_copy_twice (rows : List Row) :
    materializationOrder cxSelf [(cxU, [str! "id"])] (cxPlan [cxU]) = .ok [(cxU, 1)] ∧
    copyRefs [(cxU, [str! "id"])] [((cxU, 0), rows)] cxU (cxSelf.head (by decide)).2 (passthroughQuery cxU) =
      [⟨str! "s", str! "u", true⟩] ∧
    buildContext cxSelf [((cxU, 0), rows)] false [] [⟨str! "s", str! "u", true⟩] = some [some (cxU, 0)] :=
  ⟨by decide, rfl, rfl⟩

/-- Of two foreign keys on one column that refer to compacted columns, the last one wins. -/
theorem c32_two_keys_one_column :
    remoteCols [(cxU, [str! "id"]), (cxP, [str! "id"])] [cxFk (str! "x") cxU (str! "id"), cxFk (str! "x") cxP (str! "id")] =
      [(str! "x", cxP, str! "id")] := by decide

end Subsetter.Props
