import Verif.Proofs.SqlLookups

/- The statements that copy a table return the rows the plan describes. -/
namespace Subsetter
open Spec

variable {E : Engine} {le : List Val → List Val → Bool} {R : SqlObj → List Row} {T : Tables} {start : Int}
  {compact : Dict Key (List Str)} {src : Key → List Row} {reopen : Bool} {temps' : SqlTemps} {temps : Temps}

theorem zip_single {α β γ : Type} {F : α → List β} {G : α → Int → List γ} {H : β → Int → γ} :
    ∀ (rows : List α) (nums : List Int), rows.length = nums.length →
    (∀ r ∈ rows, ∃ b, F r = [b] ∧ ∀ i, G r i = [H b i]) →
    (((rows.flatMap F).zip nums).map fun e => H e.1 e.2) = (nums.zip rows).flatMap fun e => G e.2 e.1
  | [], nums, _, _ => by simp
  | r :: rows, [], h, _ => by cases h
  | r :: rows, i :: nums, hl, h => by
    obtain ⟨b, h1, h2⟩ := h r List.mem_cons_self
    rw [List.flatMap_cons, h1, List.singleton_append, List.zip_cons_cons, List.zip_cons_cons, List.map_cons,
      List.flatMap_cons, h2 i, List.singleton_append, zip_single rows nums (by simpa using hl) fun x hx =>
        h x (List.mem_cons_of_mem r hx)]

theorem flatMap_single {α β γ : Type} {F : α → List β} {f : β → γ} {g : α → γ} : ∀ (rows : List α),
    (∀ r ∈ rows, ∃ b, F r = [b] ∧ f b = g r) → (rows.flatMap F).map f = rows.map g
  | [], _ => rfl
  | r :: rows, h => by
    obtain ⟨b, h1, h2⟩ := h r List.mem_cons_self
    rw [List.flatMap_cons, h1, List.singleton_append, List.map_cons, List.map_cons, h2,
      flatMap_single rows fun x hx => h x (List.mem_cons_of_mem r hx)]

theorem zip_ignore {α β : Type} {g : α → β} : ∀ (l : List α) (nums : List Int), l.length = nums.length →
    ((l.zip nums).map fun e => g e.1) = l.map g
  | [], nums, _ => by simp
  | a :: l, [], h => by cases h
  | a :: l, i :: nums, h => by
    rw [List.zip_cons_cons, List.map_cons, List.map_cons, zip_ignore l nums (by simpa using h)]

theorem flatMap_zipWith {γ : Type} {g : Row → List γ} {g' : Int × Row → List γ} (h : ∀ i r, g (withId i r) = g' (i, r)) :
    ∀ (ids : List Int) (rows : List Row), (List.zipWith withId ids rows).flatMap g = (ids.zip rows).flatMap g'
  | [], rows => rfl
  | i :: ids, [] => rfl
  | i :: ids, r :: rows => by
    rw [List.zipWith_cons_cons, List.zip_cons_cons, List.flatMap_cons, List.flatMap_cons, h, flatMap_zipWith h ids rows]

theorem zip_rows {α β : Type} {g : α → List β} : ∀ (ids : List Int) (rows : List α), ids.length = rows.length →
    ((ids.zip rows).flatMap fun e => g e.2) = rows.flatMap g
  | [], [], _ => rfl
  | [], _ :: _, h => by cases h
  | _ :: _, [], h => by cases h
  | i :: ids, r :: rows, h => by
    rw [List.zip_cons_cons, List.flatMap_cons, List.flatMap_cons, zip_rows ids rows (by simpa using h)]

theorem outCols_row {localCols cs : List Str} {r : Row} {id : Int} {d : Dict Str Val} :
    outCols localCols cs r (.int id) d = compactRow localCols cs r id d := rfl

/-- What `query_stmt` is before compaction. -/
theorem copyQuery_same (hS : SourcePlain T src) (h : TempsRel T le start compact temps' temps) {k : Key} {q : TableQuery}
    (hq : QueryPlain T k q) {t : TableMeta} (ht : dget T k = some t) :
    (copyQuery T reopen temps' k q = .error .keyError ∧ sampleRows E T src reopen temps k q = .error .keyError) ∨
    ∃ Q s rows, copyQuery T reopen temps' k q = .ok (Q, s) ∧ sampleRows E T src reopen temps k q = .ok rows ∧
      (∀ r ∈ rows, r.map Prod.fst = t.columns) ∧
      countsAfter (sqlCtx T temps' reopen) [] (if (dget temps (k, 0)).isSome then [] else q.refs) = some s.counts ∧
      ((dget temps (k, 0) = some rows ∧ Q.columns = some (tempCols compact k t) ∧
          Query.eval E le (sqlRows src temps') [] Q = addIds le start compact k t.primaryKey rows) ∨
        (dget temps (k, 0) = none ∧ Q.columns = some t.columns ∧ Query.eval E le (sqlRows src temps') [] Q = rows)) := by
  unfold copyQuery sampleRows
  cases hr : dget temps (k, 0) with
  | some rows =>
    obtain ⟨⟨o, rows'⟩, h1, t', h2, h3, h4, h5⟩ := h.get' hr
    rw [ht] at h2
    cases h2
    dsimp only at h3 h4
    rw [h1]
    have hR : sqlRows src temps' o.obj = rows' := by rw [h3]; simp [sqlRows, h1]
    have hoc : o.columns = tempCols compact k t := by rw [h3]
    obtain ⟨e1, e2⟩ := select_eval (E := E) (le := le) (R := sqlRows src temps') (o := o)
      (by rw [hoc]; exact tempCols_nodup hS ht) (by rw [hR, hoc, h4]; exact addIds_keys h5)
    refine .inr ⟨_, _, rows, rfl, rfl, h5, rfl, .inl ⟨rfl, ?_, ?_⟩⟩
    · rw [e2, hoc]
    · rw [e1, hR, h4]
  | none =>
    rw [(h.none_ k 0).2 hr]
    dsimp only
    unfold runQuery
    rcases query_built (E := E) (reopen := reopen) hS h hq ht with ⟨⟨e, h1⟩, -, h3⟩ | ⟨Q, s, h1, h2, h3, h4, h5, h6⟩
    · rw [h1, h3]
      exact .inl ⟨rfl, rfl⟩
    · obtain ⟨l, h3⟩ := Option.isSome_iff_exists.1 h3
      rw [h1, h3]
      exact .inr ⟨Q, s, _, rfl, rfl, h6, h2, .inr ⟨rfl, h5, h4⟩⟩

/-- Copied rows: the statement built returns what `copyRows` says. -/
theorem copy_same (hS : SourcePlain T src) (h : TempsRel T le start compact temps' temps)
    (hne : ∀ k, dget compact k ≠ some []) {k : Key} {q : TableQuery} (hq : QueryPlain T k q) {t : TableMeta}
    (ht : dget T k = some t)
    (hu : dget temps (k, 0) = none → (dget compact k).isSome → ∀ c d dc, PointsTo T compact k c d dc →
      UniqueIn ((dget temps (d, 0)).getD []) dc) :
    copyRowsSql E T le start compact src reopen temps' k q = copyRows E T le start compact src reopen temps k q := by
  unfold copyRowsSql copyRows
  rcases copyQuery_same (E := E) (reopen := reopen) hS h hq ht with ⟨h1, h2⟩ | ⟨Q, s, rows, h1, h2, h3, h4, h5⟩
  · rw [h1, h2]
  rw [h1, h2]
  dsimp only
  rw [ht]
  dsimp only
  split
  · rename_i hno
    have hnone : dget compact k = none := by
      cases hc : dget compact k with
      | none => rfl
      | some l => rw [hc] at hno; exact absurd hc (by rw [show l = [] from hno.2]; exact hne k)
    rcases h5 with ⟨-, -, h6⟩ | ⟨-, -, h6⟩
    · rw [h6]
      simp [addIds, hnone]
    · rw [h6]
  rename_i hcomp
  obtain ⟨cnd, cnc, cpk⟩ := hS.columns k t ht
  -- the columns of the subquery
  obtain ⟨cols, hcols, hsub⟩ : ∃ cols, Q.columns = some cols ∧ ∀ c ∈ t.columns, c ∈ cols := by
    rcases h5 with ⟨-, h6, -⟩ | ⟨-, h6, -⟩
    · refine ⟨_, h6, fun c hc => ?_⟩
      unfold tempCols
      split
      · exact List.mem_cons_of_mem _ hc
      · exact hc
    · exact ⟨_, h6, fun c hc => hc⟩
  rw [hcols]
  dsimp only
  rw [if_pos (by rw [List.all_eq_true]; intro c hc; simpa using hsub c (cpk c hc))]
  generalize hid' : (fun c => if compactCol ∈ cols then Item.col ⟨.alias s.fresh, compactCol⟩ c
    else idItem start t.primaryKey s.fresh c) = id
  have hid : ∀ c (S : Scope) i, (id c).label = c ∧ ∀ S' : Scope, S.row (.alias s.fresh) = S'.row (.alias s.fresh) →
      (id c).value (S, i) = (id []).value (S', i) := by
    intro c S i
    rw [← hid']
    dsimp only
    split
    · exact ⟨rfl, fun S' e => by simp [Item.value, Scope.get, e]⟩
    · exact ⟨rfl, fun S' e => by simp [Item.value, idItem]⟩
  have hrem : ∀ c d dc, dget (remoteCols compact t.foreignKeys) c = some (d, dc) → (dget compact d).isSome ∧
      ∀ m, dget T d = some m → dc ∈ m.columns := by
    intro c d dc hr
    obtain ⟨t', fk, g1, g2, g3, g4, l, g5, -⟩ := remoteCols_some ht hr
    rw [ht] at g1
    cases g1
    exact ⟨by rw [g5]; rfl, fun m hm => hS.refs k t ht fk g2 m (by rw [g3]; exact hm) _ (List.of_mem_zip g4).2⟩
  have hctx : (countsAfter (sqlCtx T temps' reopen) s.counts (lookIds (lookups compact k t))).isSome =
      (buildContext T temps reopen [] (copyRefs compact temps k t q)).isSome := by
    rw [← counts_context h, copyRefs, countsAfter_append, h4]
    rfl
  rcases looks_built (E := E) (reopen := reopen) hS h (localCols := (dget compact k).getD []) hid hrem t.columns
      (.sub Q s.fresh) [] ⟨s.counts, s.fresh + 1⟩ cnd hsub (by dsimp only; omega) with ⟨g1, g2⟩ | ⟨items, f, es, g1, g2, hb⟩
  · rw [g1]
    rw [show lookIds (lookups compact k t) = lookIds (looksOf ((dget compact k).getD []) (remoteCols compact t.foreignKeys) t.columns)
      from rfl, g2] at hctx
    cases hx : buildContext T temps reopen [] (copyRefs compact temps k t q) with
    | none => rfl
    | some _ => rw [hx] at hctx; cases hctx
  · rw [g1]
    rw [show lookIds (lookups compact k t) = lookIds (looksOf ((dget compact k).getD []) (remoteCols compact t.foreignKeys) t.columns)
      from rfl, g2] at hctx
    obtain ⟨ctx, hx⟩ := Option.isSome_iff_exists.1 hctx.symm
    rw [hx]
    dsimp only
    congr 1
    rw [show looksOf ((dget compact k).getD []) (remoteCols compact t.foreignKeys) t.columns = lookups compact k t from rfl] at hb
    -- values of the selected expressions
    have hshape : ∀ x ∈ items, (∃ c l, x = .col c l) ∨ ∃ add l, x = .number (t.primaryKey.map fun c => ⟨.alias s.fresh, c⟩) add l := by
      intro x hx
      rcases hb.shapes x hx with hx | ⟨c, -, rfl⟩
      · exact .inl hx
      · rw [← hid']
        dsimp only
        split
        · exact .inl ⟨_, _, rfl⟩
        · exact .inr ⟨_, _, rfl⟩
    rw [eval_plain, selectItems_values _ hshape, hb.from_, From.eval]
    generalize hrows' : Query.eval E le (sqlRows src temps') [] Q = rows'
    rw [hrows'] at h5
    rw [List.flatMap_map]
    have hbr : ∀ r : Row, Scope.row [(Name.alias s.fresh, r)] (.alias s.fresh) = r := fun r => row_cons_self
    have nolocal : ((dget compact k).getD [] = []) → ∀ (l : List Scope) (nums : List Int), l.length = nums.length →
        ((l.zip nums).map fun e => items.map fun x => (x.label, x.value e)) =
        (l.map fun S => items.map fun x => (x.label, x.value (S, 0))) := by
      intro hnl l nums hlen
      rw [← zip_ignore l nums hlen]
      refine List.map_congr_left fun e _ => List.map_congr_left fun x hx => ?_
      rcases hb.shapes x hx with ⟨c, l, rfl⟩ | ⟨c, hc, -⟩
      · rfl
      · rw [hnl] at hc; exact absurd hc List.not_mem_nil
    have perRow : ∀ r' r : Row, (∀ c ∈ t.columns, r'.get c = r.get c) → ∀ i,
        (lookScopes (sqlRows src temps') s.fresh es [(Name.alias s.fresh, r')]).map (fun S => items.map fun x => (x.label, x.value (S, i))) =
        (lookupAll (tempIds T le start temps) r (lookups compact k t)).map fun d =>
          outCols ((dget compact k).getD []) t.columns r ((id []).value ([(Name.alias s.fresh, r')], i)) d := by
      intro r' r hr i
      have := congrArg (List.map fun (g : Int → Row) => g i) (hb.rows [(Name.alias s.fresh, r')] r fun c hc => by
        rw [hbr]; exact hr c hc)
      rw [List.map_map, List.map_map] at this
      exact this
    have plain0 : (dget compact k).getD [] = [] → rows' = rows →
        ((rows'.flatMap fun a => lookScopes (sqlRows src temps') s.fresh es [(Name.alias s.fresh, a)]).map fun S =>
          items.map fun x => (x.label, x.value (S, 0))) =
        ((compactIds le start t.primaryKey rows).zip rows).flatMap fun e =>
          (lookupAll (tempIds T le start temps) e.2 (lookups compact k t)).map
            (compactRow ((dget compact k).getD []) t.columns e.2 e.1) := by
      intro hno hr
      rw [List.map_flatMap, hr, ← zip_rows (compactIds le start t.primaryKey rows) rows compactIds_length]
      refine List.flatMap_congr fun e _ => ?_
      rw [perRow e.2 e.2 (fun _ _ => rfl) 0]
      refine List.map_congr_left fun d _ => ?_
      rw [hno]
      simp [outCols, compactRow]
      exact fun _ _ => rfl
    rcases h5 with ⟨g3, g4, g5⟩ | ⟨g3, g4, g5⟩
    · -- from a temporary table
      rw [hcols] at g4
      cases hck : dget compact k with
      | none =>
        have hno : (dget compact k).getD [] = [] := by rw [hck]; rfl
        rw [← hck, nolocal hno _ _ (by rw [rowNumbers_length, List.length_map])]
        exact plain0 hno (by rw [g5]; simp [addIds, hck])
      | some l =>
        have hcm : compactCol ∈ cols := by
          cases g4
          simp [tempCols, hck]
        have hidc : ∀ c, id c = .col ⟨.alias s.fresh, compactCol⟩ c := fun c => by rw [← hid']; exact if_pos hcm
        have hign : ∀ (l : List Scope) (nums : List Int), l.length = nums.length →
            ((l.zip nums).map fun e => items.map fun x => (x.label, x.value e)) =
            (l.map fun S => items.map fun x => (x.label, x.value (S, 0))) := by
          intro l nums hlen
          rw [← zip_ignore l nums hlen]
          refine List.map_congr_left fun e _ => List.map_congr_left fun x hx => ?_
          rcases hb.shapes x hx with ⟨c, l, rfl⟩ | ⟨c, hc, rfl⟩
          · rfl
          · rw [hidc]; rfl
        rw [← hck, hign _ _ (by rw [rowNumbers_length, List.length_map]), List.map_flatMap, g5]
        simp only [addIds, hck, Option.isSome_some, if_true]
        refine flatMap_zipWith (fun i r => ?_) _ _
        rw [perRow (withId i r) r (fun c hc => ?_) 0]
        · refine List.map_congr_left fun d _ => ?_
          rw [hidc, ← outCols_row, hck]
          simp [Item.value, Scope.get, hbr, withId, Row.get, dget]
        · have : c ≠ compactCol := fun e => cnc (by rw [e] at hc; exact hc)
          simp [withId, Row.get, dget, this.symm]
    · -- from the query
      rw [hcols] at g4
      cases g4
      cases hck : dget compact k with
      | none =>
        have hno : (dget compact k).getD [] = [] := by rw [hck]; rfl
        rw [← hck, nolocal hno _ _ (by rw [rowNumbers_length, List.length_map])]
        exact plain0 hno g5
      | some l =>
        have hidc : ∀ c, id c = idItem start t.primaryKey s.fresh c := fun c => by rw [← hid']; exact if_neg cnc
        have hone : ∀ r ∈ rows, ∃ b d, lookScopes (sqlRows src temps') s.fresh es [(Name.alias s.fresh, r)] = [b] ∧
            lookupAll (tempIds T le start temps) r (lookups compact k t) = [d] ∧
            (∀ i, (items.map fun x => (x.label, x.value (b, i))) = compactRow l t.columns r (i + (start - 1)) d) ∧
            Scope.row b (.alias s.fresh) = r := by
          intro r hr
          obtain ⟨d, e1, -⟩ := lookupAll_one (idsOf := tempIds T le start temps) r (lookups_nodup (k := k) (compact := compact) cnd)
            (fun e he => by
              have := hu g3 (by rw [hck]; rfl) _ _ _ (remoteCols_some ht (lookups_mem.1 he).2.2)
              unfold tempIds
              dsimp only
              rw [List.map_snd_zip (by rw [compactIds_length])]
              exact this)
          have e2 := fun i => perRow r r (fun _ _ => rfl) i
          rw [e1] at e2
          cases hl : lookScopes (sqlRows src temps') s.fresh es [(Name.alias s.fresh, r)] with
          | nil => have := e2 0; rw [hl] at this; cases this
          | cons b bs =>
            cases bs with
            | cons _ _ => have := congrArg List.length (e2 0); rw [hl] at this; simp at this
            | nil =>
              refine ⟨b, d, rfl, e1, fun i => ?_, ?_⟩
              · have := e2 i
                rw [hl] at this
                have := List.head_eq_of_cons_eq this
                dsimp only at this
                rw [this, hidc, hck]
                rfl
              · rw [lookScopes_row (es := es) (b := [(Name.alias s.fresh, r)]) (by rw [hl]; exact List.mem_singleton_self b), hbr]
                intro e he hx
                rcases hb.names e he with ⟨o, e3, -⟩ | ⟨m, e3, e4⟩
                · rw [e3] at hx; cases hx
                · rw [e4] at hx
                  cases hx
                  exact absurd e3 (by simp)
        rw [g5]
        have hkeys : ((rows.flatMap fun a => lookScopes (sqlRows src temps') s.fresh es [(Name.alias s.fresh, a)]).map fun S =>
            (t.primaryKey.map fun c => (⟨.alias s.fresh, c⟩ : Col)).map (Scope.get S)) =
            rows.map fun r => t.primaryKey.map r.get := by
          refine flatMap_single _ fun r hr => ?_
          obtain ⟨b, d, e1, -, -, e4⟩ := hone r hr
          refine ⟨b, e1, ?_⟩
          rw [List.map_map]
          refine List.map_congr_left fun c _ => ?_
          simp [Scope.get, e4]
        rw [hkeys, ids_eq]
        rw [zip_single (H := fun S i => items.map fun x => (x.label, x.value (S, i)))
          (G := fun r i => (lookupAll (tempIds T le start temps) r (lookups compact k t)).map
            (compactRow l t.columns r (i + (start - 1)))) rows _ (by rw [rowNumbers_length, List.length_map]) fun r hr => by
              obtain ⟨b, d, e1, e2, e3, -⟩ := hone r hr
              exact ⟨b, e1, fun i => by rw [e2, e3 i]; rfl⟩]
        rw [List.zip_map_left, List.flatMap_map]
        rfl

end Subsetter
