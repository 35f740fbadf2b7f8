import Verif.Proofs.SqlBuild
import Verif.Proofs.SqlStrip
import Verif.Proofs.Compact

/- Temporary tables hold the rows the plan describes, and the new identifiers of compacted tables. -/
namespace Subsetter
open Spec

variable {E : Engine} {le : List Val → List Val → Bool} {R : SqlObj → List Row}

/-- The value of a selected expression, given the scope and the number of the row. -/
def Item.value (e : Scope × Int) : Item → Val
  | .col c _ => Scope.get e.1 c
  | .number _ add _ => .int (e.2 + add)

theorem rowNumbers_length (keys : List (List Val)) : (rowNumbers le keys).length = keys.length := by
  simp [rowNumbers]

theorem selectItems_values {items : List Item} (ss : List Scope) {order : List Col}
    (h : ∀ x ∈ items, (∃ c l, x = .col c l) ∨ ∃ add l, x = .number order add l) :
    selectItems le ss items =
      (ss.zip (rowNumbers le (ss.map fun s => order.map s.get))).map fun e => items.map fun x => (x.label, x.value e) := by
  have hlen : (rowNumbers le (ss.map fun s => order.map s.get)).length = ss.length := by
    rw [rowNumbers_length, List.length_map]
  unfold selectItems
  refine List.ext_getElem (by simp [hlen]) fun i h1 h2 => ?_
  simp only [List.length_map, List.length_range] at h1
  simp only [List.getElem_map, List.getElem_range, List.getElem_zip]
  rw [← List.filterMap_eq_map]
  refine List.filterMap_congr fun x hx => ?_
  rcases h x hx with ⟨c, l, rfl⟩ | ⟨add, l, rfl⟩
  · simp [Item.values, Item.value, Item.label, h1]
  · simp only [Item.values, Item.value, Item.label, List.getElem?_map]
    rw [List.getElem?_eq_getElem (by rw [hlen]; exact h1)]
    rfl

theorem ids_eq (start : Int) (pk : List Str) (rows : List Row) :
    compactIds le start pk rows = (rowNumbers le (rows.map fun r => pk.map r.get)).map fun n => n + (start - 1) := by
  unfold compactIds rowNumbers sortedPositions
  have hk : ∀ i, (rows.map fun r => pk.map r.get).getD i [] = keyAt pk rows i := by
    intro i
    rw [List.getD_eq_getElem?_getD, List.getElem?_map]
    unfold keyAt
    cases rows[i]? <;> rfl
  simp only [hk, List.length_map, List.map_map]
  refine List.map_congr_left fun i _ => ?_
  simp only [Function.comp]
  omega

/-- A row of a temporary table of a compacted table. -/
def withId (id : Int) (r : Row) : Row := (compactCol, .int id) :: r

/-- The rows of the temporary table of `k` if the sample of `k` is `rows`. -/
def addIds (le : List Val → List Val → Bool) (start : Int) (compact : Dict Key (List Str)) (k : Key) (pk : List Str)
    (rows : List Row) : List Row :=
  if (dget compact k).isSome then List.zipWith withId (compactIds le start pk rows) rows else rows

/-- The columns of the temporary table of `k`. -/
def tempCols (compact : Dict Key (List Str)) (k : Key) (t : TableMeta) : List Str :=
  if (dget compact k).isSome then compactCol :: t.columns else t.columns

theorem strip_id {r : Row} {cs : List Str} (h : r.map Prod.fst = cs) (hc : compactCol ∉ cs) : strip r = r := by
  unfold strip
  rw [List.filter_eq_self]
  intro e he
  subst h
  simp only [ne_eq, decide_not, Bool.not_eq_eq_eq_not, Bool.not_true, decide_eq_false_iff_not]
  rintro e1
  exact hc (e1 ▸ List.mem_map_of_mem he)

theorem strip_withId (id : Int) (r : Row) : strip (withId id r) = strip r := by
  unfold strip withId
  rw [List.filter_cons, if_neg (by simp)]

theorem strip_addIds {start : Int} {compact : Dict Key (List Str)} {k : Key} {pk : List Str} {rows : List Row}
    {cs : List Str} (h : ∀ r ∈ rows, r.map Prod.fst = cs) (hc : compactCol ∉ cs) :
    (addIds le start compact k pk rows).map strip = rows := by
  unfold addIds
  split
  · have : ∀ (ids : List Int) (rows : List Row), ids.length = rows.length → (∀ r ∈ rows, r.map Prod.fst = cs) →
        (List.zipWith withId ids rows).map strip = rows := by
      intro ids
      induction ids with
      | nil =>
        intro rows hl _
        cases rows with
        | nil => rfl
        | cons _ _ => cases hl
      | cons id ids ih =>
        intro rows hl h
        cases rows with
        | nil => cases hl
        | cons r rows =>
          rw [List.zipWith_cons_cons, List.map_cons, strip_withId, strip_id (h r List.mem_cons_self) hc,
            ih rows (by simpa using hl) fun x hx => h x (List.mem_cons_of_mem r hx)]
    exact this _ _ compactIds_length h
  · conv => rhs; rw [← List.map_id rows]
    exact List.map_congr_left fun r hr => strip_id (h r hr) hc

theorem addIds_keys {start : Int} {compact : Dict Key (List Str)} {k : Key} {pk : List Str} {rows : List Row}
    {t : TableMeta} (h : ∀ r ∈ rows, r.map Prod.fst = t.columns) :
    ∀ r ∈ addIds le start compact k pk rows, r.map Prod.fst = tempCols compact k t := by
  unfold addIds tempCols
  split
  · intro r hr
    obtain ⟨i, hi, rfl⟩ := List.getElem_of_mem hr
    rw [List.getElem_zipWith]
    unfold withId
    rw [List.map_cons, h _ (List.getElem_mem _)]
  · exact h

/-- The temporary table `x` numberedQuery `i` of `k` holds the sampled rows `rows`. -/
def TempOK (T : Tables) (le : List Val → List Val → Bool) (start : Int) (compact : Dict Key (List Str)) (k : Key) (i : Nat)
    (x : TableObj × List Row) (rows : List Row) : Prop :=
  ∃ t, dget T k = some t ∧
    x.1 = ⟨.temp k i, tempCols compact k t, (tempCols compact k t).filter fun c => decide (c ∈ t.primaryKey)⟩ ∧
    x.2 = addIds le start compact k t.primaryKey rows ∧ ∀ r ∈ rows, r.map Prod.fst = t.columns

/-- The temporary tables `temps'` of the database are the samples `temps`. -/
structure TempsRel (T : Tables) (le : List Val → List Val → Bool) (start : Int) (compact : Dict Key (List Str))
    (temps' : SqlTemps) (temps : Temps) : Prop where
  none_ : ∀ k i, dget temps' (k, i) = none ↔ dget temps (k, i) = none
  some_ : ∀ k i x rows, dget temps' (k, i) = some x → dget temps (k, i) = some rows → TempOK T le start compact k i x rows
  copies : ∀ k i rows, dget temps (k, i) = some rows → dget temps (k, 0) = some rows

variable {T : Tables} {start : Int} {compact : Dict Key (List Str)} {src : Key → List Row} {reopen : Bool}
  {temps' : SqlTemps} {temps : Temps}

theorem TempsRel.get (h : TempsRel T le start compact temps' temps) {k : Key} {i : Nat} {x : TableObj × List Row}
    (hx : dget temps' (k, i) = some x) : ∃ rows, dget temps (k, i) = some rows ∧ TempOK T le start compact k i x rows := by
  cases hr : dget temps (k, i) with
  | none => rw [(h.none_ k i).2 hr] at hx; cases hx
  | some rows => exact ⟨rows, rfl, h.some_ k i x rows hx hr⟩

theorem TempsRel.get' (h : TempsRel T le start compact temps' temps) {k : Key} {i : Nat} {rows : List Row}
    (hr : dget temps (k, i) = some rows) : ∃ x, dget temps' (k, i) = some x ∧ TempOK T le start compact k i x rows := by
  cases hx : dget temps' (k, i) with
  | none => rw [(h.none_ k i).1 hx] at hr; cases hr
  | some x => exact ⟨x, rfl, h.some_ k i x rows hx hr⟩

theorem tempsRel_nil : TempsRel T le start compact [] [] :=
  ⟨fun _ _ => by simp [dget], fun _ _ _ _ h => (nomatch h), fun _ _ _ h => (nomatch h)⟩

/-- What statements see. -/
def sqlEnv (T : Tables) (src : Key → List Row) (temps' : SqlTemps) : Env where
  rows := fun t => if t.sampled then ((dget temps' (t.key, 0)).map Prod.snd).getD [] else src t.key
  pk := fun t =>
    if t.sampled then ((dget temps' (t.key, 0)).map fun x => x.1.primaryKey).getD []
    else ((dget T t.key).map TableMeta.primaryKey).getD []

theorem noCompactCol (hS : SourcePlain T src) : NoCompactCol T := fun k m h => (hS.columns k m h).2.1

theorem tempCols_nodup (hS : SourcePlain T src) {k : Key} {t : TableMeta} (ht : dget T k = some t) :
    (tempCols compact k t).Nodup := by
  unfold tempCols
  obtain ⟨h1, h2, -⟩ := hS.columns k t ht
  split
  · exact List.nodup_cons.2 ⟨h2, h1⟩
  · exact h1

theorem call_sampled {t : TableId} {s s' : BuildState} {o : TableObj} (hs : t.sampled = true)
    (h : (sqlCtx T temps' reopen).call t s = .ok (o, s')) : ∃ i rows, dget temps' (t.key, i) = some (o, rows) := by
  unfold BuildCtx.call at h
  rw [if_pos hs] at h
  dsimp only [sqlCtx] at h
  split at h
  · cases h
  · rename_i o' ho
    cases h
    obtain ⟨x, h1, h2⟩ := Option.map_eq_some_iff.1 ho
    exact ⟨_, x.2, by rw [h1, ← h2]⟩

theorem call_source {X : BuildCtx} {t : TableId} {s s' : BuildState} {o : TableObj} (hs : t.sampled = false)
    (h : X.call t s = .ok (o, s')) : X.source t.key = some o ∧ s' = s := by
  unfold BuildCtx.call at h
  rw [if_neg (by simp [hs])] at h
  split at h
  · cases h
  · rename_i o' ho
    cases h
    exact ⟨ho, rfl⟩

theorem source_some {k : Key} {o : TableObj} (h : sourceObj T k = some o) :
    ∃ t, dget T k = some t ∧ o = ⟨.src k, t.columns, t.primaryKey⟩ := by
  obtain ⟨t, h1, h2⟩ := Option.map_eq_some_iff.1 h
  exact ⟨t, h1, h2.symm⟩

theorem holds (hS : SourcePlain T src) (h : TempsRel T le start compact temps' temps) :
    Holds (sqlCtx T temps' reopen) (sqlRows src temps') (sqlEnv T src temps') := by
  intro t s o s' hc
  cases hs : t.sampled with
  | false =>
    obtain ⟨h1, rfl⟩ := call_source hs hc
    obtain ⟨m, h2, rfl⟩ := source_some h1
    refine ⟨?_, ?_, (hS.columns _ m h2).1, fun r hr => hS.rows _ m h2 r ?_⟩
    · simp [sqlRows, sqlEnv, hs]
    · simp [sqlEnv, hs, h2]
    · simpa [sqlEnv, hs] using hr
  | true =>
    obtain ⟨i, rows', h1⟩ := call_sampled hs hc
    obtain ⟨rows, h2, m, h3, h4, h5, h6⟩ := h.get h1
    dsimp only at h4 h5
    obtain ⟨x, h7, m', h8, h9, h10, -⟩ := h.get' (h.copies _ _ _ h2)
    rw [h3] at h8
    cases h8
    have e : (sqlEnv T src temps').rows t = rows' := by
      simp [sqlEnv, hs, h7, h10, h5]
    rw [e]
    refine ⟨?_, ?_, ?_, fun r hr => ?_⟩
    · rw [h4]
      simp [sqlRows, h1]
    · rw [h4]
      simp [sqlEnv, hs, h7, h9]
    · rw [h4]
      exact tempCols_nodup hS h3
    · rw [h4]
      rw [h5] at hr
      exact addIds_keys h6 r hr

theorem strips (hS : SourcePlain T src) (h : TempsRel T le start compact temps' temps) :
    Strips (sqlEnv T src temps') (execEnv T src temps) := by
  refine ⟨fun t ht => ?_, fun t ht => ?_⟩
  · simp [sqlEnv, execEnv, ht]
  · simp only [sqlEnv, execEnv, ht, if_true]
    cases hr : dget temps (t.key, 0) with
    | none => rw [(h.none_ _ _).2 hr]; rfl
    | some rows =>
      obtain ⟨x, h1, m, h2, -, h3, h4⟩ := h.get' hr
      rw [h1]
      simp only [Option.getD_some, Option.map_some]
      rw [h3, strip_addIds h4 (noCompactCol hS _ m h2)]

theorem covers (h : TempsRel T le start compact temps' temps) : Covers (sqlCtx T temps' reopen) T := by
  intro t s o s' hc c ⟨m, h1, h2⟩
  cases hs : t.sampled with
  | false =>
    obtain ⟨h3, -⟩ := call_source hs hc
    obtain ⟨m', h4, rfl⟩ := source_some h3
    rw [show dget T t.key = some m from h1] at h4
    cases h4
    exact h2
  | true =>
    obtain ⟨i, rows', h3⟩ := call_sampled hs hc
    obtain ⟨rows, -, m', h4, h5, -, -⟩ := h.get h3
    rw [show dget T t.key = some m from h1] at h4
    cases h4
    dsimp only at h5
    rw [h5]
    unfold tempCols
    split
    · exact List.mem_cons_of_mem _ h2
    · exact h2

theorem call_eq {t : TableId} (hs : t.sampled = true) (s : BuildState) :
    (sqlCtx T temps' reopen).call t s =
      match dget temps' (t.key, if reopen then 0 else (dget s.counts t.key).getD 0) with
      | none => .error .keyError
      | some x =>
        .ok (x.1, ⟨if reopen then s.counts else dset s.counts t.key ((dget s.counts t.key).getD 0 + 1), s.fresh⟩) := by
  unfold BuildCtx.call sqlCtx
  rw [if_pos hs]
  cases reopen
  · simp only [Bool.false_eq_true, if_false]
    cases dget temps' (t.key, (dget s.counts t.key).getD 0) <;> rfl
  · simp only [if_true]
    cases dget temps' (t.key, 0) <;> rfl

/-- The context finds a table when the model of it does. -/
theorem counts_context (h : TempsRel T le start compact temps' temps) : ∀ (l : List TableId) (c : Dict Key Nat),
    (countsAfter (sqlCtx T temps' reopen) c l).isSome = (buildContext T temps reopen c l).isSome
  | [], c => rfl
  | t :: l, c => by
    rw [countsAfter, buildContext]
    cases hs : t.sampled with
    | false =>
      unfold BuildCtx.call
      simp only [hs, Bool.false_eq_true, if_false]
      dsimp only [sqlCtx, sourceObj]
      cases dget T t.key with
      | none => rfl
      | some m =>
        dsimp only [Option.map_some]
        rw [Option.isSome_map]
        exact counts_context h l c
    | true =>
      rw [call_eq hs]
      simp only [if_true]
      cases hr : dget temps (t.key, if reopen then 0 else (dget c t.key).getD 0) with
      | none =>
        rw [(h.none_ _ _).2 hr]
        rfl
      | some rows =>
        obtain ⟨x, h1, -⟩ := h.get' hr
        rw [h1]
        dsimp only [Option.map_some]
        rw [Option.isSome_map]
        have e : (if reopen = true then c else dset c t.key ((if reopen = true then 0 else (dget c t.key).getD 0) + 1)) =
            if reopen = true then c else dset c t.key ((dget c t.key).getD 0 + 1) := by
          by_cases hre : reopen = true <;> simp [hre]
        rw [e]
        exact counts_context h l _

theorem sel_own {k : Key} : ∀ {x : Sel}, OwnRows k x → ∀ (D : Env), ∀ r ∈ Sel.eval E D x, r ∈ D.rows ⟨k.1, k.2, false⟩
  | .mk cols t w limit joins outer tag, h, D, r, hr => by
    obtain ⟨h1, rfl⟩ := h
    have hp : project cols = id := by
      funext r
      rcases h1 with rfl | rfl <;> rfl
    have hl : ∀ {l : List Row}, r ∈ applyLimit E ⟨k.1, k.2, false⟩ tag limit l → r ∈ l := by
      intro l hl
      cases limit with
      | none => exact hl
      | some n => exact (E.shuffle_perm _ _ _).mem_iff.1 (List.mem_of_mem_take hl)
    cases w with
    | none =>
      simp only [Sel.eval, hp, List.map_id] at hr
      exact fromWhere_mem (hl hr)
    | some w =>
      simp only [Sel.eval, hp, List.map_id] at hr
      exact fromWhere_mem (hl hr)

theorem sels_own {k : Key} {D : Env} : ∀ {xs : List Sel}, (∀ x ∈ xs, OwnRows k x) → ∀ l ∈ Sel.evals E D xs, ∀ r ∈ l,
    r ∈ D.rows ⟨k.1, k.2, false⟩
  | [], _, l, hl => by simp [Sel.evals] at hl
  | x :: xs, h, l, hl => by
    simp only [Sel.evals, List.mem_cons] at hl
    rcases hl with rfl | hl
    · exact sel_own (h x List.mem_cons_self) D
    · exact sels_own (fun y hy => h y (List.mem_cons_of_mem x hy)) l hl

/-- Statements that return whole rows return rows of the source. -/
theorem stmt_own {k : Key} {st : Stmt} (h : WholeRows k st) (D : Env) : ∀ r ∈ Stmt.eval E D st, r ∈ D.rows ⟨k.1, k.2, false⟩ := by
  cases st with
  | select x =>
    simp only [Stmt.eval]
    exact sel_own h D
  | union xs =>
    intro r hr
    simp only [Stmt.eval, List.mem_dedup, List.mem_flatten] at hr
    obtain ⟨l, hl, hr⟩ := hr
    exact sels_own h.2 l hl r hr

theorem sel_columns {X : BuildCtx} {k : Key} {t : TableMeta} (hX : X.source k = some ⟨.src k, t.columns, t.primaryKey⟩) :
    ∀ {x : Sel} {s s' : BuildState} {q : Query}, OwnRows k x → Sel.build X x s = .ok (q, s') →
      ∃ items f cs g l, q = .select items f cs g l ∧ items.map Item.label = t.columns
  | .mk cols i w limit joins outer tag, s, s', q, h, hb => by
    obtain ⟨h1, rfl⟩ := h
    have hitems : ∀ {o : TableObj} {s1 : BuildState} {items : List Item}, X.call ⟨k.1, k.2, false⟩ s = .ok (o, s1) →
        buildItems o cols = .ok items → items.map Item.label = t.columns := by
      intro o s1 items ho hi
      obtain ⟨h2, -⟩ := call_source rfl ho
      rw [show (⟨k.1, k.2, false⟩ : TableId).key = k from rfl, hX] at h2
      cases h2
      obtain ⟨cs, rfl, ⟨-, rfl⟩ | ⟨rfl, h3⟩⟩ := items_ok hi
      · rw [List.map_map]
        exact List.map_id _
      · rcases h1 with h1 | h1
        · cases h1
        · cases h1
          exact absurd rfl h3
    cases w with
    | none =>
      simp only [Sel.build] at hb
      split at hb
      · cases hb
      · rename_i o s1 ho
        split at hb
        · cases hb
        · rename_i items hi
          split at hb
          · cases hb
          · cases hb
            exact ⟨_, _, _, _, _, rfl, hitems ho hi⟩
    | some w =>
      simp only [Sel.build] at hb
      split at hb
      · cases hb
      · rename_i o s1 ho
        split at hb
        · cases hb
        · rename_i items hi
          split at hb
          · cases hb
          · split at hb
            · cases hb
            · cases hb
              exact ⟨_, _, _, _, _, rfl, hitems ho hi⟩

theorem stmt_columns {X : BuildCtx} {k : Key} {t : TableMeta} (hX : X.source k = some ⟨.src k, t.columns, t.primaryKey⟩)
    {st : Stmt} {s s' : BuildState} {q : Query} (h : WholeRows k st) (hb : Stmt.build X st s = .ok (q, s')) :
    q.columns = some t.columns := by
  cases st with
  | select x =>
    simp only [Stmt.build] at hb
    obtain ⟨items, f, cs, g, l, rfl, e⟩ := sel_columns hX h hb
    simp only [Query.columns, e]
  | union xs =>
    simp only [Stmt.build] at hb
    split at hb
    · cases hb
    · rename_i l s1 hl
      cases hb
      cases xs with
      | nil => exact absurd rfl h.1
      | cons x xs =>
        simp only [Sel.builds] at hl
        split at hl
        · cases hl
        · rename_i q0 s2 hq
          split at hl
          · cases hl
          · cases hl
            obtain ⟨items, f, cs, g, l, rfl, e⟩ := sel_columns hX (h.2 x List.mem_cons_self) hq
            simp only [Query.columns, e]

/-- A query of a plain plan: it is built if all tables are found, and the statement returns what the plan says. -/
theorem query_built (hS : SourcePlain T src) (h : TempsRel T le start compact temps' temps) {k : Key} {q : TableQuery}
    (hq : QueryPlain T k q) {t : TableMeta} (ht : dget T k = some t) :
    ((∃ e, q.build (sqlCtx T temps' reopen) = .error e) ∧ countsAfter (sqlCtx T temps' reopen) [] q.refs = none ∧
      buildContext T temps reopen [] q.refs = none) ∨
    ∃ Q s, q.build (sqlCtx T temps' reopen) = .ok (Q, s) ∧ countsAfter (sqlCtx T temps' reopen) [] q.refs = some s.counts ∧
      (buildContext T temps reopen [] q.refs).isSome ∧
      Query.eval E le (sqlRows src temps') [] Q = q.eval E (execEnv T src temps) ∧ Q.columns = some t.columns ∧
      ∀ r ∈ q.eval E (execEnv T src temps), r.map Prod.fst = t.columns := by
  obtain ⟨st, rfl, h1, h2, h3⟩ := hq
  have hy := stmt_yields (covers (reopen := reopen) h) st ⟨[], 0⟩ h1
  have hc := counts_context (reopen := reopen) h st.refs []
  simp only [TableQuery.build, TableQuery.refs, TableQuery.eval]
  cases e : countsAfter (sqlCtx T temps' reopen) [] st.refs with
  | none =>
    rw [e] at hy hc
    refine .inl ⟨hy, rfl, ?_⟩
    cases hb : buildContext T temps reopen [] st.refs with
    | none => rfl
    | some _ => rw [hb] at hc; cases hc
  | some c =>
    rw [e] at hy hc
    obtain ⟨Q, f, hb⟩ := hy
    refine .inr ⟨Q, ⟨c, f⟩, hb, rfl, hc.symm, ?_, ?_, fun r hr => ?_⟩
    · rw [stmt_ok (E := E) (le := le) (holds hS h) hb h2 [], stmt_strip E (strips hS h) (noCompactCol hS) st h1]
    · refine stmt_columns (t := t) ?_ h3 hb
      simp [sqlCtx, sourceObj, ht]
    · exact hS.rows k t ht r (stmt_own h3 _ r hr)

/-- Results that are the same error or related values. -/
def Same {α β : Type} (P : α → β → Prop) : Except ExecErr α → Except ExecErr β → Prop
  | .error e, .error e' => e = e'
  | .ok a, .ok b => P a b
  | _, _ => False

theorem eval_plain {items : List Item} {f : From} (s : Scope) :
    Query.eval E le R s (.select items f [] none none) = selectItems le (From.eval E le R f) items := by
  rw [Query.eval.eq_def]
  dsimp only
  have : ∀ l : List (Scope × Nat), (l.filter fun b => all3 (Cond.evals E le R b.2 (b.1 ++ s) []) == some true) = l := by
    intro l
    rw [List.filter_eq_self]
    intro b _
    simp [Cond.evals, all3]
  rw [this, List.zipIdx_map_fst]
  rfl

/-- The statement with new identifiers. -/
theorem numbered_eval {pk : List Str} {Q : Query} {n : Nat} {cs : List Str} (hQ : Q.columns = some cs) (hnd : cs.Nodup)
    (hr : ∀ r ∈ Query.eval E le R [] Q, r.map Prod.fst = cs) (hpk : ∀ c ∈ pk, c ∈ cs) :
    ∃ Q', numberedQuery start pk Q n = .ok Q' ∧ Q'.columns = some (compactCol :: cs) ∧
      Query.eval E le R [] Q' = List.zipWith withId (compactIds le start pk (Query.eval E le R [] Q)) (Query.eval E le R [] Q) := by
  unfold numberedQuery
  rw [hQ]
  dsimp only
  rw [if_pos (by rw [List.all_eq_true]; intro c hc; simpa using hpk c hc)]
  refine ⟨_, rfl, ?_, ?_⟩
  · simp only [Query.columns, List.map_cons, List.map_map]
    congr 1
    congr 1
    exact List.map_id _
  · rw [eval_plain, selectItems_values (order := pk.map fun c => ⟨.alias n, c⟩)]
    · rw [From.eval]
      generalize hrows : Query.eval E le R [] Q = rows
      rw [hrows] at hr
      rw [ids_eq]
      have hkeys : ((rows.map fun r => ([(Name.alias n, r)] : Scope)).map fun s => (pk.map fun c => (⟨.alias n, c⟩ : Col)).map (Scope.get s))
          = rows.map fun r => pk.map r.get := by
        rw [List.map_map]
        refine List.map_congr_left fun r _ => ?_
        simp only [Function.comp, List.map_map]
        refine List.map_congr_left fun c _ => ?_
        simp [Scope.get, Scope.row, dget]
      rw [hkeys]
      generalize rowNumbers le (rows.map fun r => pk.map r.get) = nums
      rw [List.zip_map_left, List.map_map, List.zipWith_map_left, List.zip_eq_zipWith, List.map_zipWith, List.zipWith_comm]
      have : ∀ (nums : List Int) (rows : List Row), (∀ r ∈ rows, r.map Prod.fst = cs) →
          List.zipWith (fun (b : Int) (a : Row) => ((fun (e : Scope × Int) =>
            ((idItem start pk n compactCol :: cs.map fun c => Item.col ⟨.alias n, c⟩ c).map fun x => (x.label, x.value e))) ∘
              Prod.map (fun r => ([(Name.alias n, r)] : Scope)) id) (a, b)) nums rows =
          List.zipWith (fun n b => withId (n + (start - 1)) b) nums rows := by
        intro nums
        induction nums with
        | nil => intro rows _; rfl
        | cons m nums ih =>
          intro rows hr
          cases rows with
          | nil => rfl
          | cons r rows =>
            rw [List.zipWith_cons_cons, List.zipWith_cons_cons, ih rows fun x hx => hr x (List.mem_cons_of_mem r hx)]
            congr 1
            simp only [Function.comp, List.map_cons, List.map_map, Prod.map, id]
            unfold withId idItem
            refine congrArg₂ List.cons rfl ?_
            conv => rhs; rw [← row_of_columns (hr r List.mem_cons_self) hnd]
            refine List.map_congr_left fun c _ => ?_
            simp [Function.comp, Item.label, Item.value, Scope.get, Scope.row, dget]
      exact this nums rows hr
    · intro x hx
      rcases List.mem_cons.1 hx with rfl | hx
      · exact .inr ⟨_, _, rfl⟩
      · obtain ⟨c, -, rfl⟩ := List.mem_map.1 hx
        exact .inl ⟨_, _, rfl⟩

/-- `table.select()` returns the rows of the table. -/
theorem select_eval {o : TableObj} (hnd : o.columns.Nodup) (hr : ∀ r ∈ R o.obj, r.map Prod.fst = o.columns) :
    Query.eval E le R [] o.select = R o.obj ∧ o.select.columns = some o.columns := by
  constructor
  · unfold TableObj.select
    rw [eval_plain]
    have : (o.columns.map fun c => Item.col ⟨.obj o.obj, c⟩ c) =
        (o.columns.map fun c => ((⟨.obj o.obj, c⟩ : Col), c)).map fun x => .col x.1 x.2 := by
      rw [List.map_map]; rfl
    rw [this, selectItems_cols, From.eval, List.map_map]
    conv => rhs; rw [← List.map_id (R o.obj)]
    refine List.map_congr_left fun r h => ?_
    simp only [Function.comp, List.map_map, id]
    conv => rhs; rw [← row_of_columns (hr r h) hnd]
    refine List.map_congr_left fun c _ => ?_
    simp [Scope.get, Scope.row, dget]
  · simp only [TableObj.select, Query.columns, List.map_map]
    congr 1
    exact List.map_id _

end Subsetter
