import Verif.Proofs.Blank
import Verif.Proofs.PlanRefs

/- Execution on a source with some columns blanked. -/
namespace Subsetter
open Spec

/-- What must hold of plan, tables and source so that hidden columns play no role. -/
structure BlindPlan (E : Engine) (hid : Key → List Str) (T : Tables) (src : Key → List Row) (p : Plan) : Prop where
  query : ∀ n q, (n, q) ∈ p.queries → ∃ k, parseTableName n = some k ∧ ∃ st, q = .statement st ∧
    StmtOf k (JBlind hid k) (WBlind E ⟨k.1, k.2, false⟩ (hid k)) st
  nodot : ∀ k t, dget T k = some t → '.' ∉ k.1
  pk : ∀ k t, dget T k = some t → ∀ c ∈ t.primaryKey, c ∉ hid k
  fk : ∀ k t, dget T k = some t → ∀ fk ∈ t.foreignKeys, (∀ c ∈ fk.columns, c ∉ hid k) ∧ ∀ c ∈ fk.dstColumns, c ∉ hid fk.dst
  inj : ∀ n ∈ dkeys p.queries, ∀ k, parseTableName n = some k → ∀ a ∈ src k, ∀ b ∈ src k,
    blank (hid k) a = blank (hid k) b → a = b

/-- The source with hidden columns blanked. -/
def blankSrc (hid : Key → List Str) (src : Key → List Row) : Key → List Row := fun k => (src k).map (blank (hid k))

/-- The temporary tables with hidden columns blanked. -/
def blankTemps (hid : Key → List Str) (temps : Temps) : Temps := temps.map fun e => (e.1, e.2.map (blank (hid e.1.1)))

variable {E : Engine} {cfg : PlannerConfig} {hid : Key → List Str} {T : Tables} {src : Key → List Row} {p : Plan}

theorem dget_blankTemps (x : Key × Nat) : ∀ temps : Temps,
    dget (blankTemps hid temps) x = (dget temps x).map fun l => l.map (blank (hid x.1))
  | [] => rfl
  | (y, l) :: temps => by
    have ih := dget_blankTemps x temps
    unfold blankTemps at ih ⊢
    simp only [List.map_cons, dget]
    split
    · rename_i h; subst h; rfl
    · exact ih

theorem dset_blankTemps (x : Key × Nat) (rows : List Row) : ∀ temps : Temps,
    dset (blankTemps hid temps) x (rows.map (blank (hid x.1))) = blankTemps hid (dset temps x rows)
  | [] => rfl
  | (y, l) :: temps => by
    have ih := dset_blankTemps x rows temps
    unfold blankTemps at ih ⊢
    simp only [List.map_cons, dset]
    split
    · rfl
    · rw [List.map_cons, ih]

theorem addCopies_blank (k : Key) (rows : List Row) : ∀ (is : List Nat) (temps : Temps),
    addCopies (blankTemps hid temps) k (rows.map (blank (hid k))) is = blankTemps hid (addCopies temps k rows is)
  | [], _ => rfl
  | i :: is, temps => by
    simp only [addCopies]
    have := dset_blankTemps (hid := hid) (k, i) rows temps
    dsimp only at this
    rw [this, addCopies_blank k rows is]

theorem buildContext_blank (temps : Temps) (reopen : Bool) : ∀ (ts : List TableId) (counts : Dict Key Nat),
    buildContext T (blankTemps hid temps) reopen counts ts = buildContext T temps reopen counts ts
  | [], _ => rfl
  | t :: ts, counts => by
    simp only [buildContext]
    split
    · rw [dget_blankTemps]
      generalize (if reopen = true then counts else _) = c'
      generalize dget temps _ = d
      cases d with
      | none => rfl
      | some d => simp only [Option.map_some]; rw [buildContext_blank temps reopen ts]
    · cases dget T t.key with
      | none => rfl
      | some m => simp only; rw [buildContext_blank temps reopen ts]

theorem execEnv_blank (temps : Temps) :
    Blanked hid (execEnv T src temps) (execEnv T (blankSrc hid src) (blankTemps hid temps)) := by
  refine ⟨fun t => ?_, fun _ => rfl⟩
  simp only [execEnv]
  split
  · rw [dget_blankTemps]
    cases dget temps (t.key, 0) <;> rfl
  · rfl

/-- Rows of a result with hidden columns blanked. -/
def blankRes (h : List Str) : Except ExecErr (List Row) → Except ExecErr (List Row)
  | .error e => .error e
  | .ok rows => .ok (rows.map (blank h))

theorem runQuery_blank (hE : Blind E cfg hid) (hp : BlindPlan E hid T src p) {n : Str} {q : TableQuery} (hq : (n, q) ∈ p.queries)
    {k : Key} (hk : parseTableName n = some k) (reopen : Bool) (temps : Temps) :
    runQuery E T (blankSrc hid src) reopen (blankTemps hid temps) q = blankRes (hid k) (runQuery E T src reopen temps q) := by
  obtain ⟨k', h1, st, rfl, h2⟩ := hp.query n q hq
  rw [hk] at h1
  cases h1
  unfold runQuery
  rw [buildContext_blank]
  cases buildContext T temps reopen [] (TableQuery.statement st).refs with
  | none => rfl
  | some _ =>
    simp only [blankRes, TableQuery.eval]
    congr 1
    refine stmtOf_blank hE (execEnv_blank temps) ?_ ?_ h2
    · intro c hc
      simp only [execEnv] at hc
      cases ht : dget T k with
      | none =>
        rw [show TableId.key ⟨k.1, k.2, false⟩ = k from rfl, ht] at hc
        cases hc
      | some t =>
        rw [show TableId.key ⟨k.1, k.2, false⟩ = k from rfl, ht] at hc
        exact hp.pk k t ht c hc
    · exact hp.inj n (List.mem_map_of_mem (f := Prod.fst) hq) k hk

theorem materialize_blank (hE : Blind E cfg hid) (hp : BlindPlan E hid T src p) (reopen : Bool) : ∀ (order : List (Key × Nat)) (temps : Temps),
    materialize E T (blankSrc hid src) reopen p order (blankTemps hid temps) =
      match materialize E T src reopen p order temps with
      | .error e => .error e
      | .ok temps' => .ok (blankTemps hid temps')
  | [], _ => rfl
  | (k, n) :: order, temps => by
    simp only [materialize]
    cases ht : dget T k with
    | none => rfl
    | some t =>
      simp only
      cases hq : dget p.queries k.str with
      | none => rfl
      | some q =>
        simp only
        rw [runQuery_blank hE hp (dget_some_mem hq) (parse_of_nodot (hp.nodot k t ht))]
        cases runQuery E T src reopen temps q with
        | error e => rfl
        | ok rows =>
          simp only [blankRes]
          have h1 := dset_blankTemps (hid := hid) (k, 0) rows temps
          dsimp only at h1
          rw [h1]
          cases reopen with
          | true => exact materialize_blank hE hp true order _
          | false =>
            simp only [Bool.false_eq_true, if_false]
            rw [addCopies_blank]
            exact materialize_blank hE hp false order _

theorem sampleRows_blank (hE : Blind E cfg hid) (hp : BlindPlan E hid T src p) {n : Str} {q : TableQuery} (hq : (n, q) ∈ p.queries)
    {k : Key} (hk : parseTableName n = some k) (reopen : Bool) (temps : Temps) :
    sampleRows E T (blankSrc hid src) reopen (blankTemps hid temps) k q = blankRes (hid k) (sampleRows E T src reopen temps k q) := by
  unfold sampleRows
  rw [dget_blankTemps]
  cases dget temps (k, 0) with
  | none => exact runQuery_blank hE hp hq hk reopen temps
  | some rows => rfl

theorem keyAt_blank {pk h : List Str} (hpk : ∀ c ∈ pk, c ∉ h) (rows : List Row) (i : Nat) :
    keyAt pk (rows.map (blank h)) i = keyAt pk rows i := by
  unfold keyAt
  rw [List.getElem?_map]
  cases rows[i]? with
  | none => rfl
  | some r => exact map_get_blank hpk r

theorem compactIds_blank {le : List Val → List Val → Bool} {start : Int} {pk h : List Str} (hpk : ∀ c ∈ pk, c ∉ h) (rows : List Row) :
    compactIds le start pk (rows.map (blank h)) = compactIds le start pk rows := by
  have : sortedPositions le pk (rows.map (blank h)) = sortedPositions le pk rows := by
    unfold sortedPositions
    rw [List.length_map]
    simp only [keyAt_blank hpk]
  unfold compactIds
  rw [List.length_map, this]

theorem zip_blank {ids : List Int} {rows : List Row} {h : List Str} :
    ids.zip (rows.map (blank h)) = (ids.zip rows).map fun e => (e.1, blank h e.2) := by
  rw [List.zip_map_right]
  rfl

theorem tempIds_blank (hp : BlindPlan E hid T src p) {le : List Val → List Val → Bool} {start : Int} (temps : Temps) (k : Key) :
    tempIds T le start (blankTemps hid temps) k = (tempIds T le start temps k).map fun e => (e.1, blank (hid k) e.2) := by
  unfold tempIds
  have h1 : (dget (blankTemps hid temps) (k, 0)).getD [] = ((dget temps (k, 0)).getD []).map (blank (hid k)) := by
    rw [dget_blankTemps]
    cases dget temps (k, 0) <;> rfl
  simp only [h1]
  rw [compactIds_blank, zip_blank]
  intro c hc
  cases ht : dget T k with
  | none => rw [ht] at hc; cases hc
  | some t => rw [ht] at hc; exact hp.pk k t ht c hc

/-- Compacted columns that are looked up are columns of foreign keys. -/
theorem remoteCols_mem {compact : Dict Key (List Str)} {fks : List ForeignKey} {c : Str} {x : Key × Str}
    (h : dget (remoteCols compact fks) c = some x) : ∃ fk ∈ fks, c ∈ fk.columns ∧ x.1 = fk.dst ∧ x.2 ∈ fk.dstColumns := by
  have inner : ∀ (fk : ForeignKey) (l : List (Str × Str)) (d : Dict Str (Key × Str)),
      (∀ e ∈ l, e.1 ∈ fk.columns ∧ e.2 ∈ fk.dstColumns) →
      dget (l.foldl (fun d e => if e.2 ∈ (dget compact fk.dst).getD [] then dset d e.1 (fk.dst, e.2) else d) d) c = some x →
      dget d c = some x ∨ (c ∈ fk.columns ∧ x.1 = fk.dst ∧ x.2 ∈ fk.dstColumns) := by
    intro fk l
    induction l with
    | nil => intro d _ h; exact .inl h
    | cons e l ih =>
      intro d hl h
      rw [List.foldl_cons] at h
      rcases ih _ (fun e he => hl e (.tail _ he)) h with h | h
      · split at h
        · rw [dget_dset] at h
          split at h
          · rename_i hc
            cases h
            exact .inr ⟨hc ▸ (hl e (.head _)).1, rfl, (hl e (.head _)).2⟩
          · exact .inl h
        · exact .inl h
      · exact .inr h
  have outer : ∀ (fks : List ForeignKey) (d : Dict Str (Key × Str)),
      dget (fks.foldl (fun d fk => (fk.columns.zip fk.dstColumns).foldl (fun d e =>
        if e.2 ∈ (dget compact fk.dst).getD [] then dset d e.1 (fk.dst, e.2) else d) d) d) c = some x →
      dget d c = some x ∨ ∃ fk ∈ fks, c ∈ fk.columns ∧ x.1 = fk.dst ∧ x.2 ∈ fk.dstColumns := by
    intro fks
    induction fks with
    | nil => intro d h; exact .inl h
    | cons fk fks ih =>
      intro d h
      rw [List.foldl_cons] at h
      rcases ih _ h with h | ⟨f, h1, h2⟩
      · rcases inner fk _ d (fun e he => List.of_mem_zip he) h with h | h
        · exact .inl h
        · exact .inr ⟨fk, .head _, h⟩
      · exact .inr ⟨f, .tail _ h1, h2⟩
  rcases outer fks [] h with h | h
  · cases h
  · exact h

theorem lookups_blind (hp : BlindPlan E hid T src p) {compact : Dict Key (List Str)} {k : Key} {t : TableMeta} (ht : dget T k = some t)
    {x : Str × Key × Str} (hx : x ∈ lookups compact k t) : x.1 ∉ hid k ∧ x.2.2 ∉ hid x.2.1 := by
  unfold lookups at hx
  obtain ⟨c, -, h⟩ := List.mem_filterMap.1 hx
  split at h
  · cases h
  · obtain ⟨y, h1, rfl⟩ := Option.map_eq_some_iff.1 h
    obtain ⟨fk, h2, h3, h4, h5⟩ := remoteCols_mem h1
    obtain ⟨f1, f2⟩ := hp.fk k t ht fk h2
    exact ⟨f1 c h3, by rw [h4]; exact f2 _ h5⟩

theorem lookupIds_blank {idsOf idsOf' : Key → List (Int × Row)} (hi : ∀ k, idsOf' k = (idsOf k).map fun e => (e.1, blank (hid k) e.2))
    {x : Key × Str} (hx : x.2 ∉ hid x.1) (v : Val) : lookupIds idsOf' x v = lookupIds idsOf x v := by
  unfold lookupIds
  rw [hi, List.filterMap_map]
  have : ((fun e : Int × Row => if v ≠ .null ∧ v = e.2.get x.2 then some (Val.int e.1) else none) ∘
      fun e : Int × Row => (e.1, blank (hid x.1) e.2)) = fun e : Int × Row => if v ≠ .null ∧ v = e.2.get x.2 then some (Val.int e.1) else none := by
    funext e
    simp only [Function.comp]
    rw [get_blank hx]
  rw [this]

theorem lookupAll_blank {idsOf idsOf' : Key → List (Int × Row)} (hi : ∀ k, idsOf' k = (idsOf k).map fun e => (e.1, blank (hid k) e.2))
    {k : Key} (r : Row) : ∀ {xs : List (Str × Key × Str)}, (∀ x ∈ xs, x.1 ∉ hid k ∧ x.2.2 ∉ hid x.2.1) →
    lookupAll idsOf' (blank (hid k) r) xs = lookupAll idsOf r xs
  | [], _ => rfl
  | x :: xs, h => by
    simp only [lookupAll]
    rw [get_blank (h x (.head _)).1, lookupIds_blank hi (h x (.head _)).2,
      lookupAll_blank hi r fun y hy => h y (.tail _ hy)]

theorem compactRow_blank (h localCols columns : List Str) (r : Row) (id : Int) (found : Dict Str Val) :
    blank h (compactRow localCols columns (blank h r) id found) = blank h (compactRow localCols columns r id found) := by
  unfold compactRow
  unfold blank
  rw [List.map_map, List.map_map]
  refine List.map_congr_left fun c _ => ?_
  simp only [Function.comp]
  by_cases hc : c ∈ h
  · rw [if_pos hc, if_pos hc]
  · rw [if_neg hc, if_neg hc, show (List.map (fun e : Str × Val => if e.1 ∈ h then (e.1, Val.null) else e) r) = blank h r from rfl, get_blank hc]

/-- The rows copied are the same up to hidden columns. -/
theorem copyRows_blank (hE : Blind E cfg hid) (hp : BlindPlan E hid T src p) {n : Str} {q : TableQuery} (hq : (n, q) ∈ p.queries)
    {k : Key} (hk : parseTableName n = some k) {le : List Val → List Val → Bool} {start : Int} {compact : Dict Key (List Str)}
    (reopen : Bool) (temps : Temps) :
    blankRes (hid k) (copyRows E T le start compact (blankSrc hid src) reopen (blankTemps hid temps) k q) =
      blankRes (hid k) (copyRows E T le start compact src reopen temps k q) := by
  unfold copyRows
  rw [sampleRows_blank hE hp hq hk]
  cases sampleRows E T src reopen temps k q with
  | error e => rfl
  | ok rows =>
    simp only [blankRes]
    cases ht : dget T k with
    | none => rfl
    | some t =>
      simp only
      by_cases hc : remoteCols compact t.foreignKeys = [] ∧ (dget compact k).getD [] = []
      · rw [if_pos hc, if_pos hc]
        simp only
        rw [map_blank_blank]
      · rw [if_neg hc, if_neg hc]
        have hr : copyRefs compact (blankTemps hid temps) k t q = copyRefs compact temps k t q := by
          unfold copyRefs
          rw [dget_blankTemps]
          cases dget temps (k, 0) <;> rfl
        rw [hr, buildContext_blank]
        cases buildContext T temps reopen [] (copyRefs compact temps k t q) with
        | none => rfl
        | some _ =>
          simp only
          rw [compactIds_blank (hp.pk k t ht), zip_blank, List.flatMap_map, List.map_flatMap, List.map_flatMap]
          congr 1
          refine congrArg (fun f => List.flatMap f _) (funext fun e => ?_)
          rw [lookupAll_blank (fun k => tempIds_blank hp temps k) e.2 (fun x hx => lookups_blind hp ht hx), List.map_map, List.map_map]
          exact List.map_congr_left fun d _ => compactRow_blank _ _ _ _ _ _

end Subsetter
