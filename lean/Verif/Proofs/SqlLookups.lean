import Verif.Proofs.SqlMaterialize

/- The statements that copy a table look identifiers up. -/
namespace Subsetter
open Spec

variable {E : Engine} {le : List Val → List Val → Bool} {R : SqlObj → List Row} {T : Tables} {start : Int}
  {compact : Dict Key (List Str)} {src : Key → List Row} {reopen : Bool} {temps' : SqlTemps} {temps : Temps}

/-- A join made to look up an identifier: the column, the name of the joined table, the table and its column. -/
structure Look where
  col : Str
  name : Name
  obj : SqlObj
  dst : Str

/-- The rows found by one join. -/
def Look.found (R : SqlObj → List Row) (n : Nat) (e : Look) (b : Scope) : List Row :=
  let ms := (R e.obj).filter fun m => eq3 ((b.row (.alias n)).get e.col) (m.get e.dst) == some true
  if ms.isEmpty then [[]] else ms

/-- The scopes made by the joins from one scope. -/
def lookScopes (R : SqlObj → List Row) (n : Nat) : List Look → Scope → List Scope
  | [], b => [b]
  | e :: es, b => (e.found R n b).flatMap fun m => lookScopes R n es ((e.name, m) :: b)

theorem lookScopes_row {n : Nat} {nm : Name} : ∀ {es : List Look} {b S : Scope}, S ∈ lookScopes R n es b →
    (∀ e ∈ es, e.name ≠ nm) → S.row nm = b.row nm
  | [], b, S, h, _ => by rw [List.mem_singleton.1 h]
  | e :: es, b, S, h, hn => by
    rw [lookScopes, List.mem_flatMap] at h
    obtain ⟨m, -, h⟩ := h
    rw [lookScopes_row h fun x hx => hn x (List.mem_cons_of_mem e hx), row_cons_ne (hn e List.mem_cons_self)]

/-- One join of the FROM clause. -/
theorem join_eval {f : From} {e : Look} {n : Nat} (hne : e.name ≠ .alias n) :
    From.eval E le R (.join f e.obj e.name [(⟨.alias n, e.col⟩, ⟨e.name, e.dst⟩)] true) =
      (From.eval E le R f).flatMap fun b => (e.found R n b).map fun m => (e.name, m) :: b := by
  rw [From.eval]
  refine List.flatMap_congr fun b _ => ?_
  have : ((R e.obj).filter fun r => all3 ([((⟨.alias n, e.col⟩ : Col), (⟨e.name, e.dst⟩ : Col))].map fun x =>
      eq3 (Scope.get ((e.name, r) :: b) x.1) (Scope.get ((e.name, r) :: b) x.2)) == some true) =
      (R e.obj).filter fun m => eq3 ((Scope.row b (.alias n)).get e.col) (m.get e.dst) == some true := by
    refine List.filter_congr fun r _ => ?_
    simp only [List.map_cons, List.map_nil, Scope.get, row_cons_self, row_cons_ne hne]
    rcases eq3 ((Scope.row b (.alias n)).get e.col) (r.get e.dst) with _ | _ | _ <;> rfl
  dsimp only
  rw [this]
  unfold Look.found
  dsimp only
  rw [Bool.true_and]
  split <;> rfl

/-- The identifiers found by a join with the temporary table of a compacted table. -/
theorem found_ids {n i : Nat} {kd : Key} {d : Str} {o : TableObj} {rows' : List Row} {b : Scope} {v : Val} {e : Look}
    (h : TempsRel T le start compact temps' temps) (ho : dget temps' (kd, i) = some (o, rows'))
    (hc : (dget compact kd).isSome) (hd : d ≠ compactCol) (he : e.obj = .temp kd i ∧ e.dst = d)
    (hb : (b.row (.alias n)).get e.col = v) :
    (e.found (sqlRows src temps') n b).map (fun m => m.get compactCol) = lookupIds (tempIds T le start temps) (kd, d) v := by
  obtain ⟨rows, h1, t, h2, h3, h4, h5⟩ := h.get ho
  have h0 := h.copies _ _ _ h1
  have hR : sqlRows src temps' e.obj = List.zipWith withId (compactIds le start t.primaryKey rows) rows := by
    rw [he.1]
    dsimp only at h4
    simp only [sqlRows, ho, Option.map_some, Option.getD_some, h4, addIds, hc, if_true]
  unfold Look.found lookupIds tempIds
  rw [hR, hb, he.2, h0, h2]
  dsimp only [Option.getD_some, Option.map_some]
  generalize compactIds le start t.primaryKey rows = ids
  have key : ∀ (ids : List Int) (rows : List Row),
      ((List.zipWith withId ids rows).filter fun m => eq3 v (m.get d) == some true).map (fun m => m.get compactCol) =
        (ids.zip rows).filterMap fun e => if v ≠ .null ∧ v = e.2.get d then some (Val.int e.1) else none := by
    intro ids
    induction ids with
    | nil => intro rows; rfl
    | cons id ids ih =>
      intro rows
      cases rows with
      | nil => rfl
      | cons r rows =>
        have hg : (withId id r).get d = r.get d := by
          unfold withId Row.get
          rw [dget, if_neg (Ne.symm hd)]
        have hg2 : (withId id r).get compactCol = .int id := by
          unfold withId Row.get
          rw [dget, if_pos rfl]
          rfl
        rw [List.zipWith_cons_cons, List.zip_cons_cons, List.filter_cons, List.filterMap_cons, hg]
        dsimp only
        by_cases hv : v ≠ .null ∧ v = r.get d
        · rw [if_pos, List.map_cons, ih, hg2, if_pos hv]
          unfold eq3
          rw [← hv.2, if_neg (by simp [hv.1])]
          simp
        · rw [if_neg, ih, if_neg hv]
          unfold eq3
          split
          · simp
          · rename_i hn
            rw [not_or] at hn
            simp only [beq_iff_eq, Option.some.injEq, decide_eq_true_eq]
            exact fun e => hv ⟨hn.1, e⟩
  have k := key ids rows
  generalize ((List.zipWith withId ids rows).filter fun m => eq3 v (m.get d) == some true) = ms at k ⊢
  rw [← k]
  cases ms with
  | nil => rfl
  | cons m ms => rfl

/-- The joins made for columns `cs`. -/
def looksOf (localCols : List Str) (remote : Dict Str (Key × Str)) (cs : List Str) : List (Str × Key × Str) :=
  cs.filterMap fun c => if c ∈ localCols then none else (dget remote c).map fun x => (c, x)

/-- The copied columns `cs` of a row, given what was looked up; `own` is the value of compacted columns. -/
def outCols (localCols cs : List Str) (r : Row) (own : Val) (found : Dict Str Val) : Row :=
  cs.map fun c => (c, if c ∈ localCols then own else match dget found c with
    | some v => v
    | none => r.get c)

theorem outCols_skip {localCols cs : List Str} {r : Row} {own v : Val} {c : Str} {d : Dict Str Val} (h : c ∉ cs) :
    outCols localCols cs r own ((c, v) :: d) = outCols localCols cs r own d := by
  unfold outCols
  refine List.map_congr_left fun x hx => ?_
  rw [dget, if_neg fun (e : c = x) => h (e ▸ hx)]

theorem lookupAll_keys {idsOf : Key → List (Int × Row)} {r : Row} : ∀ {L : List (Str × Key × Str)} {d : Dict Str Val},
    d ∈ lookupAll idsOf r L → d.map Prod.fst = L.map Prod.fst
  | [], d, h => by rw [lookupAll, List.mem_singleton] at h; rw [h]; rfl
  | x :: L, d, h => by
    rw [lookupAll, List.mem_flatMap] at h
    obtain ⟨v, -, h⟩ := h
    obtain ⟨d', h1, rfl⟩ := List.mem_map.1 h
    rw [List.map_cons, List.map_cons, lookupAll_keys h1]

theorem looksOf_mem {localCols cs : List Str} {remote : Dict Str (Key × Str)} {c : Str}
    (h : c ∈ (looksOf localCols remote cs).map Prod.fst) : c ∈ cs := by
  unfold looksOf at h
  simp only [List.mem_map, List.mem_filterMap] at h
  obtain ⟨⟨c', x⟩, ⟨c'', h1, h2⟩, rfl⟩ := h
  split at h2
  · cases h2
  · obtain ⟨y, -, e⟩ := Option.map_eq_some_iff.1 h2
    cases e
    exact h1

/-- The table identifiers of lookups. -/
def lookIds (L : List (Str × Key × Str)) : List TableId := L.map fun x => ⟨x.2.1.1, x.2.1.2, true⟩

/-- What the loop over the columns builds. -/
structure LooksBuilt (E : Engine) (le : List Val → List Val → Bool) (R : SqlObj → List Row) (n : Nat) (localCols cs : List Str)
    (id : Str → Item) (idsOf : Key → List (Int × Row)) (L : List (Str × Key × Str)) (f f' : From) (used : List SqlObj) (fresh : Nat)
    (items : List Item) (es : List Look) : Prop where
  from_ : From.eval E le R f' = (From.eval E le R f).flatMap (lookScopes R n es)
  names : ∀ e ∈ es, (∃ o, e.name = .obj o ∧ o ∉ used) ∨ ∃ m, fresh ≤ m ∧ e.name = .alias m
  shapes : ∀ x ∈ items, (∃ c l, x = .col c l) ∨ ∃ c ∈ localCols, x = id c
  rows : ∀ (b : Scope) (r : Row), (∀ c ∈ cs, (b.row (.alias n)).get c = r.get c) →
    (lookScopes R n es b).map (fun S (i : Int) => items.map fun x => (x.label, x.value (S, i))) =
      (lookupAll idsOf r L).map fun d i => outCols localCols cs r ((id []).value (b, i)) d

theorem looks_built (hS : SourcePlain T src) (h : TempsRel T le start compact temps' temps) {n : Nat}
    {cols localCols : List Str} {id : Str → Item} {remote : Dict Str (Key × Str)}
    (hid : ∀ c (S : Scope) i, (id c).label = c ∧ ∀ S' : Scope, S.row (.alias n) = S'.row (.alias n) →
      (id c).value (S, i) = (id []).value (S', i))
    (hrem : ∀ c k d, dget remote c = some (k, d) → (dget compact k).isSome ∧
      ∀ m, dget T k = some m → d ∈ m.columns) :
    ∀ (cs : List Str) (f : From) (used : List SqlObj) (s : BuildState), cs.Nodup → (∀ c ∈ cs, c ∈ cols) → n < s.fresh →
    (buildLookups (sqlCtx T temps' reopen) n cols localCols id remote cs f used s = .error .keyError ∧
      countsAfter (sqlCtx T temps' reopen) s.counts (lookIds (looksOf localCols remote cs)) = none) ∨
    ∃ items f' es, buildLookups (sqlCtx T temps' reopen) n cols localCols id remote cs f used s = .ok (items, f') ∧
      (countsAfter (sqlCtx T temps' reopen) s.counts (lookIds (looksOf localCols remote cs))).isSome ∧
      LooksBuilt E le (sqlRows src temps') n localCols cs id (tempIds T le start temps) (looksOf localCols remote cs) f f' used
        s.fresh items es
  | [], f, used, s, _, _, _ => by
    refine .inr ⟨[], f, [], rfl, rfl, ?_, fun e he => (nomatch he), fun x hx => (nomatch hx), fun b r _ => rfl⟩
    rw [show lookScopes (sqlRows src temps') n [] = fun b => [b] from rfl, List.flatMap_singleton']
  | c :: cs, f, used, s, hnd, hcs, hn => by
    rw [List.nodup_cons] at hnd
    have hcs' : ∀ x ∈ cs, x ∈ cols := fun x hx => hcs x (List.mem_cons_of_mem c hx)
    unfold buildLookups
    by_cases hl : c ∈ localCols
    · rw [if_pos hl]
      have hL : looksOf localCols remote (c :: cs) = looksOf localCols remote cs := by
        unfold looksOf
        rw [List.filterMap_cons]
        simp only [if_pos hl]
      rw [hL]
      rcases looks_built hS h hid hrem cs f used s hnd.2 hcs' hn with ⟨h1, h2⟩ | ⟨items, f', es, h1, h2, hb⟩
      · rw [h1]
        exact .inl ⟨rfl, h2⟩
      · rw [h1]
        refine .inr ⟨_, _, es, rfl, h2, hb.from_, hb.names, fun x hx => ?_, fun b r hr => ?_⟩
        · rcases List.mem_cons.1 hx with rfl | hx
          · exact .inr ⟨c, hl, rfl⟩
          · exact hb.shapes x hx
        · have ih := hb.rows b r fun x hx => hr x (List.mem_cons_of_mem c hx)
          have e1 : (lookScopes (sqlRows src temps') n es b).map (fun S (i : Int) =>
              (id c :: items).map fun x => (x.label, x.value (S, i))) =
              ((lookScopes (sqlRows src temps') n es b).map (fun S (i : Int) => items.map fun x => (x.label, x.value (S, i)))).map
                fun g i => (c, (id []).value (b, i)) :: g i := by
            rw [List.map_map]
            refine List.map_congr_left fun S hS' => ?_
            funext i
            have : S.row (.alias n) = b.row (.alias n) := lookScopes_row hS' fun e he => by
              rcases hb.names e he with ⟨o, ho, -⟩ | ⟨m, hm, ho⟩
              · rw [ho]; exact fun e => by cases e
              · rw [ho]; exact fun e => by cases e; omega
            simp only [Function.comp, List.map_cons, (hid c S i).1, (hid c S i).2 b this]
          rw [e1, ih, List.map_map]
          refine List.map_congr_left fun d _ => ?_
          funext i
          simp only [Function.comp, outCols, List.map_cons, if_pos hl]
    · rw [if_neg hl]
      cases hr : dget remote c with
      | none =>
        have hL : looksOf localCols remote (c :: cs) = looksOf localCols remote cs := by
          unfold looksOf
          rw [List.filterMap_cons]
          simp only [if_neg hl, hr, Option.map_none]
        rw [hL]
        dsimp only
        rw [if_pos (hcs c List.mem_cons_self)]
        rcases looks_built hS h hid hrem cs f used s hnd.2 hcs' hn with ⟨h1, h2⟩ | ⟨items, f', es, h1, h2, hb⟩
        · rw [h1]
          exact .inl ⟨rfl, h2⟩
        · rw [h1]
          refine .inr ⟨_, _, es, rfl, h2, hb.from_, hb.names, fun x hx => ?_, fun b r hr => ?_⟩
          · rcases List.mem_cons.1 hx with rfl | hx
            · exact .inl ⟨_, _, rfl⟩
            · exact hb.shapes x hx
          · have ih := hb.rows b r fun x hx => hr x (List.mem_cons_of_mem c hx)
            have e1 : (lookScopes (sqlRows src temps') n es b).map (fun S (i : Int) =>
                (Item.col ⟨.alias n, c⟩ c :: items).map fun x => (x.label, x.value (S, i))) =
                ((lookScopes (sqlRows src temps') n es b).map (fun S (i : Int) => items.map fun x => (x.label, x.value (S, i)))).map
                  fun g i => (c, r.get c) :: g i := by
              rw [List.map_map]
              refine List.map_congr_left fun S hS' => ?_
              funext i
              have : S.row (.alias n) = b.row (.alias n) := lookScopes_row hS' fun e he => by
                rcases hb.names e he with ⟨o, ho, -⟩ | ⟨m, hm, ho⟩
                · rw [ho]; exact fun e => by cases e
                · rw [ho]; exact fun e => by cases e; omega
              simp only [Function.comp, List.map_cons, Item.label, Item.value, Scope.get, this, hr c List.mem_cons_self]
            rw [e1, ih, List.map_map]
            refine List.map_congr_left fun d hd => ?_
            funext i
            have hk : dget d c = none := by
              rw [dget_none_iff, lookupAll_keys hd]
              exact fun hc => hnd.1 (looksOf_mem hc)
            simp only [Function.comp, outCols, List.map_cons, if_neg hl, hk]
      | some kd =>
        obtain ⟨k, d⟩ := kd
        have hL : looksOf localCols remote (c :: cs) = (c, k, d) :: looksOf localCols remote cs := by
          unfold looksOf
          rw [List.filterMap_cons]
          simp only [if_neg hl, hr, Option.map_some]
        rw [hL]
        dsimp only
        obtain ⟨hcomp, hdcol⟩ := hrem c k d hr
        rcases call_yields (X := sqlCtx T temps' reopen) ⟨k.1, k.2, true⟩ s (lookIds (looksOf localCols remote cs)) with
          ⟨e, h1, h2⟩ | ⟨o, s1, h1, h2⟩
        · rw [h1]
          exact .inl ⟨rfl, h2⟩
        · rw [h1]
          dsimp only
          have hfr := call_fresh h1
          obtain ⟨i, rows', h3⟩ := call_sampled rfl h1
          rw [show (⟨k.1, k.2, true⟩ : TableId).key = k from rfl] at h3
          obtain ⟨rows, h4, m, h5, h6, h7, h8⟩ := h.get h3
          dsimp only at h6 h7
          have hoc : o.columns = compactCol :: m.columns := by rw [h6]; simp [tempCols, hcomp]
          have hdne : d ≠ compactCol := fun e => noCompactCol hS k m h5 (e ▸ hdcol m h5)
          rw [if_pos ⟨by rw [hoc]; simp, hcs c List.mem_cons_self, by rw [hoc]; exact List.mem_cons_of_mem _ (hdcol m h5)⟩]
          have hname : ∃ nm, (if o.obj ∈ used then Name.alias s1.fresh else .obj o.obj) = nm ∧
              (nm = .obj o.obj ∧ o.obj ∉ used ∨ nm = .alias s1.fresh) := by
            by_cases hu : o.obj ∈ used
            · exact ⟨_, if_pos hu, .inr rfl⟩
            · exact ⟨_, if_neg hu, .inl ⟨rfl, hu⟩⟩
          obtain ⟨nm, e1, hnm⟩ := hname
          rw [e1]
          have hnn : nm ≠ .alias n := by
            rcases hnm with ⟨rfl, -⟩ | rfl
            · exact fun e => by cases e
            · exact fun e => by cases e; omega
          have hsome : countsAfter (sqlCtx T temps' reopen) s.counts (lookIds ((c, k, d) :: looksOf localCols remote cs)) =
              countsAfter (sqlCtx T temps' reopen) s1.counts (lookIds (looksOf localCols remote cs)) := h2
          rw [hsome]
          rcases looks_built hS h hid hrem cs (.join f o.obj nm [(⟨.alias n, c⟩, ⟨nm, d⟩)] true) (o.obj :: used)
              ⟨s1.counts, s1.fresh + 1⟩ hnd.2 hcs' (by dsimp only; omega) with ⟨g1, g2⟩ | ⟨items, f', es, g1, g2, hb⟩
          · rw [g1]
            exact .inl ⟨rfl, g2⟩
          · rw [g1]
            have hnew : ∀ e ∈ es, e.name ≠ nm := by
              intro e he
              rcases hb.names e he with ⟨o', ho, hu⟩ | ⟨m', hm, ho⟩
              · rw [ho]
                rintro rfl
                rcases hnm with ⟨e, -⟩ | e
                · cases e
                  exact hu List.mem_cons_self
                · cases e
              · rw [ho]
                rintro rfl
                rcases hnm with ⟨e, -⟩ | e
                · cases e
                · cases e
                  dsimp only at hm
                  omega
            refine .inr ⟨_, _, ⟨c, nm, o.obj, d⟩ :: es, rfl, g2, ?_, ?_, ?_, fun b r hr => ?_⟩
            · rw [hb.from_, join_eval (e := ⟨c, nm, o.obj, d⟩) hnn, List.flatMap_assoc]
              refine List.flatMap_congr fun b _ => ?_
              rw [List.flatMap_map]
              rfl
            · intro e he
              rcases List.mem_cons.1 he with rfl | he
              · rcases hnm with ⟨rfl, hu⟩ | rfl
                · exact .inl ⟨_, rfl, hu⟩
                · exact .inr ⟨_, by omega, rfl⟩
              · rcases hb.names e he with ⟨o', ho, hu⟩ | ⟨m', hm, ho⟩
                · exact .inl ⟨o', ho, fun hx => hu (List.mem_cons_of_mem _ hx)⟩
                · dsimp only at hm
                  exact .inr ⟨m', by omega, ho⟩
            · intro x hx
              rcases List.mem_cons.1 hx with rfl | hx
              · exact .inl ⟨_, _, rfl⟩
              · exact hb.shapes x hx
            · have hf := found_ids (src := src) (n := n) (v := r.get c) (b := b) (e := ⟨c, nm, o.obj, d⟩) h h3 hcomp hdne
                ⟨by rw [h6], rfl⟩ (hr c List.mem_cons_self)
              rw [lookScopes, lookupAll, ← hf, List.map_flatMap, List.map_flatMap, List.flatMap_map]
              refine List.flatMap_congr fun mm _ => ?_
              have hbr : Scope.row ((nm, mm) :: b) (.alias n) = b.row (.alias n) := row_cons_ne hnn
              have ih := hb.rows ((nm, mm) :: b) r fun x hx => by rw [hbr]; exact hr x (List.mem_cons_of_mem c hx)
              have e1 : (lookScopes (sqlRows src temps') n es ((nm, mm) :: b)).map (fun S (i : Int) =>
                  (Item.col ⟨nm, compactCol⟩ c :: items).map fun x => (x.label, x.value (S, i))) =
                  ((lookScopes (sqlRows src temps') n es ((nm, mm) :: b)).map
                    (fun S (i : Int) => items.map fun x => (x.label, x.value (S, i)))).map
                    fun g i => (c, mm.get compactCol) :: g i := by
                rw [List.map_map]
                refine List.map_congr_left fun S hS' => ?_
                funext i
                have : S.row nm = mm := by rw [lookScopes_row hS' hnew, row_cons_self]
                simp only [Function.comp, List.map_cons, Item.label, Item.value, Scope.get, this]
              rw [e1, ih, List.map_map, List.map_map]
              refine List.map_congr_left fun dd _ => ?_
              funext i
              have hv : (id []).value ((nm, mm) :: b, i) = (id []).value (b, i) := (hid [] _ i).2 b hbr
              have hd : ∀ own, outCols localCols (c :: cs) r own ((c, mm.get compactCol) :: dd) =
                  (c, mm.get compactCol) :: outCols localCols cs r own dd := by
                intro own
                rw [← outCols_skip (v := mm.get compactCol) (d := dd) hnd.1]
                simp [outCols, if_neg hl, dget]
              simp only [Function.comp]
              rw [hd, hv]

end Subsetter
