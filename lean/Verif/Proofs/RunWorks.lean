import Verif.Proofs.RunConfigured
import Verif.Proofs.RunFails
import Verif.Proofs.RunKeys
import Verif.Props.Output

/- Reading and writing succeed whatever is configured. -/
namespace Subsetter
open Spec Props

variable {σ : Type}

/-! ### Transforming a row -/

theorem multiplyAt_succeeds {m i : Int} : ∀ {is : List Nat} {row : List Val}, is.Nodup →
    (∀ k ∈ is, ∃ v, row[k]? = some v ∧ Integral v) → ∃ out, multiplyAt m i is row = .ok out
  | [], row, _, _ => ⟨row, rfl⟩
  | j :: is, row, hnd, h => by
    rw [List.nodup_cons] at hnd
    obtain ⟨v, h1, h2⟩ := h j (by simp)
    obtain ⟨w, hw⟩ : ∃ w, multiplyColumn v m i = some w := by
      rcases h2 with rfl | ⟨a, rfl⟩
      · exact ⟨_, rfl⟩
      · exact ⟨_, rfl⟩
    unfold multiplyAt
    rw [h1]; dsimp only
    rw [hw]
    refine multiplyAt_succeeds hnd.2 fun k hk => ?_
    rw [List.getElem?_set_ne (by rintro rfl; exact hnd.1 hk)]
    exact h k (by simp [hk])

theorem shiftAt_succeeds : ∀ {is : List (Nat × Int)} {row : List Val}, (is.map Prod.fst).Nodup →
    (∀ e ∈ is, ∃ v, row[e.1]? = some v ∧ Integral v) → ∃ out, shiftAt is row = .ok out
  | [], row, _, _ => ⟨row, rfl⟩
  | (j, o) :: is, row, hnd, h => by
    rw [List.map_cons, List.nodup_cons] at hnd
    obtain ⟨v, h1, h2⟩ := h (j, o) (by simp)
    dsimp only at h1
    unfold shiftAt
    rw [h1]
    rcases h2 with rfl | ⟨a, rfl⟩
    · exact shiftAt_succeeds hnd.2 fun e he => h e (by simp [he])
    · refine shiftAt_succeeds hnd.2 fun e he => ?_
      have hne : j ≠ e.1 := fun g => hnd.1 (List.mem_map.2 ⟨e, he, g.symm⟩)
      rw [List.getElem?_set_ne hne]
      exact h e (by simp [he])

theorem integral_copyVal {m i : Int} {v : Val} (h : Integral v) : Integral (copyVal m i v) := by
  rcases h with rfl | ⟨a, rfl⟩
  · exact .inl rfl
  · exact .inr ⟨_, rfl⟩

section
variable {W : Outside σ Val}

theorem runViews_join {vs ws : List (View Val)} {r f : List Val} {s s1 : σ} {q : Except FilterErr (List Val × σ)}
    (h : runViews W vs r s = .ok (f, s1)) (h' : runViews W ws f s1 = q) : runViews W (vs ++ ws) r s = q := by
  induction vs generalizing r s with
  | nil => cases h; exact h'
  | cons v vs ih =>
    simp only [List.cons_append, runViews] at h ⊢
    cases h1 : v.run W r s with
    | error e => rw [h1] at h; cases h
    | ok q =>
      obtain ⟨r1, s2⟩ := q
      rw [h1] at h
      exact ih h

variable {x : OutInput} {o : OutPlan} {cols : List Str} {fs : List (FilterCfg Val)}
  (hc : constructFilter W cols fs = .ok x.chain) (hnd : cols.Nodup) (ho : outPlan x = .ok o)
include hc hnd ho

theorem outPlan_nodup : o.colsOut.Nodup := by
  obtain ⟨-, hl⟩ := constructFilter_ok hc
  have hnd1 : x.chain.colsOut.Nodup := by rw [loop_colsOut hl]; exact hnd.filter _
  rw [(outPlan_ok ho).2.1]
  exact hnd1.filter _

/-- Columns no filter writes keep their values. -/
theorem outViews_values {r : List Val} (hr : r.length = cols.length) {s s' : σ} {f : List Val}
    (h : runViews W o.views r s = .ok (f, s')) : f.length = o.colsOut.length ∧
      ∀ (c : Str) (i j : Nat), (∀ f ∈ fs, c ∉ FilterCfg.writes f) → cols[i]? = some c → o.colsOut[j]? = some c →
        f[j]? = r[i]? := by
  obtain ⟨-, hl⟩ := constructFilter_ok hc
  have hnd1 : x.chain.colsOut.Nodup := by rw [loop_colsOut hl]; exact hnd.filter _
  have hnd2 := outPlan_nodup hc hnd ho
  have same : ∀ {l : List Str} {a b : Nat} {c : Str}, l.Nodup → l[a]? = some c → l[b]? = some c → a = b := by
    intro l a b c hl h1 h2
    have ha : a < l.length := (List.getElem?_eq_some_iff.1 h1).1
    exact (List.getElem?_inj ha hl).1 (h1.trans h2.symm)
  obtain ⟨-, h1, -, -, -, -, h5⟩ := outPlan_ok ho
  rcases h5 with ⟨h5, h6⟩ | ⟨comp, h5, h6, h7⟩
  · rw [h5] at h
    obtain ⟨g1, g2⟩ := chain_run hl hnd hr h
    refine ⟨by rw [h6]; exact g1, fun c i j hw hi hj => ?_⟩
    obtain ⟨j', g3, g4⟩ := g2 c i hw hi
    rw [h6] at hj
    rw [same hnd1 hj g3]
    exact g4
  · rw [h5] at h
    obtain ⟨f0, s1, g5, g6⟩ := runViews_append h
    obtain ⟨g7, g7'⟩ := chain_run hl hnd hr g5
    simp only [runViews, View.run] at g6
    cases g8 : (mkOmit x.chain.colsOut comp : SimpleView Val).run W f0 s1 with
    | error e => rw [g8] at g6; cases g6
    | ok q =>
      obtain ⟨f', s2⟩ := q
      rw [g8] at g6; cases g6
      have hcs : constructSimple W x.chain.colsOut (.omit comp) = .ok (mkOmit x.chain.colsOut comp) := rfl
      obtain ⟨g9, g10⟩ := simple_run hcs hnd1 g7 g8
      rw [← h6] at g9
      refine ⟨g9, fun c i j hw hi hj => ?_⟩
      have hc2 : c ∉ comp := by
        have hc := List.mem_of_getElem? hj
        rw [h1] at hc
        intro h8
        have := (List.mem_filter.1 hc).2
        simp [h7 c h8] at this
      obtain ⟨k, g11, g12⟩ := g7' c i hw hi
      obtain ⟨j', g13, g14⟩ := g10 c k hc2 g11
      rw [← h6] at g13
      rw [same hnd2 hj g13, g14, g12]

theorem outViews_succeed {r : List Val} (hr : r.length = cols.length)
    (hrun : ∀ s, ∃ out s', x.chain.run W r s = .ok (out, s')) (s : σ) :
    ∃ f s', runViews W o.views r s = .ok (f, s') := by
  obtain ⟨-, hl⟩ := constructFilter_ok hc
  obtain ⟨f, s1, hf⟩ := hrun s
  obtain ⟨-, -, -, -, -, -, h5⟩ := outPlan_ok ho
  rcases h5 with ⟨h5, h6⟩ | ⟨comp, h5, h6, h7⟩
  · rw [h5]; exact ⟨f, s1, hf⟩
  · rw [h5]
    have g7 := (chain_run hl hnd hr hf).1
    have hsub : ∀ c ∈ x.chain.colsOut.filter (fun c => decide (c ∉ comp)), c ∈ x.chain.colsOut :=
      fun c hc => List.mem_of_mem_filter hc
    have hloc := omitLocated hsub
    obtain ⟨out, h3, h4⟩ := pick_spec (vals := f) (fun i hi => by rw [g7]; exact hloc.lt i hi)
    refine ⟨out, s1, runViews_join hf ?_⟩
    simp only [runViews, View.run]
    unfold mkOmit
    simp only [SimpleView.run]
    rw [h3]

/-- A row is transformed if its filters succeed and its multiplied and shifted values are numbers. -/
theorem outRow_succeeds {r : List Val} (hr : r.length = cols.length)
    (hrun : ∀ s, ∃ out s', x.chain.run W r s = .ok (out, s'))
    (hnum : ∀ c ∈ o.colsOut, (c ∈ x.mult ∨ (dget x.offsets c).isSome) → (∀ f ∈ fs, c ∉ FilterCfg.writes f) ∧
      ∃ (i : Nat) (v : Val), cols[i]? = some c ∧ r[i]? = some v ∧ Integral v) (i : Nat) (s : σ) :
    ∃ out s', outRow W o (r, i) s = .ok (out, s') := by
  obtain ⟨f, s', h1⟩ := outViews_succeed hc hnd ho hr hrun s
  obtain ⟨h2, h3⟩ := outViews_values hc hnd ho hr h1
  obtain ⟨-, -, -, h4, h5, -⟩ := outPlan_ok ho
  have hval : ∀ (c : Str) (j : Nat), o.colsOut[j]? = some c → (c ∈ x.mult ∨ (dget x.offsets c).isSome) →
      ∃ v, f[j]? = some v ∧ Integral v := by
    intro c j hj hcc
    obtain ⟨g1, a, v, g2, g3, g4⟩ := hnum c (List.mem_of_getElem? hj) hcc
    exact ⟨v, by rw [h3 c a j g1 g2 hj, g3], g4⟩
  have hnd1 : o.multiplied.Nodup := by rw [h4]; exact indexesOf_nodup
  obtain ⟨out1, h6⟩ := multiplyAt_succeeds (m := o.multiplier) (i := (i : Int)) (is := o.multiplied) (row := f) hnd1 (by
    intro k hk
    rw [h4] at hk
    obtain ⟨c, g1, g2⟩ := mem_indexesOf.1 hk
    exact hval c k g1 (.inl (by simpa using g2)))
  obtain ⟨out2, h7⟩ := shiftAt_succeeds (is := o.offsets) (row := out1) (by rw [h5]; exact offsetIndexes_nodup) (by
    rintro ⟨k, a⟩ hk
    rw [h5] at hk
    obtain ⟨c, g1, g2⟩ := mem_offsetIndexes.1 hk
    obtain ⟨v, g3, g4⟩ := hval c k g1 (.inr (by rw [g2]; rfl))
    dsimp only
    rw [(multiplyAt_ok hnd1 h6).2 k, g3]
    refine ⟨_, rfl, ?_⟩
    split
    · exact integral_copyVal g4
    · exact g4)
  refine ⟨out2, s', ?_⟩
  unfold outRow
  dsimp only
  rw [h1]; dsimp only
  rw [h6]; dsimp only
  rw [h7]

/-- An integer that no filter writes stays one. -/
theorem outRow_integer {r : List Val} (hr : r.length = cols.length) {i : Nat} {s s' : σ} {out : List Val}
    (h : outRow W o (r, i) s = .ok (out, s')) {c : Str} (hw : ∀ f ∈ fs, c ∉ FilterCfg.writes f) {a j : Nat} {v : Int}
    (ha : cols[a]? = some c) (hv : r[a]? = some (.int v)) (hj : o.colsOut[j]? = some c) :
    ∃ w : Int, out[j]? = some (.int w) := by
  have hnd2 := outPlan_nodup hc hnd ho
  obtain ⟨-, -, -, h4, h5, -⟩ := outPlan_ok ho
  obtain ⟨f, g1, g2, g3⟩ := outRow_values h4 h5 hnd2 h
  obtain ⟨h2, h3⟩ := outViews_values hc hnd ho hr g1
  obtain ⟨w, g4, g5⟩ := g3 h2 c (List.mem_of_getElem? hj)
  rw [valueOf_eq hnd2 h2 hj, h3 c a j hw ha hj, hv] at g4
  cases g4
  rw [valueOf_eq hnd2 (g2.trans h2) hj] at g5
  rw [g5]
  unfold outVal
  split
  · exact ⟨_, rfl⟩
  · exact ⟨_, rfl⟩

end

/-! ### Reading -/

theorem lookupAll_mem {idsOf : Key → List (Int × Row)} {r : Row} : ∀ {xs : List (Str × Key × Str)} {d : Dict Str Val},
    d ∈ lookupAll idsOf r xs → ∀ c v, dget d c = some v → (∃ y, (c, y) ∈ xs) ∧ (v = .null ∨ ∃ i : Int, v = .int i)
  | [], d, h, c, v, hv => by
    simp only [lookupAll, List.mem_singleton] at h
    subst h; cases hv
  | x :: xs, d, h, c, v, hv => by
    simp only [lookupAll, List.mem_flatMap, List.mem_map] at h
    obtain ⟨w, h1, d', h2, rfl⟩ := h
    by_cases hcx : x.1 = c
    · simp only [dget, if_pos hcx, Option.some.injEq] at hv
      subst hv hcx
      refine ⟨⟨x.2, by simp⟩, ?_⟩
      unfold lookupIds at h1
      dsimp only at h1
      split at h1
      · exact .inl (by simpa using h1)
      · obtain ⟨e, -, h3⟩ := List.mem_filterMap.1 h1
        split at h3
        · cases h3; exact .inr ⟨_, rfl⟩
        · cases h3
    · simp only [dget, if_neg hcx] at hv
      obtain ⟨⟨y, h3⟩, h4⟩ := lookupAll_mem h2 c v hv
      exact ⟨⟨y, by simp [h3]⟩, h4⟩

/-- Every row copied has the values of a sampled row, new identifiers, or NULL where it refers to one. -/
theorem copyRows_from {E : Engine} {T : Tables} {le : List Val → List Val → Bool} {start : Int}
    {compact : Dict Key (List Str)} {src : Key → List Row} {reopen : Bool} {temps : Temps} {k : Key} {q : TableQuery}
    {t : TableMeta} (ht : dget T k = some t) {smp outs : List Row} (hs : sampleRows E T src reopen temps k q = .ok smp)
    (h : copyRows E T le start compact src reopen temps k q = .ok outs) :
    ∀ row ∈ outs, ∃ r ∈ smp, ∀ c ∈ t.columns, row.get c = r.get c ∨
      ((∃ i : Int, row.get c = .int i) ∧ ∃ d dc, IsCompacted compact d dc) ∨
      (row.get c = .null ∧ ∃ d dc, PointsTo T compact k c d dc) := by
  intro row hrow
  unfold copyRows at h
  rw [hs] at h; dsimp only at h
  rw [ht] at h; dsimp only at h
  split at h
  · cases h
    exact ⟨row, hrow, fun c _ => .inl rfl⟩
  · split at h
    · cases h
    · cases h
      obtain ⟨⟨id, r⟩, h1, h2⟩ := List.mem_flatMap.1 hrow
      obtain ⟨d, h3, rfl⟩ := List.mem_map.1 h2
      refine ⟨r, (List.of_mem_zip h1).2, fun c hc => ?_⟩
      dsimp only at h3 ⊢
      rw [compactRow_get hc]
      split
      · rename_i h
        exact .inr (.inl ⟨⟨_, rfl⟩, k, c, isCompacted_iff.1 h⟩)
      · cases h4 : dget d c with
        | none => exact .inl rfl
        | some v =>
          obtain ⟨⟨y, h5⟩, h6⟩ := lookupAll_mem h3 c v h4
          rcases h6 with rfl | ⟨i, rfl⟩
          · exact .inr (.inr ⟨rfl, y.1, y.2, remoteCols_some ht (lookups_mem.1 h5).2.2⟩)
          · obtain ⟨-, -, -, -, -, -, h7⟩ := remoteCols_some ht (lookups_mem.1 h5).2.2
            exact .inr (.inl ⟨⟨i, rfl⟩, _, _, h7⟩)

variable {C : RunConfig} {D : Setting σ} {p : Plan} {S : DbState} {s : σ}
variable {r : Started} {db : Dict Str TableMeta} {x : DestMeta} {order : List Str} {states : List DbState}
  {offs : Dict Key (Dict Str Int)} {compact : Dict Key (List Str)} {mat : List (Key × Nat)} {temps : Temps}
  (hst : Steps C D p S r db x order states offs compact mat temps)
include hst

/-- Every table is read, and its rows have values of the sample, new identifiers, or NULL where they refer to one. -/
theorem Steps.reads_any (hok : RunOK C D p) (hfo : LookupsFollow C D p) (hcf : Configured C D p db) {B : DbState}
    {Smp : Key → List Row} {ids : Key → List Int} (hcp : Copying C D p S db order B Smp ids r.tables r.mult compact offs)
    {n : Str} {k kd : Key} {t td : TableMeta} (hc : Copied C D p db n k kd t td) :
    ∃ j, readTable C D r x offs compact p temps n = .ok (some j) ∧
      (j.input.autoincrement = if D.dialect = .postgresql then td.autoincrement else none) ∧
      ∀ y ∈ j.rows, ∃ q ∈ Smp k, ∃ row : Row, y = t.columns.map row.get ∧ ∀ c ∈ t.columns, row.get c = q.get c ∨
        ((∃ i : Int, row.get c = .int i) ∧ Compacts C) ∨ (row.get c = .null ∧ ∃ d dc, PointsTo r.tables compact k c d dc) := by
  obtain ⟨hp, hac⟩ := hst.plan hok
  obtain ⟨order', temps', h1, h2, hI, h4, h5, h6, h7⟩ := Subsetter.materialized hp hac D.engine compact D.src D.reopen
  rw [hst.ordered] at h1; cases h1
  rw [hst.materialized] at h2; cases h2
  obtain ⟨q, hq⟩ := Option.isSome_iff_exists.1 (dget_isSome_iff.2 hc.planned)
  have hpq : Planned p k q := ⟨n, dget_some_mem hq, hc.name⟩
  have ht := known_table hok hfo hcp hc.planned hc.name hc.source
  obtain ⟨ch, hch⟩ := filter_built hst.start hc.name ht
  have hre := reached_iff hok (prepared_of_step hst.start hst.create)
  have hf := prepared_run hok hst.start hst.create
  obtain ⟨td', htd'⟩ := (hre kd).2 hc.reached
  have hg := dget_of_mem hf.tables.keys_nodup htd'
  have e := schema_get hf hc.schema hg
  subst e
  have hcols := hok.srcColumns n t hc.source
  have hsk : sampleOf D.engine r.tables D.src p temps k = Smp k := by
    have hfa := startRun_facts hok.src hst.start
    exact isSample_unique hp hac h6 ((hfa.isSample hok.src hp).2 hcp.sample) k q hpq
  have hpl : ∀ c d dc, PointsTo r.tables compact k c d dc → ∃ q, Planned p d q := by
    rintro c d dc ⟨t', fk, g1, g2, rfl, g4, g5⟩
    rw [ht] at g1; cases g1
    obtain ⟨⟨m, q⟩, g6, g7⟩ := List.mem_map.1 (hfo.closed (compacts_of hcp g5) n hc.planned t hc.source fk g2)
    dsimp only at g7
    exact ⟨q, m, g6, by
      rw [g7]; exact parse_of_nodot (k := (fk.dstSchema, fk.dstTable)) (hok.src.fk_cols n t hc.source fk g2).2.2⟩
  have hone : Compacts C → D.reopen = false → OneLookupEach r.tables compact k := by
    intro hcs hre t' ht' fk hfk
    rw [ht] at ht'; cases ht'
    have hcomp : ∀ dc ∈ fk.dstColumns, IsCompacted compact (fk.dstSchema, fk.dstTable) dc →
        ∃ tb, (fk.dstSchema ++ '.' :: fk.dstTable, tb) ∈ D.srcDb ∧ tb.primaryKey = [dc] := by
      intro dc hdc h5
      rcases (hcp.derived.compact _ _).1 h5 with ⟨tn, cols, g1, g2, g3, g4, -⟩ | ⟨tb, g1, g2, -⟩
      · obtain ⟨tb, g4⟩ := Option.isSome_iff_exists.1 g4
        have g5 := table_known hfo hcp g4
        dsimp only at g5
        refine ⟨tb, g5, ?_⟩
        rw [show fk.dstSchema ++ '.' :: fk.dstTable = tn from parse_str g3] at g5
        refine ((hfo.named tn cols g1 dc g2 tb g5).2).resolve_right fun hcon => ?_
        exact hcon n t hc.source fk hfk (parse_str g3) hdc
      · exact ⟨tb, table_known hfo hcp (dget_of_mem hcp.derived.tables g1), g2⟩
    obtain ⟨g1, g2⟩ := hcf.pairs hre hcs n hc.planned t hc.source fk hfk
    refine ⟨g1, fun e he e' he' hce hce' => ?_⟩
    obtain ⟨tb, b1, b2⟩ := hcomp e.2 (List.of_mem_zip he).2 hce
    obtain ⟨tb', b3, b4⟩ := hcomp e'.2 (List.of_mem_zip he').2 hce'
    have := dget_of_mem hok.src.names_nodup b1
    rw [dget_of_mem hok.src.names_nodup b3] at this
    cases this
    rw [b2] at b4
    have e2 : e.2 = e'.2 := by simpa using b4
    obtain ⟨a, ha, rfl⟩ := List.mem_iff_getElem.1 he
    obtain ⟨a', ha', rfl⟩ := List.mem_iff_getElem.1 he'
    simp only [List.getElem_zip] at e2
    have : a = a' := (List.Nodup.getElem_inj_iff g2).1 e2
    subst this
    rfl
  obtain ⟨rows, hrows⟩ : ∃ rows, copyRows D.engine r.tables D.le C.compact.startKey compact D.src D.reopen temps k q =
      .ok rows := by
    unfold copyRows
    rw [h7 k q hpq]; dsimp only
    rw [ht]; dsimp only
    by_cases hcs : Compacts C
    · obtain ⟨l, hl⟩ := copyRefs_resolve hp hI h4 h5 hpl hpq ht hcols (hone hcs)
      split
      · exact ⟨_, rfl⟩
      · rw [hl]
        exact ⟨_, rfl⟩
    · have hnc : ∀ k, (dget compact k).getD [] = [] := fun k =>
        List.eq_nil_iff_forall_not_mem.2 fun c hcc => hcs (compacts_of hcp (isCompacted_iff.1 hcc))
      rw [if_pos ⟨remoteCols_nil hnc t.foreignKeys, hnc k⟩]
      exact ⟨_, rfl⟩
  have hfrom := copyRows_from ht (h7 k q hpq) hrows
  rw [hsk] at hfrom
  obtain ⟨a, b, b1, b2⟩ := hc.dest
  rw [hc.name] at b1
  have hk : k = (a, b) := Option.some.inj b1
  have htj : ∃ j, tableJob C D r.mult x offs p.passthrough n k t rows = .ok j ∧
      (j.input.autoincrement = if D.dialect = .postgresql then td'.autoincrement else none) ∧
      j.rows = rows.map fun r => t.columns.map r.get := by
    unfold tableJob
    rw [hch]; dsimp only
    rw [show remapTable C.remap k = some kd by rw [hk]; exact b2]; dsimp only
    rw [hg]
    exact ⟨_, rfl, rfl, rfl⟩
  obtain ⟨j, g1, g2, g3⟩ := htj
  refine ⟨j, ?_, g2, fun y hy => ?_⟩
  · unfold readTable
    rw [hc.name]; dsimp only
    rw [hq]; dsimp only
    rw [hrows]; dsimp only
    rw [ht]; dsimp only
    rw [g1]
  · rw [g3] at hy
    obtain ⟨row, h8, rfl⟩ := List.mem_map.1 hy
    obtain ⟨q0, h9, h10⟩ := hfrom row h8
    refine ⟨q0, h9, row, rfl, fun c hcc => ?_⟩
    rcases h10 c hcc with h | ⟨h, d, dc, h'⟩ | h
    · exact .inl h
    · exact .inr (.inl ⟨h, compacts_of hcp h'⟩)
    · exact .inr (.inr h)

omit hst in
/-- The columns shifted are those of keys shifted and of references to them. -/
theorem offset_shifted (hok : RunOK C D p) (hfo : LookupsFollow C D p) (hnames : (db.map Prod.fst).Nodup) {B : DbState}
    {Smp : Key → List Row} {ids : Key → List Int} {T : Tables} {mult : Dict Str (List Str)}
    (hcp : Copying C D p S db order B Smp ids T mult compact offs)
    {n : Str} {k kd : Key} {t td : TableMeta} (hc : Copied C D p db n k kd t td) {c : Str}
    (h : (dget ((dget offs kd).getD []) c).isSome) : ShiftedColumn C D p db n t td c := by
  cases hmg : C.merge with
  | false => rw [hcp.derived.unmerged hmg kd] at h; cases h
  | true =>
    obtain ⟨dest, hdest, hnone, hsh⟩ := hcp.derived.merged hmg
    obtain ⟨n', hn'⟩ : ∃ n', Merged ⟨C.remap, T, dest, B, p.passthrough, dkeys p.queries⟩ n' kd := by
      by_contra hcon
      rw [hnone kd fun n' hn' => hcon ⟨n', hn'⟩] at h
      cases h
    have e : n' = n := hcp.derived.differ n' hn'.1 n hc.planned kd hn'.2.2 hc.dest
    subst e
    refine ⟨hmg, hn'.2.1, ?_⟩
    obtain ⟨o, ho⟩ := Option.isSome_iff_exists.1 h
    have hs := hsh n' kd hn' c
    rw [ho] at hs
    rcases hs with ⟨nb, d, m, g1, ⟨kb, tdb, g2, g3, g4, g5, -⟩, -⟩ | ⟨-, ⟨m, ⟨kd', td', g2, g3, g4, g5, -⟩, -⟩ | ⟨-, g1⟩⟩
    · right
      obtain ⟨k', t', fk, tb, b1, b2, b3, b4, b5, b6, rfl⟩ := g1
      rw [hc.name] at b1; cases b1
      have b2 := dget_of_mem hcp.derived.tables b2
      rw [known_table hok hfo hcp hc.planned hc.name hc.source] at b2
      cases b2
      obtain ⟨g6, g7⟩ := (hdest kb tdb).1 g3
      exact ⟨kb, d, fk, b3, (fk.dstSchema, fk.dstTable), tb, tdb, b4, b6,
        ⟨g2.1, parse_of_nodot (k := (fk.dstSchema, fk.dstTable)) (hok.src.fk_cols n' t hc.source fk b3).2.2,
          table_known hfo hcp (dget_of_mem hcp.derived.tables b5), g2.2.2, g6, g7⟩, g2.2.1, g4, g5⟩
    · left
      have : kd' = kd := destOf_unique g2.2.2 hc.dest
      subst this
      obtain ⟨-, g7⟩ := (hdest kd' td').1 g3
      have := dget_of_mem hnames g7
      rw [dget_of_mem hnames hc.schema] at this
      cases this
      exact ⟨g4, g5⟩
    · cases g1

omit hst in
theorem run_mem {W : Outside σ Val} {o : OutPlan} {pre : List (List Val × Nat)} {s s' : σ} {outs : List (List Val)}
    (h : Run W o pre s outs s') : ∀ row ∈ outs, ∃ y ∈ pre, ∃ s1 s2, outRow W o y s1 = .ok (row, s2) := by
  induction h with
  | nil => intro row hr; cases hr
  | cons h1 _ ih =>
    intro row hr
    rcases List.mem_cons.1 hr with rfl | hr
    · exact ⟨_, by simp, _, _, h1⟩
    · obtain ⟨y, hy, g⟩ := ih row hr
      exact ⟨y, by simp [hy], g⟩

/-- Copying succeeds. -/
theorem Steps.works (hok : RunOK C D p) (hfo : LookupsFollow C D p) (hcf : Configured C D p db) {cfg : PlannerConfig}
    {T0 : Tables} (hI : Input cfg T0) (hplan : planInternal cfg T0 = .ok p)
    (hall : Compacts C → ∀ n y, dget cfg.targets n = some y → y.all = true → y.amount = none)
    (hpk : PkOK (dbTables D.srcDb) D.src) (hsrc : Compacts C → Intact D.srcDb D.src)
    (hwr : ∀ n k kd t td, Copied C D p db n k kd t td → Writable C D p db n k kd t td)
    (hkeys : ∀ n k kd t td, Copied C D p db n k kd t td → strategyFor C p n = .error →
      td.primaryKey ≠ [] → KeysApart C D cfg T0 p S db n k kd t td ∧ KeysUnique td.primaryKey (S kd)) :
    (copyAll D.world D.dialect (readTable C D r x offs compact p temps) order (states.reverse ++ [S]) s).2.2 = none := by
  obtain ⟨B, rest, Smp, ids, hB, hcp, hinj, hsent, -⟩ := hst.copying hok
  obtain ⟨Smp0, hsmp0, hS, htemps⟩ := hst.sample hok
  have hnames := (prepared_run hok hst.start hst.create).names
  rw [hB]
  cases hres : (copyAll D.world D.dialect (readTable C D r x offs compact p temps) order (B :: rest) s).2.2 with
  | none => rfl
  | some e =>
    exfalso
    obtain ⟨n, hn, hfail⟩ := copyAll_fails (e := e) hcp.nodup hinj
      (show _ = ((copyAll D.world D.dialect (readTable C D r x offs compact p temps) order (B :: rest) s).1,
        (copyAll D.world D.dialect (readTable C D r x offs compact p temps) order (B :: rest) s).2.1, some e) by
        rw [← hres])
    obtain ⟨k, kd, t, td, hc⟩ := (hcp.all n).1 hn
    obtain ⟨j, hj, hauto, hrows⟩ := hst.reads_any hok hfo hcf hcp hc
    have hw := hwr n k kd t td hc
    rw [hj] at hfail
    rcases hfail with hfail | ⟨j', e', hj', -, hfail⟩
    · cases hfail
    cases hj'
    obtain ⟨g1, g2, g3, g4, g5, g6, g7, g8, -⟩ := hst.job hok hS htemps hc hj
    have htc : (target D kd td).columns = td.columns := by unfold target; split <;> rfl
    have htp : (target D kd td).pk = td.primaryKey := by unfold target; split <;> rfl
    have hcout := loop_colsOut (constructFilter_ok g3).2
    rcases hfail with hfail | ⟨o, s0, ho, hfail⟩
    · unfold outPlan at hfail
      dsimp only at hfail
      rw [if_neg] at hfail
      · cases hfail
      · rw [g2, htc, not_not, List.filter_eq_nil_iff]
        intro c hcc
        rw [hcout] at hcc
        obtain ⟨b1, b2⟩ := List.mem_filter.1 hcc
        simpa using hw.columns c b1 (by simpa [filtersOf] using b2)
    obtain ⟨-, f1, f2, -, -, f5, -⟩ := outPlan_ok ho
    have hwc : ∀ c ∈ o.colsOut, c ∈ t.columns ∧ c ∉ omitted (filtersOf C n) ∧ c ∉ (target D kd td).computed := by
      intro c hcc
      rw [f1, g2] at hcc
      unfold writtenColumns at hcc
      obtain ⟨b1, b2⟩ := List.mem_filter.1 hcc
      rw [hcout] at b1
      obtain ⟨b3, b4⟩ := List.mem_filter.1 b1
      exact ⟨b3, by simpa [filtersOf] using b4, by simpa using b2⟩
    have hplanned : ∃ q, Planned p k q := by
      obtain ⟨⟨m, q⟩, b1, b2⟩ := List.mem_map.1 hc.planned
      dsimp only at b2
      exact ⟨q, m, b1, by rw [b2]; exact hc.name⟩
    have hsub : ∀ q ∈ Smp k, q ∈ D.src k := c07_sample_from_source hI hplan hpk hcp.sample hplanned
    have hcopies : ∀ y ∈ copies o.multiplier j.rows, y.1 ∈ j.rows := by
      intro y hy
      unfold copies at hy
      obtain ⟨r0, b1, b2⟩ := List.mem_flatMap.1 hy
      obtain ⟨i, -, rfl⟩ := List.mem_map.1 b2
      exact b1
    have hidx : ∀ c ∈ t.columns, ∃ i : Nat, t.columns[i]? = some c := by
      intro c hcc
      obtain ⟨i, hi, e⟩ := List.mem_iff_getElem.1 hcc
      exact ⟨i, by rw [List.getElem?_eq_getElem hi, e]⟩
    obtain ⟨pre, outs, s', a1, a2, a3⟩ := hfail
    rcases a3 with ⟨y, hy, a3⟩ | ⟨row, hrow, a3⟩ | ⟨bs, b, X, a3, a4, a5⟩
    · -- rows are transformed
      obtain ⟨q, b1, row, b2, b3⟩ := hrows y.1 (hcopies y hy)
      obtain ⟨out, s2, hout⟩ := outRow_succeeds (W := D.world) g3 g8 ho (r := y.1) (by rw [b2]; simp) (fun s => by
        refine hw.runs _ g3 q (hsub q b1) y.1 ?_ s
        rw [b2, List.forall₂_map_right_iff, List.forall₂_same]
        intro c hcc
        rcases b3 c hcc with h | ⟨⟨i, h⟩, h'⟩ | ⟨h, d, dc, -, -, -, -, -, -, h'⟩
        · exact .inl h
        · exact .inr ⟨h', .inr ⟨i, h⟩⟩
        · exact .inr ⟨compacts_of hcp h', .inl h⟩) (fun c hcc hmo => by
        obtain ⟨b4, b5, b6⟩ := hwc c hcc
        have hnum : Multiplied C D p n c ∨ ShiftedColumn C D p db n t td c := by
          rcases hmo with h | h
          · rw [g7] at h
            exact .inl ((multiplied_iff hok hfo hcp n c).1 h)
          · rw [g5] at h
            exact .inr (offset_shifted hok hfo hnames hcp hc h)
        rcases hw.numbers c hnum b4 with h | h | ⟨h1, h2⟩
        · exact absurd h b5
        · exact absurd h b6
        · obtain ⟨i, hi⟩ := hidx c b4
          refine ⟨h1, i, row.get c, hi, by rw [b2, List.getElem?_map, hi]; rfl, ?_⟩
          rcases b3 c b4 with h | ⟨⟨i, h⟩, -⟩ | ⟨h, -⟩
          · rw [h]; exact h2 q (hsub q b1)
          · exact .inr ⟨i, h⟩
          · exact .inl h) y.2 s'
      rw [a3] at hout
      cases hout
    · -- values of automatically incremented columns are integers
      refine a3 fun i hi => ?_
      obtain ⟨y, hy, s1, s2, hout⟩ := run_mem a2 row hrow
      obtain ⟨q, b1, row0, b2, b3⟩ := hrows y.1 (hcopies y (a1.subset hy))
      rw [f5, hauto] at hi
      by_cases hd : D.dialect = .postgresql
      · rw [if_pos hd] at hi
        cases hac : td.autoincrement with
        | none => rw [hac] at hi; cases hi
        | some c =>
          rw [hac] at hi
          have hi' := firstIndex_some (show firstIndex c o.colsOut = some i from hi)
          obtain ⟨b4, b5, b6⟩ := hwc c (List.mem_of_getElem? hi')
          rcases hw.auto hd c hac b4 with h | h | ⟨h1, h2, h3⟩
          · exact absurd h b5
          · exact absurd h b6
          · obtain ⟨a, ha⟩ := hidx c b4
            obtain ⟨v, hv⟩ : ∃ v : Int, row0.get c = .int v := by
              rcases b3 c b4 with h | ⟨h, -⟩ | ⟨-, d, dc, t', fk, c1, c2, -, c4, c5⟩
              · rw [h]; exact h2 q (hsub q b1)
              · exact h
              · rw [known_table hok hfo hcp hc.planned hc.name hc.source] at c1
                cases c1
                exact absurd (List.of_mem_zip c4).1 (h3 (compacts_of hcp c5) fk c2)
            exact outRow_integer (W := D.world) (v := v) g3 g8 ho (r := y.1) (by rw [b2]; simp) hout h1 ha
              (by rw [b2, List.getElem?_map, ha]; simp [hv]) hi'
      · rw [if_neg hd] at hi; cases hi
    · -- batches are written
      rw [g1, g2, g4] at a4
      rw [g2, g4] at a5
      rw [List.nil_append] at a3
      obtain ⟨-, -, -, rows, -, c4⟩ := hsent n k kd t td hc j hj
      obtain ⟨c5, -, c6⟩ := c4 o pre s0 s' outs outs ho a1 a2 List.prefix_rfl
      obtain ⟨X', c7, -⟩ := flush_succeeds (d := target D kd td) (st := strategyFor C p n) (dialect := D.dialect)
        (cols := o.colsOut) (b := b) (T := X) (by
          intro c hcc
          rw [htp] at hcc
          obtain ⟨b1, b2, b3⟩ := hw.key c hcc
          rw [c5]
          unfold writtenColumns
          refine List.mem_filter.2 ⟨?_, by simpa using b3⟩
          rw [hcout]
          exact List.mem_filter.2 ⟨b1, by simpa [filtersOf] using b2⟩) hw.dialect hw.generated (by
          by_cases he : strategyFor C p n = .error
          · by_cases hne : td.primaryKey = []
            · exact .inr (.inl (by rw [htp]; exact hne))
            · right; right
              obtain ⟨hka, hu⟩ := hkeys n k kd t td hc he hne
              have := sent_keys hok hfo hcp hI hplan hall hpk hsrc hnames hc hka hne hu c6
              rw [commits_append a4 (.inl he), List.append_assoc]
              rw [← a3, ← c5] at this
              simpa [fullRows] using this
          · exact .inl he)
      rw [a5] at c7
      cases c7

end Subsetter
