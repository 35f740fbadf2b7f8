import Verif.Spec.RunDirectory
import Verif.Proofs.RunStarts

/- Lemmas about runs that write files. -/
namespace Subsetter
open Spec Props

variable {σ : Type} {C : RunConfig} {D : Setting σ} {p : Plan} {F : Files} {s : σ}

theorem fileOf_inj {n n' : Str} (h : fileOf n = fileOf n') : n = n' := List.append_cancel_right h

theorem fileName_eq {n : Str} {k : Key} (h : parseTableName n = some k) : fileName k = fileOf n := by
  unfold fileName fileOf
  rw [parse_str h]

theorem Files.set_same (F : Files) (n : Str) (l : List Row) : F.set n l n = some l := by
  unfold Files.set
  rw [if_pos rfl]

theorem Files.set_other {F : Files} {n n' : Str} (h : n' ≠ n) (l : List Row) : F.set n l n' = F n' := by
  unfold Files.set
  rw [if_neg h]

/-- The copying loop. -/
theorem copyFiles_spec {mult : Dict Str (List Str)}
    {read : Str → Except RunErr (Option (Key × Chain Val × List (List Val)))} :
    ∀ {names : List Str} {F F' : Files} {s : σ} {err : Option RunErr}, names.Nodup →
    (∀ n ∈ names, read n ≠ .ok none ∧ ∀ k ch rows, read n = .ok (some (k, ch, rows)) → fileName k = fileOf n) →
    copyFiles C D mult read names F s = (F', err) →
    ∃ done todo, names = done ++ todo ∧ (err = none → todo = []) ∧
      (∀ n ∈ done, ∃ k ch rows lines s s', read n = .ok (some (k, ch, rows)) ∧ F' (fileOf n) = some lines ∧
        directoryOutput D.world ch (if (dget mult n).isNone then 1 else C.mult.multiplier.toNat)
          ((dget mult n).getD []) rows s = (lines, s', none)) ∧
      (∀ n, todo.head? = some n → F' (fileOf n) = F (fileOf n) ∨
        ∃ k ch rows lines s s' e, read n = .ok (some (k, ch, rows)) ∧ F' (fileOf n) = some lines ∧
          directoryOutput D.world ch (if (dget mult n).isNone then 1 else C.mult.multiplier.toNat)
            ((dget mult n).getD []) rows s = (lines, s', some e)) ∧
      (∀ f, (∀ n ∈ done, f ≠ fileOf n) → (∀ n, todo.head? = some n → f ≠ fileOf n) → F' f = F f)
  | [], F, F', s, err, _, _, h => by
    cases h
    exact ⟨[], [], rfl, fun _ => rfl, by simp, by simp, fun _ _ _ => rfl⟩
  | n :: ns, F, F', s, err, hnd, hread, h => by
    unfold copyFiles at h
    obtain ⟨hne, hfile⟩ := hread n (by simp)
    cases h1 : read n with
    | error e =>
      rw [h1] at h; cases h
      exact ⟨[], n :: ns, rfl, fun h => (by cases h), by simp, fun m _ => .inl rfl, fun _ _ _ => rfl⟩
    | ok o =>
      cases o with
      | none => exact absurd h1 hne
      | some x =>
        obtain ⟨k, ch, rows⟩ := x
        have hfk := hfile k ch rows h1
        rw [h1] at h; dsimp only at h
        rw [hfk] at h
        generalize h2 : directoryOutput D.world ch (if (dget mult n).isNone then 1 else C.mult.multiplier.toNat)
          ((dget mult n).getD []) rows s = o at h
        obtain ⟨lines, s', err'⟩ := o
        cases err' with
        | some e =>
          dsimp only at h
          cases h
          refine ⟨[], n :: ns, rfl, fun h => (by cases h), by simp, fun m hm => .inr ?_, fun f _ hf => ?_⟩
          · have : n = m := by simpa using hm
            subst this
            exact ⟨k, ch, rows, lines, s, s', e, h1, Files.set_same _ _ _, h2⟩
          · exact Files.set_other (hf n (by simp)) _
        | none =>
          dsimp only at h
          rw [List.nodup_cons] at hnd
          obtain ⟨done, todo, g1, g2, g3, g4, g5⟩ := copyFiles_spec hnd.2 (fun m hm => hread m (by simp [hm])) h
          have hnot : ∀ m ∈ ns, fileOf n ≠ fileOf m := fun m hm e => hnd.1 (fileOf_inj e ▸ hm)
          have hhead : ∀ m, todo.head? = some m → m ∈ ns := by
            intro m hm
            rw [g1]
            exact List.mem_append_right _ (List.mem_of_mem_head? hm)
          refine ⟨n :: done, todo, by rw [g1]; rfl, g2, fun m hm => ?_, fun m hm => ?_, fun f h3 h4 => ?_⟩
          · rcases List.mem_cons.1 hm with rfl | hm
            · refine ⟨k, ch, rows, lines, s, s', h1, ?_, h2⟩
              rw [g5 _ (fun m hm => hnot m (by rw [g1]; simp [hm])) (fun m hm => hnot m (hhead m hm))]
              exact Files.set_same _ _ _
            · exact g3 m hm
          · rcases g4 m hm with e | e
            · left
              rw [e]
              exact Files.set_other (fun e => hnot m (hhead m hm) e.symm) _
            · exact .inr e
          · rw [g5 f (fun m hm => h3 m (by simp [hm])) h4]
            exact Files.set_other (h3 n (by simp)) _

/-- What is known when copying begins. -/
structure DirSteps (C : RunConfig) (D : Setting σ) (p : Plan) (l : Loaded) (T : Tables) (mult : Dict Str (List Str))
    (compact : Dict Key (List Str)) (mat : List (Key × Nat)) (temps : Temps) : Prop where
  load : fromEngine D.fnmatch D.srcDb (dkeys p.queries) false false = some (some l)
  infer : T = inferStep C.infer l.tables
  valid : validateFilters D.world T C.filters = .ok ()
  mult : multipliedColumns T C.mult p.passthrough (dkeys p.queries) = .ok mult
  compacted : getCompactColumns T p.passthrough C.compact = .ok compact
  ordered : materializationOrder T compact p = .ok mat
  materialized : materialize D.engine T D.src D.reopen p mat [] = .ok temps

theorem sampleDirectory_cases : (∃ e, sampleDirectory C D p F s = (F, some e)) ∨
    ∃ l T mult compact mat temps, DirSteps C D p l T mult compact mat temps ∧
      sampleDirectory C D p F s = copyFiles C D mult (readRows C D T compact p temps) (dkeys p.queries) F s := by
  unfold sampleDirectory
  split
  · exact .inl ⟨_, rfl⟩
  · exact .inl ⟨_, rfl⟩
  · rename_i l hl
    dsimp only
    split
    · exact .inl ⟨_, rfl⟩
    · rename_i hv
      split
      · exact .inl ⟨_, rfl⟩
      · rename_i mult hm
        split
        · exact .inl ⟨_, rfl⟩
        · rename_i compact hc
          split
          · exact .inl ⟨_, rfl⟩
          · rename_i mat ho
            split
            · exact .inl ⟨_, rfl⟩
            · rename_i temps ht
              exact .inr ⟨l, _, mult, compact, mat, temps, ⟨hl, rfl, hv, hm, hc, ho, ht⟩, rfl⟩

theorem DirSteps.run {l : Loaded} {T : Tables} {mult : Dict Str (List Str)} {compact : Dict Key (List Str)}
    {mat : List (Key × Nat)} {temps : Temps} (h : DirSteps C D p l T mult compact mat temps) :
    sampleDirectory C D p F s = copyFiles C D mult (readRows C D T compact p temps) (dkeys p.queries) F s := by
  unfold sampleDirectory
  rw [h.load]; dsimp only
  rw [← h.infer, h.valid]; dsimp only
  rw [h.mult]; dsimp only
  rw [h.compacted]; dsimp only
  rw [h.ordered]; dsimp only
  rw [h.materialized]

section
variable {l : Loaded} {T : Tables} {mult : Dict Str (List Str)} {compact : Dict Key (List Str)} {mat : List (Key × Nat)}
  {temps : Temps} (hst : DirSteps C D p l T mult compact mat temps)
include hst

theorem DirSteps.loaded (hok : ReadOK C D p) : LoadedFacts D ⟨l.tables, T, mult, ⟨[], [], []⟩⟩ := by
  refine ⟨(loaded_ok hok.src hst.load).1, by rw [hst.infer]; exact inferStep_sameBut _ _, fun k t hk => ?_⟩
  rcases fromEngine_spec (fnmatch := D.fnmatch) hok.src (dkeys p.queries) false false with
    ⟨l', g1, -, -, g4, -⟩ | ⟨g1, -⟩
  · rw [hst.load] at g1; cases g1
    obtain ⟨⟨n, hn⟩, rfl⟩ := g4 k t (dget_some_mem hk)
    exact ⟨by rw [← hok.src.name_eq n t hn]; exact hn, rfl⟩
  · rw [hst.load] at g1; cases g1

theorem DirSteps.plan (hok : ReadOK C D p) : PlanOK T p ∧ Acyclic p := planOK_of_order hok.plan hst.ordered

theorem DirSteps.sample (hok : ReadOK C D p) : ∃ Smp, IsSample D.engine (dbTables D.srcDb) D.src p Smp ∧
    (∀ k q, Planned p k q → sampleRows D.engine T D.src D.reopen temps k q = .ok (Smp k)) ∧
    ∀ k rows, dget temps (k, 0) = some rows → rows = Smp k := by
  obtain ⟨hp, ha⟩ := hst.plan hok
  obtain ⟨order', temps', h1, h2, -, -, -, h6, h7⟩ := Subsetter.materialized hp ha D.engine compact D.src D.reopen
  rw [hst.ordered] at h1; cases h1
  rw [hst.materialized] at h2; cases h2
  refine ⟨_, ((hst.loaded hok).isSample hok.src hp).1 h6, h7, fun k rows hk => ?_⟩
  unfold sampleOf
  rw [hk]

omit hst in
theorem readRows_some {n : Str} {k : Key} {ch : Chain Val} {rs : List (List Val)}
    (h : readRows C D T compact p temps n = .ok (some (k, ch, rs))) :
    ∃ q t rows, parseTableName n = some k ∧ dget p.queries n = some q ∧
      copyRows D.engine T D.le C.compact.startKey compact D.src D.reopen temps k q = .ok rows ∧
      dget T k = some t ∧ constructFilter D.world t.columns ((dget C.filters n).getD []) = .ok ch ∧
      rs = rows.map fun r => t.columns.map r.get := by
  unfold readRows at h
  split at h
  · cases h
  · rename_i k' hk
    split at h
    · cases h
    · rename_i q hq
      split at h
      · cases h
      · rename_i rows hr
        split at h
        · cases h
        · rename_i t ht
          split at h
          · cases h
          · rename_i ch' hc
            cases h
            exact ⟨q, t, rows, hk, hq, hr, ht, hc, rfl⟩

omit hst in
theorem readRows_ne {n : Str} (hn : n ∈ dkeys p.queries) : readRows C D T compact p temps n ≠ .ok none := by
  intro h
  obtain ⟨q, hq⟩ := Option.isSome_iff_exists.1 (dget_isSome_iff.2 hn)
  unfold readRows at h
  rw [hq] at h
  split at h
  · cases h
  · dsimp only at h
    split at h
    · cases h
    · split at h
      · cases h
      · split at h <;> cases h

/-- The identifiers given to the rows of a table. -/
abbrev dirIds (C : RunConfig) (D : Setting σ) (T : Tables) (Smp : Key → List Row) (d : Key) : List Int :=
  compactIds D.le C.compact.startKey (((dget T d).map TableMeta.primaryKey).getD []) (Smp d)

theorem DirSteps.lines (hok : ReadOK C D p) {Smp : Key → List Row}
    (hS : ∀ k q, Planned p k q → sampleRows D.engine T D.src D.reopen temps k q = .ok (Smp k))
    (htemps : ∀ k rows, dget temps (k, 0) = some rows → rows = Smp k)
    {n : Str} {k : Key} {t : TableMeta} (hk : parseTableName n = some k) (ht : (n, t) ∈ D.srcDb) {k' : Key} {ch : Chain Val}
    {rs : List (List Val)} (h : readRows C D T compact p temps n = .ok (some (k', ch, rs))) {lines : List Row} {s s' : σ}
    {err : Option OutErr}
    (ho : directoryOutput D.world ch (if (dget mult n).isNone then 1 else C.mult.multiplier.toNat)
      ((dget mult n).getD []) rs s = (lines, s', err)) :
    Lines C D p T mult compact Smp (dirIds C D T Smp) n k t err.isNone lines := by
  obtain ⟨q, t', rows, g1, g2, g3, g4, g5, g6⟩ := readRows_some h
  rw [hk] at g1; cases g1
  obtain ⟨t0, f1, f2, -, -, f5⟩ := (hst.loaded hok).get hok.src g4
  have ht0 : t0 = t := by
    have e := dget_of_mem hok.src.names_nodup ht
    rw [← parse_str hk, show dget D.srcDb (Key.str k) = some t0 from dget_of_mem hok.src.names_nodup f1] at e
    cases e; rfl
  subst ht0
  have hcols : t'.columns = t0.columns := by rw [f5]
  rw [hcols] at g5 g6
  have hnd := hok.srcColumns n t0 ht
  have hn : n ∈ dkeys p.queries := dget_isSome_iff.1 (by rw [g2]; rfl)
  rw [timesWritten_eq hst.mult hn, g6] at ho
  obtain ⟨e1, e2⟩ := c50_one_line_per_copy g5 hnd (by simp) ho
  refine ⟨ch, rows, s, g5, fun hu => ?_, fun he => ?_, e2⟩
  · have := copyRows_value (S := Smp) g4 (by rw [hcols]; exact hnd) (hS k q ⟨n, dget_some_mem g2, hk⟩) (fun x hx => by
      obtain ⟨rows', hr⟩ := Option.isSome_iff_exists.1 (copyRows_temps g4 g3 x hx)
      rw [hr, htemps _ _ hr]) hu g3
    rw [hcols] at this
    have e : dirIds C D T Smp k = compactIds D.le C.compact.startKey t'.primaryKey (Smp k) := by
      unfold dirIds
      rw [g4]
      rfl
    rw [e]
    exact this
  · rw [e1 (Option.isNone_iff_eq_none.1 he), List.length_map]

theorem DirSteps.reading (hok : ReadOK C D p) {Smp : Key → List Row}
    (hsmp : IsSample D.engine (dbTables D.srcDb) D.src p Smp) : Reading C D p T mult compact Smp (dirIds C D T Smp) := by
  refine ⟨fun k t hk => ?_, fun n hn => ?_, fun n c => ?_, (c32_columns hok.compactNames hst.compacted).1, hsmp,
    fun k => c31_ids_fill _ _ _ _⟩
  · obtain ⟨t0, h1, -, h3, -, h2⟩ := (hst.loaded hok).get hok.src hk
    refine ⟨t0, h1, h2, fun hi => ?_⟩
    have : T = l.tables := by rw [hst.infer, hi]; rfl
    subst this
    dsimp only at h3
    rw [hk] at h3
    exact Option.some.inj h3
  · obtain ⟨⟨n, q⟩, g1, rfl⟩ := List.mem_map.1 hn
    exact (hst.plan hok).1.known n q g1
  · by_cases hm : 1 < C.mult.multiplier
    · rw [(c28_exact hm hst.mult).1]
      simp [hm]
    · have h1 := hst.mult
      rw [c28_no_multiplier T (by omega)] at h1
      cases h1
      simp [dget, hm]

end

/-! ### Rows that are not transformed -/

theorem directory_plain {W : Outside σ Val} {cols : List Str} (rows : List (List Val)) (s : σ) :
    directoryOutput W ⟨cols, cols, []⟩ 1 [] rows s = (rows.map fun r => cols.zip r, s, none) := by
  unfold directoryOutput
  rw [copies_one]
  induction rows with
  | nil => rfl
  | cons r rs ih =>
    have hrow : ∀ o : OutPlan, o.views = [] → o.multiplied = [] → o.offsets = [] → outRow W o (r, 0) s = .ok (r, s) := by
      intro o h1 h2 h3
      unfold outRow
      rw [h1, h2, h3]
      rfl
    rw [List.map_cons]
    unfold directoryLoop
    rw [hrow _ rfl (by simp [indexesOf]) rfl]
    dsimp only at ih ⊢
    rw [ih]
    rfl

theorem copyFiles_succeeds {mult : Dict Str (List Str)}
    {read : Str → Except RunErr (Option (Key × Chain Val × List (List Val)))} : ∀ {names : List Str} {F : Files} {s : σ},
    (∀ n ∈ names, ∃ k ch rows, read n = .ok (some (k, ch, rows)) ∧ ∀ s, ∃ lines s', directoryOutput D.world ch
      (if (dget mult n).isNone then 1 else C.mult.multiplier.toNat) ((dget mult n).getD []) rows s = (lines, s', none)) →
    (copyFiles C D mult read names F s).2 = none
  | [], _, _, _ => rfl
  | n :: ns, F, s, h => by
    obtain ⟨k, ch, rows, h1, h2⟩ := h n (by simp)
    obtain ⟨lines, s', h3⟩ := h2 s
    unfold copyFiles
    rw [h1]; dsimp only
    rw [h3]; dsimp only
    exact copyFiles_succeeds fun m hm => h m (by simp [hm])

/-- A plain run gets to copying. -/
theorem dirSteps_exist (hok : ReadOK C D p) (hpl : Plain C)
    (hs : ∀ n ∈ dkeys p.queries, n ∈ dkeys D.srcDb ∧ D.fnmatch n n = true)
    (hrefs : ∀ k q, Planned p k q → ∀ x ∈ q.refs, ∃ q', Planned p (x.schema, x.name) q') (hac : Acyclic p) :
    ∃ l T mat temps, DirSteps C D p l T [] [] mat temps := by
  obtain ⟨l, h1, hraw⟩ := source_loaded hok.src hs
  have hsb := inferStep_sameBut C.infer l.tables
  have h7 : getCompactColumns (inferStep C.infer l.tables) p.passthrough C.compact = .ok [] := by
    unfold getCompactColumns
    rw [namedColumns_nil hpl.compactColumns, hpl.compactKeys.1, hpl.compactKeys.2]
    rfl
  have hkn : ∀ n ∈ dkeys p.queries, ∃ k, parseTableName n = some k ∧ (dget (inferStep C.infer l.tables) k).isSome := by
    intro n hn
    obtain ⟨k, t, g1, g2, -⟩ := hraw n hn
    exact ⟨k, g1, dget_isSome_iff.2 (by rw [hsb.keys]; exact dget_isSome_iff.1 (by rw [g2]; rfl))⟩
  have hpo : PlanOK (inferStep C.infer l.tables) p := by
    refine ⟨hok.plan, fun n q hn => hkn n (List.mem_map_of_mem (f := Prod.fst) hn), fun k q hq y hy => ?_, fun k d hd => ?_⟩
    · obtain ⟨q', n, g1, g2⟩ := hrefs k q hq y hy
      obtain ⟨k', g3, g4⟩ := hkn n (List.mem_map_of_mem (f := Prod.fst) g1)
      rw [g2] at g3
      cases g3
      exact g4
    · obtain ⟨q, hq, y, hy, -, rfl⟩ := hd
      exact hrefs k q hq y hy
  obtain ⟨mat, temps, h8, h9, -⟩ := Subsetter.materialized hpo hac D.engine [] D.src D.reopen
  exact ⟨l, _, mat, temps, h1, rfl, validateFilters_nil hpl.filters,
    c28_no_multiplier _ (by have := hpl.once; omega) _ _, h7, h8, h9⟩

/-- Reading a table of a plain run. -/
theorem DirSteps.reads {l : Loaded} {T : Tables} {mat : List (Key × Nat)} {temps : Temps}
    (hst : DirSteps C D p l T [] [] mat temps) (hok : ReadOK C D p) (hpl : Plain C) {Smp : Key → List Row}
    (hS : ∀ k q, Planned p k q → sampleRows D.engine T D.src D.reopen temps k q = .ok (Smp k)) {n : Str}
    (hn : n ∈ dkeys p.queries) : ∃ k t, parseTableName n = some k ∧ (n, t) ∈ D.srcDb ∧
      readRows C D T [] p temps n = .ok (some (k, ⟨t.columns, t.columns, []⟩, (Smp k).map fun r => t.columns.map r.get)) := by
  obtain ⟨q, hq⟩ := Option.isSome_iff_exists.1 (dget_isSome_iff.2 hn)
  obtain ⟨k, hk, hks⟩ := (hst.plan hok).1.known n q (dget_some_mem hq)
  obtain ⟨t', ht'⟩ := Option.isSome_iff_exists.1 hks
  obtain ⟨t0, f1, -, -, -, f5⟩ := (hst.loaded hok).get hok.src ht'
  have hcols : t'.columns = t0.columns := by rw [f5]
  have hfl : (dget C.filters n).getD [] = [] := by
    cases h1 : dget C.filters n with
    | none => rfl
    | some fs => exact hpl.filters n fs (dget_some_mem h1)
  have hcr : copyRows D.engine T D.le C.compact.startKey [] D.src D.reopen temps k q = .ok (Smp k) := by
    unfold copyRows
    rw [hS k q ⟨n, dget_some_mem hq, hk⟩]; dsimp only
    rw [ht']; dsimp only
    rw [if_pos ⟨remoteCols_nil (fun _ => rfl) t'.foreignKeys, rfl⟩]
  refine ⟨k, t0, hk, by rw [← parse_str hk]; exact f1, ?_⟩
  unfold readRows
  rw [hk]; dsimp only
  rw [hq]; dsimp only
  rw [hcr]; dsimp only
  rw [ht']; dsimp only
  rw [hfl, hcols]
  rfl

end Subsetter
