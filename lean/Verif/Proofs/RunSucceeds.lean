import Verif.Props.Run
import Verif.Proofs.RunErrors

/- When writing does not fail. -/
namespace Subsetter
open Spec Props

/-! ### A batch -/

section
variable {d : DestTable} {upd : List Str} {st : Strategy}

theorem insertMany_succeeds : ∀ {rows T : List Row},
    (st ≠ .error ∨ d.pk = [] ∨ KeysUnique d.pk (T ++ rows.map (fullRow d))) →
    ∃ T', insertMany st d upd rows T = .ok T' ∧ (st = .error → T' = T ++ rows.map (fullRow d))
  | [], T, _ => ⟨T, rfl, fun _ => by simp⟩
  | r :: rows, T, hu => by
    have h1 : ∃ T1, insertOne st d upd (fullRow d r) T = .ok T1 ∧ (st = .error → T1 = T ++ [fullRow d r]) := by
      unfold insertOne
      split
      · rename_i hc
        rcases hu with hu | hu | hu
        · cases st
          · exact absurd rfl hu
          · exact ⟨_, rfl, fun h => by cases h⟩
          · exact ⟨_, rfl, fun h => by cases h⟩
        · exact absurd hu hc.1
        · exfalso
          obtain ⟨q, hq, e⟩ := any_key.1 hc.2
          unfold KeysUnique at hu
          rw [List.map_append, List.nodup_append] at hu
          exact hu.2.2 _ (List.mem_map.2 ⟨q, hq, rfl⟩) _ (List.mem_map.2 ⟨_, by simp, rfl⟩) e
      · exact ⟨_, rfl, fun _ => rfl⟩
    obtain ⟨T1, h2, h3⟩ := h1
    have h4 : st ≠ .error ∨ d.pk = [] ∨ KeysUnique d.pk (T1 ++ rows.map (fullRow d)) := by
      by_cases he : st = .error
      · rw [h3 he]
        rcases hu with hu | hu | hu
        · exact .inl hu
        · exact .inr (.inl hu)
        · exact .inr (.inr (by simpa [List.append_assoc] using hu))
      · exact .inl he
    obtain ⟨T', h5, h6⟩ := insertMany_succeeds h4
    refine ⟨T', by unfold insertMany; rw [h2]; exact h5, fun he => ?_⟩
    rw [h6 he, h3 he]
    simp

theorem flush_succeeds {dialect : Dialect} {cols : List Str} {b : List (List Val)} {T : List Row}
    (hpk : ∀ c ∈ d.pk, c ∈ cols) (hd : dialect ≠ .generic ∨ st = .error) (hc : st ≠ .replace ∨ d.computed = [])
    (hu : st ≠ .error ∨ d.pk = [] ∨ KeysUnique d.pk (T ++ fullRows d cols b)) :
    ∃ T', flushBuffer dialect st d cols b T = .ok T' ∧ (st = .error → T' = T ++ fullRows d cols b) := by
  have hci : ∃ st' nonPk, conflictInit st d.pk cols = .ok (st', nonPk) ∧ (st = .error → st' = .error) ∧
      (st' = .error → st = .error ∨ d.pk = []) ∧ (st' = .replace → st = .replace) := by
    unfold conflictInit
    split
    · rename_i h
      exact ⟨_, _, rfl, fun _ => rfl, fun _ => .inr (by simpa using h), fun h => by cases h⟩
    · split
      · dsimp only
        split
        · rename_i h
          exact ⟨_, _, rfl, fun e => (by rw [e] at h; cases h.1), fun h => (by cases h), fun h => by cases h⟩
        · exact ⟨_, _, rfl, id, .inl, id⟩
      · rename_i h
        exact absurd (List.all_eq_true.2 fun c hc => by simpa using hpk c hc) h
  obtain ⟨st', nonPk, h1, h2, h3, h4⟩ := hci
  have e : (b.map fun row => cols.zip row).map (fullRow d) = fullRows d cols b := by
    unfold fullRows; rw [List.map_map]; rfl
  obtain ⟨T', h5, h6⟩ := insertMany_succeeds (st := st') (d := d) (upd := updateColumns dialect d nonPk)
    (rows := b.map fun row => cols.zip row) (T := T) (by
      rw [e]
      by_cases he : st' = .error
      · rcases h3 he with h | h
        · rcases hu with hu | hu
          · exact absurd h hu
          · exact .inr hu
        · exact .inr (.inl h)
      · exact .inl he)
  refine ⟨T', ?_, fun he => by rw [h6 (h2 he), e]⟩
  unfold flushBuffer
  rw [h1]
  dsimp only
  rw [if_neg, if_neg]
  · exact h5
  · rintro ⟨g1, g2⟩
    rcases hc with hc | hc
    · exact hc (h4 g1)
    · rw [hc] at g2
      simp at g2
  · rintro ⟨g1, g2⟩
    rcases hd with hd | hd
    · exact hd g1
    · exact g2 (h2 hd)

end

/-! ### A table -/

section
variable {σ D : Type} {W : Outside σ Val} {flush : List (List Val) → D → Except OutErr D} {p : OutPlan}

/-- The values that decide the sequence can be compared. -/
def AutoOK (p : OutPlan) (row : List Val) : Prop := ∀ i, p.autoinc = some i → ∃ v : Int, row[i]? = some (.int v)

theorem autoMax_succeeds {acc : Val} {row : List Val} (ha : acc = .null ∨ ∃ v : Int, acc = .int v) (h : AutoOK p row) :
    ∃ a, autoMax p acc row = .ok a ∧ (a = .null ∨ ∃ v : Int, a = .int v) := by
  unfold autoMax
  cases h1 : p.autoinc with
  | none => exact ⟨acc, rfl, ha⟩
  | some i =>
    obtain ⟨v, hv⟩ := h i h1
    dsimp only
    rw [hv]
    rcases ha with rfl | ⟨a, rfl⟩
    · exact ⟨_, rfl, .inr ⟨v, rfl⟩⟩
    · exact ⟨_, rfl, .inr ⟨_, rfl⟩⟩

theorem writeLoop_succeeds {f : List Val × Nat → List Val} {inv : List (List Val) → D → Prop} {outs : List (List Val)}
    (hflush : ∀ done b d, inv done d → done ++ b <+: outs → ∃ d', flush b d = .ok d' ∧ inv (done ++ b) d') :
    ∀ {xs : List (List Val × Nat)} {st : WState σ D} {done : List (List Val)}, inv done st.dest →
      (st.auto = .null ∨ ∃ v : Int, st.auto = .int v) → done ++ st.buffer ++ xs.map f = outs →
      (∀ x ∈ xs, (∀ s, outRow W p x s = .ok (f x, s)) ∧ AutoOK p (f x)) →
      ∃ st' done', writeLoop W flush p xs st = .ok st' ∧ inv done' st'.dest ∧ done' ++ st'.buffer = outs
  | [], st, done, hi, _, he, _ => ⟨st, done, rfl, hi, by simpa using he⟩
  | x :: xs, st, done, hi, ha, he, hA => by
    have hrow := (hA x (by simp)).1
    obtain ⟨a, h1, h2⟩ := autoMax_succeeds ha (hA x (by simp)).2
    have hA' : ∀ y ∈ xs, (∀ s, outRow W p y s = .ok (f y, s)) ∧ AutoOK p (f y) := fun y hy => hA y (by simp [hy])
    by_cases hb : p.buffer < (st.buffer ++ [f x]).length
    · obtain ⟨d', h3, h4⟩ := hflush done (st.buffer ++ [f x]) st.dest hi ⟨xs.map f, by rw [← he]; simp⟩
      have hstep : writeStep W flush p st x = .ok ⟨[], d', a, st.world, st.written ++ [st.buffer ++ [f x]]⟩ := by
        unfold writeStep
        rw [hrow]
        dsimp only
        rw [h1]
        dsimp only
        rw [if_pos hb, h3]
      obtain ⟨st', done', h5, h6⟩ := writeLoop_succeeds hflush (xs := xs)
        (st := ⟨[], d', a, st.world, st.written ++ [st.buffer ++ [f x]]⟩) h4 h2 (by rw [← he]; simp) hA'
      exact ⟨st', done', by unfold writeLoop; rw [hstep]; exact h5, h6⟩
    · have hstep : writeStep W flush p st x = .ok ⟨st.buffer ++ [f x], st.dest, a, st.world, st.written⟩ := by
        unfold writeStep
        rw [hrow]
        dsimp only
        rw [h1]
        dsimp only
        rw [if_neg hb]
      obtain ⟨st', done', h5, h6⟩ := writeLoop_succeeds hflush (xs := xs)
        (st := ⟨st.buffer ++ [f x], st.dest, a, st.world, st.written⟩) hi h2 (by rw [← he]; simp) hA'
      exact ⟨st', done', by unfold writeLoop; rw [hstep]; exact h5, h6⟩

theorem writeAll_succeeds {f : List Val × Nat → List Val} {inv : List (List Val) → D → Prop} {rows : List (List Val)}
    (hflush : ∀ done b d, inv done d → done ++ b <+: (copies p.multiplier rows).map f →
      ∃ d', flush b d = .ok d' ∧ inv (done ++ b) d')
    (hA : ∀ x ∈ copies p.multiplier rows, (∀ s, outRow W p x s = .ok (f x, s)) ∧ AutoOK p (f x)) {d : D} (hi : inv [] d) (s : σ) :
    ∃ st done, writeAll W flush p rows d s = .ok st ∧ inv done st.dest := by
  obtain ⟨st, done, h1, h2, h3⟩ := writeLoop_succeeds hflush (xs := copies p.multiplier rows)
    (st := ⟨[], d, .null, s, []⟩) (done := []) hi (.inl rfl) (by simp) hA
  unfold writeAll
  rw [h1]
  dsimp only
  by_cases hb : st.buffer = []
  · exact ⟨st, done, by rw [if_pos hb], h2⟩
  · rw [if_neg hb]
    obtain ⟨d', h4, h5⟩ := hflush done st.buffer st.dest h2 ⟨[], by rw [h3]; simp⟩
    rw [h4]
    exact ⟨_, _, rfl, h5⟩

end

/-! ### All tables -/

variable {σ : Type}

theorem copyAll_succeeds {W : Outside σ Val} {dialect : Dialect} {read : Str → Except RunErr (Option TableJob)}
    {B : DbState} : ∀ {names : List Str} {X : DbState} {rest : List DbState} {s : σ}, names.Nodup →
    (∀ n ∈ names, ∀ n' ∈ names, ∀ j j', read n = .ok (some j) → read n' = .ok (some j') → j.key = j'.key → n = n') →
    (∀ n ∈ names, ∃ j o, read n = .ok (some j) ∧ outPlan j.input = .ok o ∧ X j.key = B j.key ∧
      ∀ (Y : DbState) (rest : List DbState) (s : σ), Y j.key = B j.key → ∃ st : WState σ (List DbState),
        writeAll W (flushTo dialect j.strategy j.key j.input.dest o.colsOut) o j.rows (Y :: rest) s = .ok st ∧
        ∃ Y' rest', st.dest = Y' :: rest' ∧ ∀ k, k ≠ j.key → Y' k = Y k) →
    (copyAll W dialect read names (X :: rest) s).2.2 = none
  | [], X, rest, s, _, _, _ => rfl
  | n :: ns, X, rest, s, hnd, hinj, hall => by
    obtain ⟨j, o, h1, h2, h3, h4⟩ := hall n (by simp)
    obtain ⟨st, h5, Y', rest', h6, h7⟩ := h4 X rest s h3
    rw [List.nodup_cons] at hnd
    have ih := copyAll_succeeds (W := W) (dialect := dialect) (read := read) (B := B) (names := ns) (X := Y')
      (rest := rest') (s := st.world) hnd.2 (fun a ha b hb => hinj a (by simp [ha]) b (by simp [hb])) (by
        intro n' hn'
        obtain ⟨j', o', g1, g2, g3, g4⟩ := hall n' (by simp [hn'])
        refine ⟨j', o', g1, g2, ?_, g4⟩
        rw [h7, g3]
        intro e
        have := hinj n' (by simp [hn']) n (by simp) j' j g1 h1 e
        subst this
        exact hnd.1 hn')
    unfold copyAll
    rw [h1]
    dsimp only
    rw [h2]
    dsimp only
    rw [h5]
    dsimp only
    rw [h6]
    exact ih

/-! ### Rows that are not transformed -/

theorem plain_outRow {W : Outside σ Val} {x : OutInput} {o : OutPlan} {cols : List Str}
    (hch : x.chain = ⟨cols, cols, []⟩) (hnd : cols.Nodup) (ho : outPlan x = .ok o) (hm : x.mult = [])
    (hoff : x.offsets = []) (s0 : σ) :
    ∃ f : List Val × Nat → List Val, ∀ y, y.1.length = cols.length → (∀ s, outRow W o y s = .ok (f y, s)) ∧
      ∀ (c : Str) (i : Nat), o.colsOut[i]? = some c → ∃ i0 : Nat, cols[i0]? = some c ∧ (f y)[i]? = y.1[i0]? := by
  unfold outPlan at ho
  rw [hch, hm, hoff] at ho
  dsimp only at ho
  have hoi : ∀ l : List Str, offsetIndexes l [] = [] := by
    intro l
    unfold offsetIndexes
    exact List.filterMap_eq_nil_iff.2 fun a _ => rfl
  have hmi : ∀ l : List Str, indexesOf l (fun c => decide (c ∈ ([] : List Str))) = [] := by
    intro l
    unfold indexesOf
    rw [List.map_eq_nil_iff, List.filter_eq_nil_iff]
    intro a _
    simp
  split at ho
  · cases ho
  · by_cases hc : cols.filter (fun c => decide (c ∈ x.dest.computed)) = []
    · rw [if_pos hc] at ho
      cases ho
      refine ⟨fun y => y.1, fun y hy => ⟨fun s => ?_, fun c i hi => ⟨i, hi, rfl⟩⟩⟩
      unfold outRow
      dsimp only
      rw [hmi, hoi]
      rfl
    · rw [if_neg hc] at ho
      cases ho
      generalize hcomp : (cols.filter fun c => decide (c ∈ x.dest.computed)) = comp
      have hloc := omitLocated (cols := cols) (out := cols.filter fun c => decide (c ∉ comp))
        fun c hc => List.mem_of_mem_filter hc
      refine ⟨fun y => (pick y.1 ((cols.filter fun c => decide (c ∉ comp)).filterMap fun c => lastIndex c cols)).toOption.getD [],
        fun y hy => ?_⟩
      obtain ⟨out, h1, h2⟩ := pick_spec (vals := y.1) (fun i hi => by rw [hy]; exact hloc.lt i hi)
      dsimp only
      rw [h1]
      have hrun : ∀ s, (mkOmit cols comp : SimpleView Val).run W y.1 s = .ok (out, s) := by
        intro s
        unfold mkOmit SimpleView.run
        dsimp only
        rw [h1]
      refine ⟨fun s => ?_, fun c i hi => ?_⟩
      · unfold outRow
        dsimp only
        rw [hmi, hoi]
        simp only [List.nil_append, runViews, View.run, hrun]
        rfl
      · have hci : c ∈ (mkOmit cols comp : SimpleView Val).colsOut := List.mem_of_getElem? hi
        obtain ⟨g1, g2⟩ := List.mem_filter.1 (show c ∈ cols.filter fun c => decide (c ∉ comp) from hci)
        obtain ⟨i0, hi0⟩ := List.getElem?_of_mem g1
        refine ⟨i0, hi0, ?_⟩
        obtain ⟨j, g3, g4⟩ := (simple_run (W := W) (g := .omit comp) rfl hnd hy (hrun s0)).2 c i0 (show c ∉ comp by simpa using g2) hi0
        have : j = i := nodup_get_inj (l := (mkOmit cols comp : SimpleView Val).colsOut) (hnd.filter _) g3 hi
        subst this
        exact g4

theorem copies_one (rows : List (List Val)) : copies 1 rows = rows.map fun r => (r, 0) := by
  unfold copies
  induction rows with
  | nil => rfl
  | cons r rs ih => simp only [List.flatMap_cons, ih]; simp

theorem run_of_rows {W : Outside σ Val} {o : OutPlan} {f : List Val × Nat → List Val} : ∀ {xs : List (List Val × Nat)},
    (∀ x ∈ xs, ∀ s, outRow W o x s = .ok (f x, s)) → ∀ s, Run W o xs s (xs.map f) s
  | [], _, s => .nil s
  | x :: xs, h, s => .cons (h x (by simp) s) (run_of_rows (fun y hy => h y (by simp [hy])) s)

section
variable {C : RunConfig} {D : Setting σ} {p : Plan} {S : DbState} {s : σ}
variable {r : Started} {db : Dict Str TableMeta} {x : DestMeta} {order : List Str} {states : List DbState}
  {offs : Dict Key (Dict Str Int)} {compact : Dict Key (List Str)} {mat : List (Key × Nat)} {temps : Temps}
variable (hst : Steps C D p S r db x order states offs compact mat temps)
include hst

theorem Steps.no_compact (hpl : Plain C) (hok : RunOK C D p) (d : Key) : (dget compact d).getD [] = [] := by
  have : ∀ c, ¬ IsCompacted compact d c := by
    intro c hd
    rcases ((c32_columns hok.compactNames hst.compacted).1 d c).1 hd with ⟨tb, cols, h1, h2, -⟩ | ⟨t', -, -, -, -, h1⟩
    · rw [hpl.compactColumns tb cols h1] at h2; cases h2
    · rw [hpl.compactKeys.1, hpl.compactKeys.2] at h1
      rcases h1 with h1 | ⟨h1, -⟩ <;> cases h1
  cases h : dget compact d with
  | none => rfl
  | some cols => exact List.eq_nil_iff_forall_not_mem.2 fun c hc => this c ⟨cols, h, hc⟩

/-- Reading a table does not fail. -/
theorem Steps.reads (hpl : Plain C) (hok : RunOK C D p) {n : Str} {k kd : Key} {t td : TableMeta}
    (hc : Copied C D p db n k kd t td) :
    ∃ j, readTable C D r x offs compact p temps n = .ok (some j) ∧
      j.input.autoincrement = if D.dialect = .postgresql then td.autoincrement else none := by
  obtain ⟨Smp, -, hS, -⟩ := hst.sample hok
  obtain ⟨q, hq⟩ := Option.isSome_iff_exists.1 (dget_isSome_iff.2 hc.planned)
  have hpq : Planned p k q := ⟨n, dget_some_mem hq, hc.name⟩
  obtain ⟨k', hk', hks⟩ := (hst.plan hok).1.known n q (dget_some_mem hq)
  rw [hc.name] at hk'; cases hk'
  obtain ⟨t', ht'⟩ := Option.isSome_iff_exists.1 hks
  obtain ⟨ch, hch⟩ := filter_built hst.start hc.name ht'
  have hnc := hst.no_compact hpl hok
  have hre := reached_iff hok (prepared_of_step hst.start hst.create)
  have hf := prepared_run hok hst.start hst.create
  obtain ⟨td', htd'⟩ := (hre kd).2 hc.reached
  have hg := dget_of_mem hf.tables.keys_nodup htd'
  have e := schema_get hf hc.schema hg
  subst e
  have hcr : copyRows D.engine r.tables D.le C.compact.startKey compact D.src D.reopen temps k q = .ok (Smp k) := by
    unfold copyRows
    rw [hS k q hpq]; dsimp only
    rw [ht']; dsimp only
    rw [if_pos ⟨remoteCols_nil hnc t'.foreignKeys, hnc k⟩]
  obtain ⟨a, b, h1, h2⟩ := hc.dest
  rw [hc.name] at h1
  have hk : k = (a, b) := Option.some.inj h1
  have htj : ∃ j, tableJob C D r.mult x offs p.passthrough n k t' (Smp k) = .ok j ∧
      j.input.autoincrement = if D.dialect = .postgresql then td'.autoincrement else none := by
    unfold tableJob
    rw [hch]; dsimp only
    rw [show remapTable C.remap k = some kd by rw [hk]; exact h2]; dsimp only
    rw [hg]
    exact ⟨_, rfl, rfl⟩
  obtain ⟨j, g1, g2⟩ := htj
  refine ⟨j, ?_, g2⟩
  unfold readTable
  rw [hc.name]; dsimp only
  rw [hq]; dsimp only
  rw [hcr]; dsimp only
  rw [ht']; dsimp only
  rw [g1]

theorem Steps.succeeds (hpl : Plain C) (hok : RunOK C D p) {B : DbState} {Smp : Key → List Row}
    (hb : Begins C D p S B) (hsmp : IsSample D.engine (dbTables D.srcDb) D.src p Smp) (ha : Accepts C D p db B Smp) :
    (copyAll D.world D.dialect (readTable C D r x offs compact p temps) order (states.reverse ++ [S]) s).2.2 = none := by
  obtain ⟨B', rest, Smp', ids, hB, hcp, hinj, -⟩ := hst.copying hok
  obtain ⟨Smp0, hsmp0, hS, htemps⟩ := hst.sample hok
  have hBB : B' = B := by
    funext k
    by_cases h : C.truncate = true ∧ Reached C D p k
    · rw [hb.emptied h.1 k h.2, hcp.begins.emptied h.1 k h.2]
    · have h' : C.truncate = true → ¬ Reached C D p k := fun h1 h2 => h ⟨h1, h2⟩
      rw [hb.kept k h', hcp.begins.kept k h']
  subst hBB
  have hder := hst.derived hok hB
  obtain ⟨hpo, hac⟩ := hst.plan hok
  have hfa := startRun_facts hok.src hst.start
  have hsm := isSample_unique hpo hac ((hfa.isSample hok.src hpo).2 hsmp) ((hfa.isSample hok.src hpo).2 hsmp0)
  have hmul : r.mult = [] := by
    obtain ⟨-, -, -, -, -, h1, -⟩ := startRun_ok hst.start
    rw [c28_no_multiplier _ (by have := hpl.once; omega)] at h1
    exact (Except.ok.inj h1).symm
  rw [hB]
  refine copyAll_succeeds (B := B') hcp.nodup hinj fun n hn => ?_
  obtain ⟨k, kd, t, td, hc⟩ := (hcp.all n).1 hn
  obtain ⟨j, hj, hauto⟩ := hst.reads hpl hok hc
  obtain ⟨g1, g2, g3, g4, g5, g6, g7, g8, rows, g9, g10, -⟩ := hst.job hok hS htemps hc hj
  have hrows := g10 (hst.no_compact hpl hok k) (hst.no_compact hpl hok)
  subst hrows
  obtain ⟨q, hq⟩ := Option.isSome_iff_exists.1 (dget_isSome_iff.2 hc.planned)
  have hsk : Smp k = Smp0 k := hsm k q ⟨n, dget_some_mem hq, hc.name⟩
  have hfl : (dget C.filters n).getD [] = [] := by
    cases h1 : dget C.filters n with
    | none => rfl
    | some fs => exact hpl.filters n fs (dget_some_mem h1)
  have hch : j.input.chain = ⟨t.columns, t.columns, []⟩ := by
    rw [hfl] at g3
    unfold constructFilter constructLoop at g3
    exact (Except.ok.inj g3).symm
  have htc : (target D kd td).columns = td.columns := by unfold target; split <;> rfl
  have htp : (target D kd td).pk = td.primaryKey := by unfold target; split <;> rfl
  have hop : ∃ o, outPlan j.input = .ok o := by
    unfold outPlan
    dsimp only
    rw [if_neg]
    · exact ⟨_, rfl⟩
    · rw [hch, g2, htc]
      dsimp only
      rw [not_not, List.filter_eq_nil_iff]
      intro c hcc
      simpa using ha.columns n k kd t td hc c hcc
  obtain ⟨o, ho⟩ := hop
  have htw : timesWritten C p n = 1 := by
    unfold timesWritten
    rw [if_neg]
    intro h1
    have := hpl.once
    omega
  have hstr : j.strategy = C.strategy := by
    rw [g4]
    unfold strategyFor
    rw [if_neg (by rw [hpl.merge]; simp)]
  have hom : o.multiplier = 1 := by rw [(outPlan_ok ho).2.2.1, g6, htw]
  have hrl : ∀ y ∈ copies o.multiplier j.rows, y.1.length = t.columns.length ∧ ∃ q ∈ Smp k, y.1 = t.columns.map q.get := by
    intro y hy
    rw [hom, copies_one, g9] at hy
    obtain ⟨y1, hy1, rfl⟩ := List.mem_map.1 hy
    obtain ⟨q, hq, rfl⟩ := List.mem_map.1 hy1
    rw [← hsk] at hq
    exact ⟨by simp, q, hq, rfl⟩
  obtain ⟨f, hf⟩ := plain_outRow (W := D.world) hch g8 ho (by rw [g7, hmul]; rfl)
    (by rw [g5]; exact hder.unmerged hpl.merge kd) s
  have hrun := run_of_rows (W := D.world) (o := o) (fun y hy => (hf y (hrl y hy).1).1) s
  obtain ⟨-, -, -, rows', e1, e2⟩ := hst.sent hok hS htemps hc hj
  obtain ⟨e3, -, e4⟩ := e2 o _ s s _ _ ho (List.prefix_refl _) hrun (List.prefix_refl _)
  obtain ⟨e5, e6⟩ := plain_rows hpl hder (c31_ids_fill D.le C.compact.startKey
    (((dget r.tables k).map TableMeta.primaryKey).getD []) (Smp0 k)).1 g8 e4
    (by rw [List.length_map, copies_length, hom, htw, e1])
  rw [← e3] at e5 e6
  rw [← hsk] at e5
  refine ⟨j, o, hj, ho, rfl, fun Y rest s hY => ?_⟩
  rw [g1] at hY ⊢
  have hw := writeAll_succeeds (W := D.world) (p := o) (flush := flushTo D.dialect j.strategy kd j.input.dest o.colsOut)
    (f := f) (rows := j.rows) (d := Y :: rest)
    (inv := fun done d => ∃ Y' rest', d = Y' :: rest' ∧ (∀ k', k' ≠ kd → Y' k' = Y k') ∧
      (C.strategy = .error → Y' kd = B' kd ++ fullRows (target D kd td) o.colsOut done)) ?_ ?_ ⟨Y, rest, rfl, fun _ _ => rfl, fun _ => by rw [hY]; simp [fullRows]⟩ s
  · obtain ⟨st, done, h1, Y', rest', h2, h3, -⟩ := hw
    exact ⟨st, h1, Y', rest', h2, h3⟩
  · rintro done b d ⟨Y', rest', rfl, h2, h3⟩ hpre
    obtain ⟨T', h4, h5⟩ := flush_succeeds (d := target D kd td) (st := C.strategy) (dialect := D.dialect)
      (cols := o.colsOut) (b := b) (T := Y' kd) (by
        intro c hcc
        rw [htp] at hcc
        obtain ⟨h5, h6⟩ := ha.key n k kd t td hc c hcc
        rw [e6]
        exact List.mem_filter.2 ⟨h5, by simpa using h6⟩) ha.dialect (ha.generated n k kd t td hc) (by
        by_cases he : C.strategy = .error
        · right
          rw [htp]
          refine (ha.unique n k kd t td hc he).imp id fun h6 => ?_
          rw [h3 he, List.append_assoc]
          obtain ⟨tl, h7⟩ := hpre
          rw [← e5, ← h7] at h6
          unfold KeysUnique at h6 ⊢
          unfold fullRows at h6 ⊢
          simp only [List.map_append] at h6 ⊢
          rw [← List.append_assoc] at h6
          have := h6.of_append_left
          simpa [List.append_assoc] using this
        · exact .inl he)
    refine ⟨Y'.set kd T' :: Y' :: rest', ?_, Y'.set kd T', Y' :: rest', rfl, fun k' hk' => ?_, fun he => ?_⟩
    · unfold flushTo
      rw [hstr, g2]
      dsimp only
      rw [h4]
    · rw [set_ne hk', h2 k' hk']
    · rw [set_self, h5 he, h3 he]
      simp [fullRows]
  · intro y hy
    obtain ⟨h1, q, h2, h3⟩ := hrl y hy
    obtain ⟨h4, h5⟩ := hf y h1
    refine ⟨h4, fun i hi => ?_⟩
    have hoa : o.autoinc = j.input.autoincrement.bind fun c => firstIndex c o.colsOut := by
      unfold outPlan at ho
      dsimp only at ho
      split at ho
      · cases ho
      · cases ho; rfl
    rw [hoa, hauto] at hi
    by_cases hd : D.dialect = .postgresql
    · rw [if_pos hd] at hi
      cases hac : td.autoincrement with
      | none => rw [hac] at hi; cases hi
      | some c =>
        rw [hac] at hi
        have hi' := firstIndex_some (show firstIndex c o.colsOut = some i from hi)
        obtain ⟨i0, h6, h7⟩ := h5 c i hi'
        have hct : c ∈ t.columns := List.mem_of_getElem? h6
        obtain ⟨v, hv⟩ := ha.auto hd n k kd t td hc c hac hct q h2
        refine ⟨v, ?_⟩
        rw [h7, h3, List.getElem?_map, h6]
        simp [hv]
    · rw [if_neg hd] at hi; cases hi

end

end Subsetter
