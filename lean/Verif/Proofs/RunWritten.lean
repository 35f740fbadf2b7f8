import Verif.Proofs.RunFacts
import Verif.Props.Dest

/- What a run that copies writes. -/
namespace Subsetter
open Spec Props

/-! ### Rows that are all added -/

section
variable {d : DestTable} {upd : List Str} {st : Strategy}

theorem insertMany_added : ∀ {rows T T' : List Row}, insertMany st d upd rows T = .ok T' →
    (st = .error ∨ d.pk = [] ∨ KeysUnique d.pk (T ++ rows.map (fullRow d))) → T' = T ++ rows.map (fullRow d)
  | [], T, T', h, _ => by cases h; simp
  | r :: rows, T, T', h, hu => by
    unfold insertMany at h
    have h1 : ∀ T1, insertOne st d upd (fullRow d r) T = .ok T1 → T1 = T ++ [fullRow d r] := by
      intro T1 h1
      unfold insertOne at h1
      split at h1
      · rename_i hc
        rcases hu with rfl | hu | hu
        · cases h1
        · exact absurd hu hc.1
        · exfalso
          obtain ⟨q, hq, e⟩ := any_key.1 hc.2
          unfold KeysUnique at hu
          rw [List.map_append, List.nodup_append] at hu
          exact hu.2.2 _ (List.mem_map.2 ⟨q, hq, rfl⟩) _ (List.mem_map.2 ⟨_, by simp, rfl⟩) e
      · cases h1; rfl
    cases h2 : insertOne st d upd (fullRow d r) T with
    | error e => rw [h2] at h; cases h
    | ok T1 =>
      rw [h2] at h; dsimp only at h
      have e := h1 T1 h2
      subst e
      rw [insertMany_added h (by simpa [List.append_assoc] using hu)]
      simp

theorem conflictInit_error {pk cols : List Str} {x : Strategy × List Str} (h : conflictInit .error pk cols = .ok x) :
    x.1 = .error := by
  unfold conflictInit at h
  split at h
  · cases h; rfl
  · split at h
    · dsimp only at h
      split at h
      · rename_i e; cases e.1
      · cases h; rfl
    · cases h

theorem commits_append {dialect : Dialect} {cols : List Str} : ∀ {bs : List (List (List Val))} {T T' : List Row},
    Commits (flushBuffer dialect st d cols) T bs T' →
    (st = .error ∨ d.pk = [] ∨ KeysUnique d.pk (T ++ fullRows d cols bs.flatten)) →
    T' = T ++ fullRows d cols bs.flatten
  | [], T, T', h, _ => by cases h; simp [fullRows]
  | b :: bs, T, T', h, hu => by
    cases h with
    | @cons _ T1 _ _ _ h1 h2 =>
      have hsplit : fullRows d cols (b :: bs).flatten = fullRows d cols b ++ fullRows d cols bs.flatten := by
        simp [fullRows]
      rw [hsplit, ← List.append_assoc] at hu ⊢
      have hb : T1 = T ++ fullRows d cols b := by
        unfold flushBuffer at h1
        cases h3 : conflictInit st d.pk cols with
        | error e => rw [h3] at h1; cases h1
        | ok x =>
          obtain ⟨st', nonPk⟩ := x
          rw [h3] at h1; dsimp only at h1
          split at h1
          · cases h1
          · split at h1
            · cases h1
            · have := insertMany_added h1 (by
                rcases hu with rfl | hu | hu
                · exact .inl (conflictInit_error h3)
                · exact .inr (.inl hu)
                · right; right
                  have e : (b.map fun row => cols.zip row).map (fullRow d) = fullRows d cols b := by
                    unfold fullRows; rw [List.map_map]; rfl
                  rw [e]
                  unfold KeysUnique at hu ⊢
                  rw [List.map_append] at hu
                  exact hu.of_append_left)
              rw [this]
              unfold fullRows
              rw [List.map_map]
              rfl
      subst hb
      exact commits_append h2 hu

end

variable {σ : Type} {C : RunConfig} {D : Setting σ} {p : Plan} {S : DbState} {s : σ}

section
variable {r : Started} {db : Dict Str TableMeta} {x : DestMeta} {order : List Str} {states : List DbState}
  {offs : Dict Key (Dict Str Int)} {compact : Dict Key (List Str)} {mat : List (Key × Nat)} {temps : Temps}
variable (hst : Steps C D p S r db x order states offs compact mat temps)
include hst

theorem Steps.derived (hok : RunOK C D p) {B : DbState} {rest : List DbState} (hB : states.reverse ++ [S] = B :: rest) :
    Derived C D p db B r.tables r.mult compact offs := by
  have hl := startRun_facts hok.src hst.start
  obtain ⟨l, -, h2, h3, -, h5, -⟩ := startRun_ok hst.start
  have hf := prepared_run hok hst.start hst.create
  have hre := reached_iff hok (prepared_of_step hst.start hst.create)
  have hp := (hst.plan hok).1
  have hprep := hst.prepare
  rw [hB] at hprep
  refine ⟨fun k t hk => ?_, fun n hn => ?_, fun n c => ?_, (c32_columns hok.compactNames hst.compacted).1, fun hm k => ?_,
    fun hm => ?_, ?_, fun hk k t ht => ?_, fun hm => ?_, fun n hn n' hn' k h h' => remapped_inj hf.remap hn hn' h h'⟩
  · obtain ⟨t0, g1, g2, g3, g4, g5⟩ := hl.get hok.src hk
    refine ⟨t0, g1, g5, fun hi => ?_⟩
    rw [h3, hi, show inferStep .none l.tables = l.tables from rfl, ← h2, g3] at hk
    cases hk; rfl
  · obtain ⟨⟨n', q⟩, hq, rfl⟩ := List.mem_map.1 hn
    exact hp.known n' q hq
  · by_cases hm : 1 < C.mult.multiplier
    · rw [(c28_exact hm h5).1]
      simp [hm]
    · rw [c28_no_multiplier _ (by omega)] at h5
      have e : r.mult = [] := (Except.ok.inj h5).symm
      rw [e]
      simp [hm, dget]
  · unfold prepareStep at hprep
    rw [hm] at hprep
    cases hprep; rfl
  · unfold prepareStep at hprep
    rw [hm, if_pos rfl] at hprep
    have hM := prepare_ok (M := ⟨C.remap, r.tables, x.tables, B, p.passthrough, dkeys p.queries⟩)
      hf.tables.keys_nodup (by rw [show r.tables.map Prod.fst = r.raw.map Prod.fst from hl.same.keys]; exact hl.raw.keys_nodup) hok.plan (fun n hn n' hn' k h h' => remapped_inj hf.remap hn hn' h h') hprep
    refine ⟨x.tables, fun k t => ?_, hM.1, fun n k hk c => hM.2 n k hk c⟩
    constructor
    · intro h
      refine ⟨(hre k).1 ⟨t, h⟩, ?_⟩
      obtain ⟨n2, g5⟩ := hf.loads.sub k t h
      have e1 := hf.name_eq n2 t g5
      have e2 := hf.tables.key_eq k t h
      rw [← e2]
      dsimp only
      rw [← e1]
      exact g5
    · rintro ⟨h, h'⟩
      obtain ⟨t', ht'⟩ := (hre k).2 h
      have := schema_get hf h' (dget_of_mem hf.tables.keys_nodup ht')
      rw [← this]
      exact ht'
  · rw [show r.tables.map Prod.fst = r.raw.map Prod.fst from hl.same.keys]
    exact hl.raw.keys_nodup
  · intro fk hfk c hc
    have := (c32_columns hok.compactNames hst.compacted).2 hk k t (dget_some_mem ht) fk hfk c hc
    rw [(c32_columns hok.compactNames hst.compacted).1] at this
    exact not_or.1 this
  · rcases multipliedColumns_spec (T := r.tables) hm (names := dkeys p.queries) (pass := p.passthrough) with
      ⟨res', h', -, -, h6, -⟩ | ⟨e, h', -⟩
    · exact h6
    · rw [h5] at h'; cases h'

/-- The rows written for a table are those it should be sent. -/
theorem Steps.sent (hok : RunOK C D p) {Smp : Key → List Row}
    (hS : ∀ k q, Planned p k q → sampleRows D.engine r.tables D.src D.reopen temps k q = .ok (Smp k))
    (htemps : ∀ k rows, dget temps (k, 0) = some rows → rows = Smp k)
    {n : Str} {k kd : Key} {t td : TableMeta} (hc : Copied C D p db n k kd t td) {j : TableJob}
    (h : readTable C D r x offs compact p temps n = .ok (some j)) :
    j.key = kd ∧ j.strategy = strategyFor C p n ∧ j.input.dest = target D kd td ∧
    ∃ rows : List Row, rows.length = j.rows.length ∧ ∀ o pre s s' outs outs', outPlan j.input = .ok o →
      pre <+: copies o.multiplier j.rows → Run D.world o pre s outs s' → outs' <+: outs →
      o.colsOut = writtenColumns j.input.chain (target D kd td) ∧ o.multiplier = timesWritten C p n ∧
      Sent C D p r.tables r.mult compact offs Smp (fun d => compactIds D.le C.compact.startKey
        (((dget r.tables d).map TableMeta.primaryKey).getD []) (Smp d)) n k kd t td j.input.chain rows outs' := by
  obtain ⟨h1, h2, h3, h4, h5, h6, h7, h8, rows, h9, -, h10⟩ := hst.job hok hS htemps hc h
  refine ⟨h1, h4, h2, rows, by rw [h9, List.length_map], fun o pre s s' outs outs' ho hpre hrun hpf => ?_⟩
  have hlen : ∀ q ∈ j.rows, q.length = t.columns.length := by
    intro q hq
    rw [h9] at hq
    obtain ⟨q', -, rfl⟩ := List.mem_map.1 hq
    simp
  have hj : JobOK D.world j := ⟨t.columns, _, h3, h8, hlen⟩
  obtain ⟨f1, f2, f3, -⟩ := outPlan_ok ho
  have hfit := run_fitting hj ho hpre hrun (written := [outs']) (by simpa using hpf) outs' (by simp)
  rw [h2] at f1 f2 hfit
  rw [h6] at f3
  refine ⟨f2, f3, h3, h10, ?_, by rw [← f2]; exact hfit, s, ?_⟩
  · intro c hcc
    have := f1 c hcc
    unfold target at this
    split at this <;> exact this
  · have hfc := hrun.firstCopies hpre
    have hstep : FirstCopies (IsCopy D.world j.input.chain (writtenColumns j.input.chain (target D kd td))
        ((dget r.mult n).getD []) (timesWritten C p n) ((dget offs kd).getD [])) (timesWritten C p n)
        (rows.map fun r => t.columns.map r.get) s outs := by
      rw [f3, h9] at hfc
      refine ⟨hfc.1, hfc.2.imp fun ss hss => ⟨hss.1, fun a i q o' hq hi ho' => ?_⟩⟩
      obtain ⟨g1, g2⟩ := hss.2 a i q o' hq hi ho'
      have := plan_isCopy h3 h8 ho (hlen q (by rw [h9]; exact g1)) g2
      rwa [h2, h5, h6, h7] at this
    refine ⟨Nat.le_trans hpf.length_le hstep.1, hstep.2.imp fun ss hss => ⟨hss.1, fun a i q o' hq hi ho' => ?_⟩⟩
    refine hss.2 a i q o' hq hi ?_
    obtain ⟨tl, rfl⟩ := hpf
    rw [List.getElem?_append_left]
    · exact ho'
    · exact (List.getElem?_eq_some_iff.1 ho').1

omit hst in
theorem read_buffer {n : Str} {j : TableJob} (h : readTable C D r x offs compact p temps n = .ok (some j)) :
    j.input.buffer = D.buffer := by
  unfold readTable tableJob at h
  repeat' split at h
  all_goals first
    | cases h; done
    | skip
  all_goals
    rename_i hj
    repeat' split at hj
    all_goals first
      | cases hj; done
      | cases hj; cases h; rfl

/-- Everything known before copying, and what it means for the contents at some time of copying. -/
theorem Steps.copying (hok : RunOK C D p) :
    ∃ B rest Smp ids, states.reverse ++ [S] = B :: rest ∧
      Copying C D p S db order B Smp ids r.tables r.mult compact offs ∧
      (∀ n ∈ order, ∀ n' ∈ order, ∀ j j', readTable C D r x offs compact p temps n = .ok (some j) →
        readTable C D r x offs compact p temps n' = .ok (some j') → j.key = j'.key → n = n') ∧
      (∀ n k kd t td, Copied C D p db n k kd t td → ∀ j, readTable C D r x offs compact p temps n = .ok (some j) →
        j.key = kd ∧ j.strategy = strategyFor C p n ∧ j.input.dest = target D kd td ∧
        ∃ rows : List Row, rows.length = j.rows.length ∧ ∀ o pre s s' outs outs', outPlan j.input = .ok o →
          pre <+: copies o.multiplier j.rows → Run D.world o pre s outs s' → outs' <+: outs →
          o.colsOut = writtenColumns j.input.chain (target D kd td) ∧ o.multiplier = timesWritten C p n ∧
          Sent C D p r.tables r.mult compact offs Smp ids n k kd t td j.input.chain rows outs') ∧
      ∀ X done todo, Content D.world D.dialect (readTable C D r x offs compact p temps) order B X done todo →
        WhileCopying C D p db order B Smp ids r.tables r.mult compact offs X done todo := by
  obtain ⟨B, rest0, hB, hbeg⟩ := begins_run hok hst.start hst.create hst.truncate
  obtain ⟨Smp, hsmp, hS, htemps⟩ := hst.sample hok
  obtain ⟨hnd, -, hpar⟩ := (prepared_run hok hst.start hst.create).order hst.order
  have hcr : C.create = true → ∀ n ∈ dkeys p.queries, n ∈ order := by
    intro hcr n hn
    have hprep := prepared_of_step hst.start hst.create
    rw [hcr] at hprep
    exact (c39_create_writes_all hok.dst hok.closed (startRun_facts hok.src hst.start).raw (hok.self hcr) hprep hst.order n).2 hn
  have hmem := hst.mem_order hok
  have hkey : ∀ n ∈ order, ∀ j, readTable C D r x offs compact p temps n = .ok (some j) →
      n ∈ dkeys p.queries ∧ DestOf C.remap n j.key := by
    intro n hn j hj
    obtain ⟨k, kd, t, td, hc⟩ := (hmem n).1 hn
    rw [(hst.sent hok hS htemps hc hj).1]
    exact ⟨hc.planned, hc.dest⟩
  refine ⟨B, rest0, Smp, _, hB, ⟨hnd, hmem, hpar, hcr, hbeg, hsmp, fun k => c31_ids_fill D.le C.compact.startKey
    (((dget r.tables k).map TableMeta.primaryKey).getD []) (Smp k), hst.derived hok hB⟩, fun n hn n' hn' j j' hj hj' e => ?_,
    fun n k kd t td hc j hj => hst.sent hok hS htemps hc hj, fun X done todo h2 => ⟨h2.names_eq, fun n k kd t td hc hd => ?_, fun n k kd t td hc hd => ?_,
      fun n k kd t td hc hd => ?_, fun kd hkd => ?_⟩⟩
  · obtain ⟨g1, g2⟩ := hkey n hn j hj
    obtain ⟨g3, g4⟩ := hkey n' hn' j' hj'
    rw [e] at g2
    exact hst.dest_inj g1 g3 g2 g4 hok
  · have hn : n ∈ order := (hmem n).2 ⟨k, kd, t, td, hc⟩
    rcases h2.filled n hd with h3 | ⟨j, h3, o, s1, s2, bs, h4, h5, h6, h7⟩
    · exact absurd h3 (hst.read_some hok hn)
    · obtain ⟨g1, g2, g3, rows, g4, g5⟩ := hst.sent hok hS htemps hc h3
      obtain ⟨g6, g7, g8⟩ := g5 o _ s1 s2 _ _ h4 (List.prefix_refl _) h5 (List.prefix_refl _)
      rw [outPlan_buffer h4, read_buffer h3] at h6
      refine ⟨_, rows, bs, g8, ?_, h6, ?_⟩
      · rw [h5.length, copies_length, g4, g7]
      · rw [g1, g2, g3, g6] at h7
        exact h7
  · have hn : n ∈ order := (hmem n).2 ⟨k, kd, t, td, hc⟩
    cases h3 : readTable C D r x offs compact p temps n with
    | error e =>
      left
      refine h2.other kd fun n' hn' j hj e' => ?_
      have hn'o : n' ∈ order := by
        rw [h2.names_eq]
        rcases hn' with hn' | hn'
        · exact List.mem_append_left _ hn'
        · exact List.mem_append_right _ (List.mem_of_mem_head? hn')
      obtain ⟨g1, g2⟩ := hkey n' hn'o j hj
      rw [e'] at g2
      have := hst.dest_inj g1 hc.planned g2 hc.dest hok
      subst this
      rw [hj] at h3; cases h3
    | ok oj =>
      cases oj with
      | none => exact absurd h3 (hst.read_some hok hn)
      | some j =>
        obtain ⟨g1, g2, g3, rows, g4, g5⟩ := hst.sent hok hS htemps hc h3
        rcases h2.begun n hd j h3 with h4 | ⟨o, s1, s2, bs, pre, outs, h4, h5, h6, h7, h8, h9⟩
        · rw [g1] at h4
          exact .inl h4
        · obtain ⟨g6, g7, g8⟩ := g5 o _ s1 s2 _ _ h4 h5 h6 h7
          rw [outPlan_buffer h4, read_buffer h3] at h8
          refine .inr ⟨_, rows, bs, g8, h8, ?_⟩
          rw [g1, g2, g3, g6] at h9
          exact h9
  · refine h2.other kd fun n' hn' j hj e' => ?_
    have hn'o : n' ∈ order := by
      rw [h2.names_eq]
      rcases hn' with hn' | hn'
      · exact List.mem_append_left _ hn'
      · exact List.mem_append_right _ (List.mem_of_mem_head? hn')
    obtain ⟨g1, g2⟩ := hkey n' hn'o j hj
    rw [e'] at g2
    have := hst.dest_inj g1 hc.planned g2 hc.dest hok
    subst this
    rw [h2.names_eq, List.nodup_append] at hnd
    rcases hn' with hn' | hn'
    · exact hnd.2.2 _ hn' _ (List.mem_of_mem_tail hd) rfl
    · cases todo with
      | nil => cases hd
      | cons a l =>
        simp only [List.head?_cons, Option.some.injEq] at hn'
        subst hn'
        exact (List.nodup_cons.1 hnd.2.1).1 hd
  · refine h2.other kd fun n' hn' j hj e' => ?_
    have hn'o : n' ∈ order := by
      rw [h2.names_eq]
      rcases hn' with hn' | hn'
      · exact List.mem_append_left _ hn'
      · exact List.mem_append_right _ (List.mem_of_mem_head? hn')
    obtain ⟨k, kd', t, td, hc⟩ := (hmem n').1 hn'o
    have := (hst.sent hok hS htemps hc hj).1
    rw [e'] at this
    subst this
    exact hkd n' k t td hc

/-- Copying: the contents in the end and at all times. -/
theorem Steps.content (hok : RunOK C D p) {hist : List DbState} {writes : Writes} {err : Option RunErr}
    (h : copyAll D.world D.dialect (readTable C D r x offs compact p temps) order (states.reverse ++ [S]) s =
      (hist, writes, err)) :
    ∃ B Smp ids X rest done todo, hist = X :: rest ∧ Copying C D p S db order B Smp ids r.tables r.mult compact offs ∧
      (err = none ↔ todo = []) ∧ WhileCopying C D p db order B Smp ids r.tables r.mult compact offs X done todo ∧
      ∀ Y ∈ hist, Y ∈ states.reverse ++ [S] ∨
        ∃ done todo, WhileCopying C D p db order B Smp ids r.tables r.mult compact offs Y done todo := by
  obtain ⟨B, rest0, Smp, ids, hB, hcp, hinj, -, hat⟩ := hst.copying hok
  rw [hB] at h
  obtain ⟨X, rest, done, todo, h1, h2, h3⟩ := copyAll_content hcp.nodup hinj h
  refine ⟨B, Smp, ids, X, rest, done, todo, h1, hcp, h3, hat _ _ _ h2, fun Y hY => ?_⟩
  rcases copyAll_history hcp.nodup hinj h Y hY with h4 | ⟨done', todo', h4⟩
  · exact .inl (by rw [hB]; simp [h4])
  · exact .inr ⟨_, _, hat _ _ _ h4⟩

end
end Subsetter
