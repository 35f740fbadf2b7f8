import Verif.Proofs.RunErrors
import Verif.Proofs.RunCopy

/- Where violations of primary keys come from. -/
namespace Subsetter
open Spec Props

variable {σ Dst : Type}

/-! ### Insertion -/

/-- An insertion that violates the primary key adds a key twice. -/
theorem insertMany_conflict {st : Strategy} {d : DestTable} {upd : List Str} : ∀ {rows T : List Row},
    insertMany st d upd rows T = .error .integrity →
    st = .error ∧ d.pk ≠ [] ∧ ¬ KeysUnique d.pk (T ++ rows.map (fullRow d))
  | [], T, h => by cases h
  | r :: rows, T, h => by
    unfold insertMany at h
    cases h1 : insertOne st d upd (fullRow d r) T with
    | error e =>
      unfold insertOne at h1
      split at h1
      · rename_i hc
        cases st with
        | error =>
          refine ⟨rfl, hc.1, fun hu => ?_⟩
          obtain ⟨q, hq, e⟩ := any_key.1 hc.2
          unfold KeysUnique at hu
          rw [List.map_append, List.nodup_append] at hu
          exact hu.2.2 _ (List.mem_map.2 ⟨q, hq, rfl⟩) _ (List.mem_map.2 ⟨_, by simp, rfl⟩) e
        | skip => cases h1
        | replace => cases h1
      · cases h1
    | ok T' =>
      rw [h1] at h
      dsimp only at h
      obtain ⟨g1, g2, g3⟩ := insertMany_conflict h
      subst g1
      have : T' = T ++ [fullRow d r] := by
        unfold insertOne at h1
        split at h1
        · cases h1
        · cases h1; rfl
      subst this
      exact ⟨rfl, g2, by simpa [List.append_assoc] using g3⟩

theorem flush_conflict {dialect : Dialect} {st : Strategy} {d : DestTable} {cols : List Str} {b : List (List Val)}
    {T : List Row} (h : flushBuffer dialect st d cols b T = .error .integrity) :
    st = .error ∧ d.pk ≠ [] ∧ ¬ KeysUnique d.pk (T ++ fullRows d cols b) := by
  unfold flushBuffer at h
  cases h1 : conflictInit st d.pk cols with
  | error e =>
    unfold conflictInit at h1
    split at h1
    · cases h1
    · split at h1
      · dsimp only at h1
        split at h1 <;> cases h1
      · cases h1
        rw [show conflictInit st d.pk cols = .error .keyError by unfold conflictInit; rw [if_neg ‹_›, if_neg ‹_›]] at h
        cases h
  | ok q =>
    obtain ⟨st', nonPk⟩ := q
    rw [h1] at h
    dsimp only at h
    split at h
    · cases h
    · split at h
      · cases h
      · obtain ⟨g1, g2, g3⟩ := insertMany_conflict h
        refine ⟨?_, g2, ?_⟩
        · subst g1
          unfold conflictInit at h1
          rw [if_neg (by simpa using g2)] at h1
          split at h1
          · dsimp only at h1
            split at h1
            · cases h1
            · cases h1; rfl
          · cases h1
        · have e : (b.map fun row => cols.zip row).map (fullRow d) = fullRows d cols b := by
            unfold fullRows; rw [List.map_map]; rfl
          rwa [e] at g3

/-! ### Writing -/

theorem multiplyAt_conflict {m i : Int} : ∀ {ks : List Nat} {row : List Val}, multiplyAt m i ks row ≠ .error .integrity
  | [], _, h => by cases h
  | k :: ks, row, h => by
    unfold multiplyAt at h
    split at h
    · cases h
    · split at h
      · cases h
      · exact multiplyAt_conflict h

theorem shiftAt_conflict : ∀ {ks : List (Nat × Int)} {row : List Val}, shiftAt ks row ≠ .error .integrity
  | [], _, h => by cases h
  | (k, o) :: ks, row, h => by
    unfold shiftAt at h
    split at h
    · cases h
    · exact shiftAt_conflict h
    · exact shiftAt_conflict h
    · cases h

theorem outRow_conflict {W : Outside σ Val} {p : OutPlan} {x : List Val × Nat} {s : σ} :
    outRow W p x s ≠ .error .integrity := by
  intro h
  unfold outRow at h
  split at h
  · cases h
  · split at h
    · rename_i e; cases h; exact multiplyAt_conflict e
    · split at h
      · rename_i e; cases h; exact shiftAt_conflict e
      · cases h

theorem autoMax_conflict {p : OutPlan} {acc : Val} {row : List Val} : autoMax p acc row ≠ .error .integrity := by
  intro h
  unfold autoMax at h
  split at h
  · cases h
  · split at h
    · cases h
    · split at h <;> cases h

section
variable {W : Outside σ Val} {flush : List (List Val) → Dst → Except OutErr Dst} {p : OutPlan}

/-- A violation comes from a batch that follows those committed. -/
theorem writeLoop_conflict : ∀ {xs : List (List Val × Nat)} {st : WState σ Dst} {q : WState σ Dst},
    st.buffer.length ≤ p.buffer → writeLoop W flush p xs st = .error (q, .integrity) →
    ∃ pre outs s' bs b d', pre <+: xs ∧ Run W p pre st.world outs s' ∧ bs.flatten ++ b = st.buffer ++ outs ∧
      Commits flush st.dest bs d' ∧ flush b d' = .error .integrity
  | [], st, q, hb, h => by cases h
  | x :: xs, st, q, hb, h => by
    unfold writeLoop at h
    cases h1 : writeStep W flush p st x with
    | error e =>
      rw [h1] at h; cases h
      unfold writeStep at h1
      cases h2 : outRow W p x st.world with
      | error e => rw [h2] at h1; cases h1; exact absurd h2 outRow_conflict
      | ok r =>
        obtain ⟨row, s'⟩ := r
        rw [h2] at h1; dsimp only at h1
        cases h3 : autoMax p st.auto row with
        | error e => rw [h3] at h1; cases h1; exact absurd h3 autoMax_conflict
        | ok a =>
          rw [h3] at h1; dsimp only at h1
          split at h1
          · cases h4 : flush (st.buffer ++ [row]) st.dest with
            | error e =>
              rw [h4] at h1; cases h1
              exact ⟨[x], [row], s', [], _, _, by simp, .cons h2 (.nil _), rfl, .nil _, h4⟩
            | ok d => rw [h4] at h1; cases h1
          · cases h1
    | ok st1 =>
      rw [h1] at h
      have h2 := writeStep_ok hb h1
      obtain ⟨pre, outs, s', bs, b, d', g1, g2, g3, g4, g5⟩ := writeLoop_conflict h2.buffer h
      obtain ⟨o1, n1, s1, a1, a2, a3, a4, a5, a6, rfl⟩ := h2
      refine ⟨x :: pre, o1 ++ outs, s', n1 ++ bs, b, d', by simpa using g1, a1.trans g2, ?_, a5.append g4, g5⟩
      rw [List.flatten_append, List.append_assoc, g3, ← List.append_assoc, a3, List.append_assoc]

theorem writeAll_conflict {rows : List (List Val)} {d : Dst} {s : σ} {q : WState σ Dst}
    (h : writeAll W flush p rows d s = .error (q, .integrity)) :
    ∃ pre outs s' bs b d', pre <+: copies p.multiplier rows ∧ Run W p pre s outs s' ∧ bs.flatten ++ b = outs ∧
      Commits flush d bs d' ∧ flush b d' = .error .integrity := by
  unfold writeAll at h
  cases h1 : writeLoop W flush p (copies p.multiplier rows) ⟨[], d, .null, s, []⟩ with
  | error e =>
    rw [h1] at h; cases h
    obtain ⟨pre, outs, s', bs, b, d', g1, g2, g3, g4, g5⟩ := writeLoop_conflict (by simp) h1
    exact ⟨pre, outs, s', bs, b, d', g1, g2, by simpa using g3, g4, g5⟩
  | ok st1 =>
    rw [h1] at h
    dsimp only at h
    obtain ⟨outs, new, s', a1, a2, a3, a4, a5, a6, rfl⟩ := writeLoop_ok (by simp) h1
    simp only [List.nil_append] at a1 a2 a3 a5
    split at h
    · cases h
    · cases h3 : flush st1.buffer st1.dest with
      | ok d' => rw [h3] at h; cases h
      | error e =>
        rw [h3] at h; cases h
        exact ⟨_, outs, _, new, _, _, List.prefix_rfl, a1, a3, a5, h3⟩

end

theorem flushTo_conflict {dialect : Dialect} {st : Strategy} {k : Key} {d : DestTable} {cols : List Str}
    {b : List (List Val)} {S : DbState} {rest : List DbState}
    (h : flushTo dialect st k d cols b (S :: rest) = .error .integrity) :
    flushBuffer dialect st d cols b (S k) = .error .integrity := by
  unfold flushTo at h
  dsimp only at h
  cases h1 : flushBuffer dialect st d cols b (S k) with
  | error e => rw [h1] at h; cases h; rfl
  | ok rows => rw [h1] at h; cases h

/-- A violation while tables are copied comes from a batch of one of them, given what it held in the beginning. -/
theorem copyAll_conflict {W : Outside σ Val} {dialect : Dialect} {read : Str → Except RunErr (Option TableJob)}
    (hread : ∀ n, read n ≠ .error (.dest (.output .integrity))) :
    ∀ {names : List Str} {S : DbState} {hist hist' : List DbState} {s : σ} {writes : Writes},
    names.Nodup → (∀ n ∈ names, ∀ n' ∈ names, ∀ j j', read n = .ok (some j) → read n' = .ok (some j') →
      j.key = j'.key → n = n') →
    copyAll W dialect read names (S :: hist) s = (hist', writes, some (.dest (.output .integrity))) →
    ∃ n ∈ names, ∃ j o pre outs s1 s2 bs b T, read n = .ok (some j) ∧ outPlan j.input = .ok o ∧
      pre <+: copies o.multiplier j.rows ∧ Run W o pre s1 outs s2 ∧ bs.flatten ++ b = outs ∧
      Commits (flushBuffer dialect j.strategy j.input.dest o.colsOut) (S j.key) bs T ∧
      flushBuffer dialect j.strategy j.input.dest o.colsOut b T = .error .integrity
  | [], S, hist, hist', s, writes, _, _, h => by cases h
  | n :: ns, S, hist, hist', s, writes, hnd, hinj, h => by
    unfold copyAll at h
    rw [List.nodup_cons] at hnd
    have hinj' : ∀ m ∈ ns, ∀ m' ∈ ns, ∀ j j', read m = .ok (some j) → read m' = .ok (some j') →
        j.key = j'.key → m = m' := fun m hm m' hm' => hinj m (by simp [hm]) m' (by simp [hm'])
    cases h1 : read n with
    | error e =>
      rw [h1] at h; cases h
      exact absurd h1 (hread n)
    | ok o =>
      rw [h1] at h
      cases o with
      | none =>
        obtain ⟨m, hm, g⟩ := copyAll_conflict hread hnd.2 hinj' h
        exact ⟨m, by simp [hm], g⟩
      | some j =>
        dsimp only at h
        cases h2 : outPlan j.input with
        | error e =>
          rw [h2] at h; cases h
          unfold outPlan at h2
          dsimp only at h2
          split at h2 <;> cases h2
        | ok o =>
          rw [h2] at h; dsimp only at h
          cases h3 : writeAll W (flushTo dialect j.strategy j.key j.input.dest o.colsOut) o j.rows (S :: hist) s with
          | error q =>
            obtain ⟨st, e⟩ := q
            rw [h3] at h; cases h
            obtain ⟨pre, outs, s2, bs, b, d', f1, f2, f3, f4, f5⟩ := writeAll_conflict h3
            obtain ⟨rows, rest, g1, g2⟩ := commits_flushTo f4
            subst g1
            have f5 := flushTo_conflict f5
            rw [show (S.set j.key rows) j.key = rows by simp [DbState.set]] at f5
            exact ⟨n, by simp, j, o, pre, outs, s, s2, bs, b, rows, h1, h2, f1, f2, f3, g2, f5⟩
          | ok st =>
            rw [h3] at h; dsimp only at h
            obtain ⟨outs, f1, rfl, f3, f4, -⟩ := writeAll_ok h3
            obtain ⟨rows, rest, g1, g2⟩ := commits_flushTo f4
            cases h4 : copyAll W dialect read ns st.dest st.world with
            | mk hist2 q =>
              obtain ⟨writes2, err2⟩ := q
              rw [h4] at h; cases h
              rw [g1] at h4
              obtain ⟨m, hm, j', o', pre, outs, s1, s2, bs, b, T, k1, k2, k3, k4, k5, k6, k7⟩ :=
                copyAll_conflict hread hnd.2 hinj' h4
              refine ⟨m, by simp [hm], j', o', pre, outs, s1, s2, bs, b, T, k1, k2, k3, k4, k5, ?_, k7⟩
              have hne : j'.key ≠ j.key := fun e => hnd.1 (by rw [← hinj m (by simp [hm]) n (by simp) j' j k1 h1 e]; exact hm)
              rwa [show (S.set j.key rows) j'.key = S j'.key by simp [DbState.set, hne]] at k6

/-! ### Before rows are copied -/

section
variable {e : OutErr}

theorem buildRemap_output {remap : Str → Str} : ∀ {ns : List Str} {m : Dict Str Str}, buildRemap remap ns m ≠ .error (.output e)
  | [], m, h => by cases h
  | n :: ns, m, h => by
    unfold buildRemap at h
    split at h
    · cases h
    · split at h
      · cases h
      · split at h
        · exact buildRemap_output h
        · split at h
          · exact buildRemap_output h
          · cases h

theorem destInit_output {fnmatch : Str → Str → Bool} {db : Dict Str TableMeta} {remap : Str → Str} {planned : List Str} :
    destInit fnmatch db remap planned ≠ .error (.output e) := by
  intro h
  unfold destInit at h
  split at h
  · rename_i h1; cases h; exact buildRemap_output h1
  · split at h <;> cases h

theorem lookupTables_output {T : Tables} : ∀ {us : List Str}, lookupTables T us ≠ .error (.output e)
  | [], h => by cases h
  | u :: us, h => by
    unfold lookupTables at h
    split at h
    · cases h
    · split at h
      · cases h
      · split at h
        · rename_i h1; cases h; exact lookupTables_output h1
        · cases h

theorem metaToposort_output {T : Tables} : metaToposort T ≠ .error (.output e) := by
  intro h
  unfold metaToposort at h
  split at h
  · cases h
  · cases h
  · cases h
  · exact lookupTables_output h

theorem insertOrder_output {x : DestMeta} : insertOrder x ≠ .error (.output e) := by
  intro h
  unfold insertOrder at h
  split at h
  · rename_i h1; cases h; exact metaToposort_output h1
  · cases h

theorem truncateStep_output {C : RunConfig} {x : DestMeta} {S : DbState} : truncateStep C x S ≠ .error (.output e) := by
  intro h
  unfold truncateStep truncate at h
  split at h
  · split at h
    · rename_i h1; cases h; exact metaToposort_output h1
    · cases h
  · cases h

theorem tableObjs_output {src T : Tables} : ∀ {m : Dict Str Str}, tableObjs src T m ≠ .error (.output e)
  | [], h => by cases h
  | (r, n) :: rest, h => by
    unfold tableObjs at h
    split at h
    · cases h
    · split at h
      · split at h
        · rename_i h1; cases h; exact tableObjs_output h1
        · cases h
      · split at h
        · cases h
        · split at h
          · cases h
          · split at h
            · rename_i h1; cases h; exact tableObjs_output h1
            · cases h

theorem copyFks_output {objs : List (Str × TableMeta × Bool)} : ∀ {fks : List ForeignKey}, copyFks objs fks ≠ .error (.output e)
  | [], h => by cases h
  | fk :: fks, h => by
    unfold copyFks at h
    split at h
    · cases h
    · split at h
      · split at h
        · rename_i h1; cases h; exact copyFks_output h1
        · cases h
      · cases h

theorem createLoop_output {src : Tables} {objs : List (Str × TableMeta × Bool)} : ∀ {l : List (Str × TableMeta × Bool)},
    createLoop src objs l ≠ .error (.output e)
  | [], h => by cases h
  | (_, _, false) :: rest, h => by
    unfold createLoop at h
    exact createLoop_output h
  | (n, t, true) :: rest, h => by
    unfold createLoop at h
    split at h
    · cases h
    · split at h
      · cases h
      · split at h
        · rename_i h1; cases h; exact copyFks_output h1
        · split at h
          · rename_i h1; cases h; exact createLoop_output h1
          · cases h

theorem createStep_output {C : RunConfig} {D : Setting σ} {r : Started} : createStep C D r ≠ .error (.output e) := by
  intro h
  unfold createStep createdTables at h
  split at h
  · split at h
    · rename_i h1
      cases h
      split at h1
      · rename_i h2; cases h1; exact tableObjs_output h2
      · exact createLoop_output h1
    · cases h
  · cases h

theorem validateFilters_output {W : Outside σ Val} {T : Tables} : ∀ {fs : List (Str × List (FilterCfg Val))},
    validateFilters W T fs ≠ .error (.dest (.output e))
  | [], h => by cases h
  | (n, f) :: fs, h => by
    unfold validateFilters at h
    split at h
    · exact validateFilters_output h
    · split at h
      · cases h
      · split at h
        · exact validateFilters_output h
        · split at h
          · cases h
          · exact validateFilters_output h

theorem startRun_output {C : RunConfig} {D : Setting σ} {p : Plan} : startRun C D p ≠ .error (.dest (.output e)) := by
  intro h
  unfold startRun at h
  split at h
  · cases h
  · cases h
  · dsimp only at h
    split at h
    · rename_i h1; cases h; exact validateFilters_output h1
    · split at h
      · cases h
      · split at h
        · rename_i h1; cases h; exact destInit_output h1
        · cases h

end

/-- An error while rows are written is raised while tables are copied. -/
theorem sample_output {C : RunConfig} {D : Setting σ} {p : Plan} {S : DbState} {s : σ} {e : OutErr}
    (h : (sample C D p S s).err = some (.dest (.output e))) :
    ∃ r db x order states offs compact mat temps, Steps C D p S r db x order states offs compact mat temps ∧
      (sample C D p S s).schema = db ∧
      copyAll D.world D.dialect (readTable C D r x offs compact p temps) order (states.reverse ++ [S]) s =
        ((sample C D p S s).hist, (sample C D p S s).writes, (sample C D p S s).err) := by
  cases h1 : startRun C D p with
  | error e' => simp only [sample, h1] at h; cases h; exact absurd h1 startRun_output
  | ok r =>
    cases h2 : createStep C D r with
    | error e' => simp only [sample, h1, h2] at h; cases h; exact absurd h2 createStep_output
    | ok dx =>
      obtain ⟨db, x⟩ := dx
      cases h3 : insertOrder x with
      | error e' => simp only [sample, h1, h2, h3] at h; cases h; exact absurd h3 insertOrder_output
      | ok order =>
        cases h4 : truncateStep C x S with
        | error e' => simp only [sample, h1, h2, h3, h4] at h; cases h; exact absurd h4 truncateStep_output
        | ok states =>
          cases h5 : prepareStep C r.tables x ((states.reverse ++ [S]).head?.getD S) p with
          | error e' =>
            simp only [sample, h1, h2, h3, h4, h5] at h
            cases h
            unfold prepareStep at h5
            split at h5
            · have := (prepare_error h5 (planned_dest h1)).1
              cases this
            · cases h5
          | ok offs =>
            cases h6 : getCompactColumns r.tables p.passthrough C.compact with
            | error e' => simp only [sample, h1, h2, h3, h4, h5, h6] at h; cases h
            | ok compact =>
              cases h7 : materializationOrder r.tables compact p with
              | error e' => simp only [sample, h1, h2, h3, h4, h5, h6, h7] at h; cases h
              | ok mat =>
                cases h8 : materialize D.engine r.tables D.src D.reopen p mat [] with
                | error e' => simp only [sample, h1, h2, h3, h4, h5, h6, h7, h8] at h; cases h
                | ok temps =>
                  refine ⟨r, db, x, order, states, offs, compact, mat, temps, ⟨h1, h2, h3, h4, h5, h6, h7, h8⟩, ?_, ?_⟩
                  · simp only [sample, h1, h2, h3, h4, h5, h6, h7, h8]
                  · simp only [sample, h1, h2, h3, h4, h5, h6, h7, h8]

end Subsetter
