import Verif.Proofs.Enforce

/- Runs with buffers of different sizes. -/
namespace Subsetter

variable {σ : Type} {dialect : Dialect} {strategy : Strategy} {k : Key} {d : DestTable} {cols : List Str}

section
variable {W : Outside σ Val} {o : OutPlan}

theorem doomed_error {ok : DbState → Bool} : ∀ {xs : List (List Val × Nat)} {st : WState σ (List DbState)} {Y : DbState} {hist : List DbState},
    st.dest = Y :: hist → Doomed ok dialect strategy k d cols st.buffer Y →
    ∀ q, writeLoop W (flushTo dialect strategy k d cols) o xs st = .error q → q.1.dest = Y :: hist
  | [], st, Y, hist, hd, h, q, hq => nomatch hq
  | x :: xs, st, Y, hist, hd, h, q, hq => by
    obtain ⟨buf, dest, auto, world, written⟩ := st
    cases hd
    dsimp only at h
    unfold writeLoop writeStep at hq
    dsimp only at hq
    cases h1 : outRow W o x world with
    | error e => rw [h1] at hq; cases hq; rfl
    | ok y =>
      obtain ⟨row, s'⟩ := y
      rw [h1] at hq
      dsimp only at hq
      cases h2 : autoMax o auto row with
      | error e => rw [h2] at hq; cases hq; rfl
      | ok a =>
        rw [h2] at hq
        dsimp only at hq
        by_cases hb : o.buffer < (buf ++ [row]).length
        · rw [if_pos hb, (h.more [row]).flush hist] at hq
          obtain ⟨-, e, -, h2⟩ := h.more [row]
          have h2 := h2 []
          rw [List.append_nil] at h2
          simp only [flushChecked, h2] at hq
          cases hq
          rfl
        · rw [if_neg hb] at hq
          exact doomed_error rfl (h.more [row]) q hq

/-- Loop without buffer (`sf`) and with buffer (`st`), including what was sent. -/
structure Beside (dialect : Dialect) (strategy : Strategy) (k : Key) (d : DestTable) (cols : List Str)
    (sf st : WState σ (List DbState)) : Prop where
  along : Along (fun _ => true) dialect strategy k d cols sf st
  written : sf.written.flatten = st.written.flatten ++ st.buffer
  states : st.dest ⊆ sf.dest

/-- How a loop without buffer and one with a buffer end. -/
inductive Ends (dialect : Dialect) (strategy : Strategy) (k : Key) (d : DestTable) (cols : List Str) :
    Except (WState σ (List DbState) × OutErr) (WState σ (List DbState)) →
    Except (WState σ (List DbState) × OutErr) (WState σ (List DbState)) → Prop
  | fine {sf st} (h : Beside dialect strategy k d cols sf st) : Ends dialect strategy k d cols (.ok sf) (.ok st)
  | failed {q q'} (h : q'.1.dest ⊆ q.1.dest) : Ends dialect strategy k d cols (.error q) (.error q')
  | doomed {q st Y hc} (h : st.dest ⊆ q.1.dest) (hd : st.dest = Y :: hc)
      (hdoom : Doomed (fun _ => true) dialect strategy k d cols st.buffer Y) : Ends dialect strategy k d cols (.error q) (.ok st)

theorem beside_loop : ∀ {xs : List (List Val × Nat)} {sf st : WState σ (List DbState)},
    Beside dialect strategy k d cols sf st →
    Ends dialect strategy k d cols (writeLoop W (flushTo dialect strategy k d cols) { o with buffer := 0 } xs sf)
      (writeLoop W (flushTo dialect strategy k d cols) o xs st)
  | [], sf, st, h => .fine h
  | x :: xs, sf, st, h => by
    obtain ⟨buf, dest, auto, world, written⟩ := st
    obtain ⟨fbuf, fdest, fauto, fworld, fwritten⟩ := sf
    obtain ⟨⟨he, ha, hw, X, hf, Y, hc, hX, hY, hins⟩, hwr, hsub⟩ := h
    dsimp only at he ha hw hX hY hins hwr hsub
    subst he ha hw hX hY
    unfold writeLoop writeStep
    dsimp only
    rw [outRow_buffer (o := o) 0]
    cases h1 : outRow W o x fworld with
    | error e => exact .failed hsub
    | ok y =>
      obtain ⟨row, s'⟩ := y
      dsimp only
      rw [autoMax_buffer (o := o) 0]
      cases h2 : autoMax o fauto row with
      | error e => exact .failed hsub
      | ok a =>
        dsimp only [List.nil_append, List.length_singleton]
        rw [if_pos Nat.zero_lt_one]
        cases h3 : flushBuffer dialect strategy d cols [row] (X k) with
        | error e =>
          have hdoom : Doomed (fun _ => true) dialect strategy k d cols (buf ++ [row]) Y := by
            refine ⟨by simp, e, fun more => ?_, fun more => ?_⟩
            · obtain ⟨g1, g2⟩ := insertRows_ok hins
              cases buf with
              | nil =>
                cases hins
                rw [List.nil_append, List.singleton_append, flush_cons, h3]
              | cons b bs =>
                rw [List.append_assoc, flush_append (g2 (by simp)), List.singleton_append, flush_cons, h3]
            · rw [List.append_assoc, insertRows_append, hins]
              dsimp only [List.singleton_append]
              rw [insertRows, h3]
          have hfe : flushTo dialect strategy k d cols [row] (X :: hf) = .error e := by
            unfold flushTo; dsimp only; rw [h3]
          rw [hfe]
          dsimp only
          by_cases hb : o.buffer < (buf ++ [row]).length
          · rw [if_pos hb, hdoom.flush hc]
            obtain ⟨-, e', -, g⟩ := hdoom
            have g := g []
            rw [List.append_nil] at g
            simp only [flushChecked, g]
            exact .failed hsub
          · rw [if_neg hb]
            obtain ⟨-, g2⟩ := doomed_loop (W := W) (o := o) (xs := xs) (st := ⟨buf ++ [row], Y :: hc, a, s', written⟩) rfl hdoom
            have g3 := doomed_error (W := W) (o := o) (xs := xs) (st := ⟨buf ++ [row], Y :: hc, a, s', written⟩) rfl hdoom
            dsimp only
            cases hl : writeLoop W (flushTo dialect strategy k d cols) o xs ⟨buf ++ [row], Y :: hc, a, s', written⟩ with
            | error q =>
              refine .failed ?_
              rw [g3 q hl]
              exact hsub
            | ok st' =>
              obtain ⟨i1, i2⟩ := g2 st' hl
              refine .doomed ?_ i1 i2
              rw [i1]
              exact hsub
        | ok rows =>
          have hfe : flushTo dialect strategy k d cols [row] (X :: hf) = .ok (X.set k rows :: X :: hf) := by
            unfold flushTo; dsimp only; rw [h3]
          rw [hfe]
          dsimp only
          have hins' : insertRows (fun _ => true) dialect strategy k d cols (buf ++ [row]) Y = .ok (X.set k rows) := by
            rw [insertRows_append, hins]
            simp only [insertRows, h3]
            rfl
          have hwr' : (fwritten ++ [[row]]).flatten = written.flatten ++ (buf ++ [row]) := by
            rw [List.flatten_append, hwr]; simp
          by_cases hb : o.buffer < (buf ++ [row]).length
          · rw [if_pos hb]
            obtain ⟨g1, g2⟩ := insertRows_ok hins'
            have e1 : flushTo dialect strategy k d cols (buf ++ [row]) (Y :: hc) = .ok (X.set k rows :: Y :: hc) := by
              unfold flushTo
              dsimp only
              rw [g2 (by simp)]
              dsimp only
              rw [← g1]
            rw [e1]
            refine beside_loop ⟨⟨rfl, rfl, rfl, _, _, _, _, rfl, rfl, rfl⟩, ?_, ?_⟩
            · dsimp only
              rw [hwr', List.flatten_append]
              simp
            · dsimp only
              exact List.cons_subset.2 ⟨by simp, fun Z hZ => List.mem_cons_of_mem _ (hsub hZ)⟩
          · rw [if_neg hb]
            exact beside_loop ⟨⟨rfl, rfl, rfl, _, _, _, _, rfl, rfl, hins'⟩, hwr', fun Z hZ => List.mem_cons_of_mem _ (hsub hZ)⟩

/-- How writing a table without buffer and with a buffer ends. -/
inductive Outcomes : Except (WState σ (List DbState) × OutErr) (WState σ (List DbState)) →
    Except (WState σ (List DbState) × OutErr) (WState σ (List DbState)) → Prop
  | fine {sf st X h1 h2} (e1 : sf.dest = X :: h1) (e2 : st.dest = X :: h2) (hw : sf.world = st.world)
      (hwr : sf.written.flatten = st.written.flatten) (hs : st.dest ⊆ sf.dest) : Outcomes (.ok sf) (.ok st)
  | failed {q q'} (h : q'.1.dest ⊆ q.1.dest) : Outcomes (.error q) (.error q')

theorem beside_all {rows : List (List Val)} {Y : DbState} {hc hf : List DbState} (hsub : hc ⊆ Y :: hf) {s : σ} :
    Outcomes (writeAll W (flushTo dialect strategy k d cols) { o with buffer := 0 } rows (Y :: hf) s)
      (writeAll W (flushTo dialect strategy k d cols) o rows (Y :: hc) s) := by
  have h := beside_loop (W := W) (o := o) (xs := copies o.multiplier rows) (dialect := dialect) (strategy := strategy)
    (k := k) (d := d) (cols := cols) (sf := ⟨[], Y :: hf, .null, s, []⟩) (st := ⟨[], Y :: hc, .null, s, []⟩)
    ⟨⟨rfl, rfl, rfl, _, _, _, _, rfl, rfl, rfl⟩, rfl, List.cons_subset.2 ⟨by simp, hsub⟩⟩
  unfold writeAll
  dsimp only
  revert h
  generalize writeLoop W (flushTo dialect strategy k d cols) { o with buffer := 0 } (copies o.multiplier rows) ⟨[], Y :: hf, .null, s, []⟩ = a
  generalize writeLoop W (flushTo dialect strategy k d cols) o (copies o.multiplier rows) ⟨[], Y :: hc, .null, s, []⟩ = b
  intro h
  cases h with
  | failed h => exact .failed h
  | doomed h hd hdoom =>
    rename_i q st Y' hc'
    dsimp only
    rw [if_neg hdoom.1, hd, hdoom.flush hc']
    obtain ⟨-, e, -, i⟩ := hdoom
    have i := i []
    rw [List.append_nil] at i
    simp only [flushChecked, i]
    exact .failed h
  | fine h =>
    rename_i sf st
    obtain ⟨⟨he, ha, hw, X, hX, Y', hY, x1, x2, x3⟩, hwr, hs⟩ := h
    dsimp only
    rw [if_pos he]
    by_cases hb : st.buffer = []
    · rw [if_pos hb]
      rw [hb] at x3 hwr
      cases x3
      exact .fine x1 x2 hw (by rw [hwr, List.append_nil]) hs
    · rw [if_neg hb, x2]
      obtain ⟨i1, i2⟩ := insertRows_ok x3
      have f1 : flushTo dialect strategy k d cols st.buffer (Y' :: hY) = .ok (X :: Y' :: hY) := by
        unfold flushTo
        dsimp only
        rw [i2 hb]
        dsimp only
        rw [← i1]
      rw [f1]
      refine .fine (h2 := Y' :: hY) x1 rfl hw (by dsimp only; rw [hwr, List.flatten_append]; simp) ?_
      rw [x2] at hs
      exact List.cons_subset.2 ⟨by rw [x1]; simp, hs⟩

end

/-- What was sent, without regard to batches. -/
def sentRows (ws : List (Key × List (List (List Val)))) : List (Key × List (List Val)) := ws.map fun w => (w.1, w.2.flatten)

theorem copyAll_beside {W : Outside σ Val} {read read0 : Str → Except RunErr (Option TableJob)}
    (hr : ∀ n, read0 n = match read n with
      | .error e => .error e
      | .ok none => .ok none
      | .ok (some j) => .ok (some j.plain)) :
    ∀ {ns : List Str} {Y : DbState} {hc hf : List DbState} {s : σ}, hc ⊆ Y :: hf →
    (copyAll W dialect read ns (Y :: hc) s).1 ⊆ (copyAll W dialect read0 ns (Y :: hf) s).1 ∧
    ((copyAll W dialect read ns (Y :: hc) s).2.2 = none ↔ (copyAll W dialect read0 ns (Y :: hf) s).2.2 = none) ∧
    ((copyAll W dialect read ns (Y :: hc) s).2.2 = none →
      (copyAll W dialect read ns (Y :: hc) s).1.head? = (copyAll W dialect read0 ns (Y :: hf) s).1.head? ∧
      sentRows (copyAll W dialect read ns (Y :: hc) s).2.1 = sentRows (copyAll W dialect read0 ns (Y :: hf) s).2.1)
  | [], Y, hc, hf, s, h => ⟨List.cons_subset.2 ⟨by simp [copyAll], h⟩, Iff.rfl, fun _ => ⟨rfl, rfl⟩⟩
  | n :: ns, Y, hc, hf, s, h => by
    have hs : Y :: hc ⊆ Y :: hf := List.cons_subset.2 ⟨by simp, h⟩
    unfold copyAll
    rw [hr n]
    cases h1 : read n with
    | error e => exact ⟨hs, ⟨fun h => (nomatch h), fun h => (nomatch h)⟩, fun h => nomatch h⟩
    | ok jo =>
      cases jo with
      | none => exact copyAll_beside hr h
      | some j =>
        dsimp only [TableJob.plain]
        rw [outPlan_plain]
        cases h2 : outPlan j.input with
        | error e => exact ⟨hs, ⟨fun h => (nomatch h), fun h => (nomatch h)⟩, fun h => nomatch h⟩
        | ok o =>
          dsimp only
          have g := beside_all (W := W) (o := o) (dialect := dialect) (strategy := j.strategy) (k := j.key)
            (d := j.input.dest) (cols := o.colsOut) (rows := j.rows) h (s := s)
          revert g
          generalize writeAll W (flushTo dialect j.strategy j.key j.input.dest o.colsOut) { o with buffer := 0 } j.rows (Y :: hf) s = a
          generalize writeAll W (flushTo dialect j.strategy j.key j.input.dest o.colsOut) o j.rows (Y :: hc) s = b
          intro g
          cases g with
          | failed h' => exact ⟨h', ⟨fun h => (nomatch h), fun h => (nomatch h)⟩, fun h => nomatch h⟩
          | fine e1 e2 hw hwr hs' =>
            rename_i sf st X l1 l2
            dsimp only
            rw [e1, e2] at hs'
            rw [e1, e2, hw]
            obtain ⟨i1, i2, i3⟩ := copyAll_beside hr (ns := ns) (s := st.world) fun Z hZ => hs' (List.mem_cons_of_mem _ hZ)
            refine ⟨i1, i2, fun hn => ?_⟩
            obtain ⟨i4, i5⟩ := i3 hn
            exact ⟨i4, by unfold sentRows at i5 ⊢; rw [List.map_cons, List.map_cons, i5, hwr]⟩

theorem sample_beside {C : RunConfig} {D : Setting σ} {p : Plan} {S : DbState} {s : σ} :
    (sample C D p S s).schema = (sample C { D with buffer := 0 } p S s).schema ∧
    (sample C D p S s).hist ⊆ (sample C { D with buffer := 0 } p S s).hist ∧
    ((sample C D p S s).err = none ↔ (sample C { D with buffer := 0 } p S s).err = none) ∧
    ((sample C D p S s).err = none →
      (sample C D p S s).final = (sample C { D with buffer := 0 } p S s).final ∧
      sentRows (sample C D p S s).writes = sentRows (sample C { D with buffer := 0 } p S s).writes) := by
  have e1 : startRun C { D with buffer := 0 } p = startRun C D p := rfl
  have e2 : ∀ r, createStep C { D with buffer := 0 } r = createStep C D r := fun _ => rfl
  have triv : ∀ {R : RunResult}, R.schema = R.schema ∧ R.hist ⊆ R.hist ∧ (R.err = none ↔ R.err = none) ∧
    (R.err = none → R.final = R.final ∧ sentRows R.writes = sentRows R.writes) := ⟨rfl, List.Subset.refl _, Iff.rfl, fun _ => ⟨rfl, rfl⟩⟩
  unfold sample
  rw [e1]
  cases startRun C D p with
  | error e => exact triv
  | ok r =>
    dsimp only
    rw [e2]
    cases createStep C D r with
    | error e => exact triv
    | ok y =>
      obtain ⟨db, x⟩ := y
      dsimp only
      cases insertOrder x with
      | error e => exact triv
      | ok order =>
        dsimp only
        cases truncateStep C x S with
        | error e => exact triv
        | ok states =>
          dsimp only
          cases prepareStep C r.tables x ((states.reverse ++ [S]).head?.getD S) p with
          | error e => exact triv
          | ok offs =>
            dsimp only
            cases getCompactColumns r.tables p.passthrough C.compact with
            | error e => exact triv
            | ok compact =>
              dsimp only
              cases materializationOrder r.tables compact p with
              | error e => exact triv
              | ok mat =>
                dsimp only
                cases materialize D.engine r.tables D.src D.reopen p mat [] with
                | error e => exact triv
                | ok temps =>
                  dsimp only
                  obtain ⟨Y, hc, hY⟩ : ∃ Y hc, states.reverse ++ [S] = Y :: hc := by
                    cases h' : states.reverse ++ [S] with
                    | nil => simp at h'
                    | cons Y hc => exact ⟨Y, hc, rfl⟩
                  rw [hY]
                  obtain ⟨i1, i2, i3⟩ := copyAll_beside (W := D.world) (dialect := D.dialect) (readTable_plain (C := C) (D := D) (r := r) (x := x) (offs := offs) (compact := compact) (p := p) (temps := temps))
                    (ns := order) (Y := Y) (hc := hc) (hf := hc) (s := s) (fun Z hZ => List.mem_cons_of_mem _ hZ)
                  refine ⟨rfl, i1, i2, fun hn => ?_⟩
                  obtain ⟨i4, i5⟩ := i3 hn
                  refine ⟨?_, i5⟩
                  unfold RunResult.final
                  dsimp only
                  rw [i4]

end Subsetter
