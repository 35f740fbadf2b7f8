import Verif.Model.Enforce
import Verif.Proofs.Insert
import Verif.Proofs.Output

/- Runs into a destination that checks constraints of its own. -/
namespace Subsetter

variable {σ : Type} {ok : DbState → Bool} {dialect : Dialect} {strategy : Strategy} {k : Key} {d : DestTable}
  {cols : List Str}

theorem flush_cons (b : List Val) (bs : List (List Val)) (T : List Row) :
    flushBuffer dialect strategy d cols (b :: bs) T =
      match flushBuffer dialect strategy d cols [b] T with
      | .error e => .error e
      | .ok T' => flushBuffer dialect strategy d cols bs T' := by
  unfold flushBuffer
  cases conflictInit strategy d.pk cols with
  | error e => rfl
  | ok x =>
    obtain ⟨st, nonPk⟩ := x
    dsimp only
    by_cases h1 : dialect = .generic ∧ st ≠ .error
    · rw [if_pos h1, if_pos h1]
    · rw [if_neg h1, if_neg h1]
      by_cases h2 : st = .replace ∧ ((updateColumns dialect d nonPk).any fun c => decide (c ∈ d.computed)) = true
      · rw [if_pos h2, if_pos h2]
      · rw [if_neg h2, if_neg h2]
        simp only [h1, h2, if_false, List.map_cons, List.map_nil, insertMany]
        cases insertOne st d (updateColumns dialect d nonPk) (fullRow d (cols.zip b)) T <;> rfl

theorem flush_nil {T T' : List Row} (h : flushBuffer dialect strategy d cols [] T = .ok T') : T' = T := by
  unfold flushBuffer at h
  split at h
  · cases h
  · split at h
    · cases h
    · split at h
      · cases h
      · cases h; rfl

theorem flush_append {a b : List (List Val)} {T T' : List Row} (h : flushBuffer dialect strategy d cols a T = .ok T') :
    flushBuffer dialect strategy d cols (a ++ b) T = flushBuffer dialect strategy d cols b T' := by
  induction a generalizing T with
  | nil => rw [flush_nil h]; rfl
  | cons x a ih =>
    rw [flush_cons] at h
    rw [List.cons_append, flush_cons]
    cases h1 : flushBuffer dialect strategy d cols [x] T with
    | error e => rw [h1] at h; cases h
    | ok T1 => rw [h1] at h; exact ih h

theorem set_set (S : DbState) (k : Key) (a b : List Row) : (S.set k a).set k b = S.set k b := by
  funext k'
  unfold DbState.set
  by_cases h : k' = k <;> simp [h]

theorem set_same (S : DbState) (k : Key) : S.set k (S k) = S := by
  funext k'
  unfold DbState.set
  by_cases h : k' = k <;> simp [h]

theorem get_set (S : DbState) (k : Key) (a : List Row) : S.set k a k = a := by simp [DbState.set]

theorem insertRows_append (a b : List (List Val)) (S : DbState) :
    insertRows ok dialect strategy k d cols (a ++ b) S =
      match insertRows ok dialect strategy k d cols a S with
      | .error e => .error e
      | .ok S' => insertRows ok dialect strategy k d cols b S' := by
  induction a generalizing S with
  | nil => rfl
  | cons x a ih =>
    simp only [List.cons_append, insertRows]
    cases flushBuffer dialect strategy d cols [x] (S k) with
    | error e => rfl
    | ok rows =>
      dsimp only
      by_cases h : ok (S.set k rows) = true
      · rw [if_pos h, if_pos h]; exact ih _
      · rw [if_neg h, if_neg h]

/-- Rows accepted one by one are accepted together. -/
theorem insertRows_ok {buf : List (List Val)} {S S' : DbState}
    (h : insertRows ok dialect strategy k d cols buf S = .ok S') :
    S' = S.set k (S' k) ∧ (buf ≠ [] → flushBuffer dialect strategy d cols buf (S k) = .ok (S' k)) := by
  induction buf generalizing S with
  | nil => cases h; exact ⟨(set_same _ k).symm, fun h => absurd rfl h⟩
  | cons b bs ih =>
    unfold insertRows at h
    cases h1 : flushBuffer dialect strategy d cols [b] (S k) with
    | error e => rw [h1] at h; cases h
    | ok rows =>
      rw [h1] at h
      dsimp only at h
      split at h
      · obtain ⟨h2, h3⟩ := ih h
        rw [set_set] at h2
        rw [get_set] at h3
        refine ⟨h2, fun _ => ?_⟩
        rw [flush_cons, h1]
        cases bs with
        | nil =>
          cases h
          dsimp only
          rw [get_set]
          unfold flushBuffer at h1 ⊢
          cases h4 : conflictInit strategy d.pk cols with
          | error e => rw [h4] at h1; cases h1
          | ok x =>
            rw [h4] at h1
            dsimp only at h1 ⊢
            split at h1
            · cases h1
            · split at h1
              · cases h1
              · rename_i g1 g2
                rw [if_neg g1, if_neg g2]
                rfl
        | cons c bs => exact h3 (by simp)
      · cases h

/-- If rows are rejected, then by a check or when inserted together. -/
theorem insertRows_error {buf : List (List Val)} {S : DbState} {e : OutErr}
    (h : insertRows ok dialect strategy k d cols buf S = .error e) :
    e = .integrity ∨ ∀ more, flushBuffer dialect strategy d cols (buf ++ more) (S k) = .error e := by
  induction buf generalizing S with
  | nil => cases h
  | cons b bs ih =>
    unfold insertRows at h
    cases h1 : flushBuffer dialect strategy d cols [b] (S k) with
    | error e' =>
      rw [h1] at h
      cases h
      exact .inr fun more => by rw [List.cons_append, flush_cons, h1]
    | ok rows =>
      rw [h1] at h
      dsimp only at h
      split at h
      · refine (ih h).imp id fun h2 more => ?_
        rw [List.cons_append, flush_cons, h1]
        have := h2 more
        rw [get_set] at this
        exact this
      · cases h; exact .inl rfl

/-! ### All states are fine -/

section
variable {W : Outside σ Val} {o : OutPlan}

/-- Inserting fails at the same row with and without checks. -/
def Doomed (ok : DbState → Bool) (dialect : Dialect) (strategy : Strategy) (k : Key) (d : DestTable) (cols : List Str)
    (buf : List (List Val)) (Y : DbState) : Prop :=
  buf ≠ [] ∧ ∃ e, (∀ more, flushBuffer dialect strategy d cols (buf ++ more) (Y k) = .error e) ∧
    ∀ more, insertRows ok dialect strategy k d cols (buf ++ more) Y = .error e

theorem Doomed.more {buf : List (List Val)} {Y : DbState} (h : Doomed ok dialect strategy k d cols buf Y)
    (a : List (List Val)) : Doomed ok dialect strategy k d cols (buf ++ a) Y := by
  obtain ⟨h0, e, h1, h2⟩ := h
  exact ⟨by simp [h0], e, fun more => by rw [List.append_assoc]; exact h1 _, fun more => by rw [List.append_assoc]; exact h2 _⟩

theorem Doomed.flush {buf : List (List Val)} {Y : DbState} (h : Doomed ok dialect strategy k d cols buf Y)
    (hist : List DbState) : flushTo dialect strategy k d cols buf (Y :: hist) = flushChecked ok dialect strategy k d cols buf (Y :: hist) := by
  obtain ⟨-, e, h1, h2⟩ := h
  have h1 := h1 []
  have h2 := h2 []
  rw [List.append_nil] at h1 h2
  unfold flushTo flushChecked
  dsimp only
  rw [h1, h2]

theorem doomed_loop : ∀ {xs : List (List Val × Nat)} {st : WState σ (List DbState)} {Y : DbState} {hist : List DbState},
    st.dest = Y :: hist → Doomed ok dialect strategy k d cols st.buffer Y →
    writeLoop W (flushTo dialect strategy k d cols) o xs st = writeLoop W (flushChecked ok dialect strategy k d cols) o xs st ∧
    ∀ st', writeLoop W (flushTo dialect strategy k d cols) o xs st = .ok st' →
      st'.dest = Y :: hist ∧ Doomed ok dialect strategy k d cols st'.buffer Y
  | [], st, Y, hist, hd, h => ⟨rfl, fun st' h' => by cases h'; exact ⟨hd, h⟩⟩
  | x :: xs, st, Y, hist, hd, h => by
    obtain ⟨buf, dest, auto, world, written⟩ := st
    cases hd
    dsimp only at h
    unfold writeLoop writeStep
    dsimp only
    cases outRow W o x world with
    | error e => exact ⟨rfl, fun _ h => nomatch h⟩
    | ok y =>
      obtain ⟨row, s'⟩ := y
      dsimp only
      cases autoMax o auto row with
      | error e => exact ⟨rfl, fun _ h => nomatch h⟩
      | ok a =>
        dsimp only
        by_cases hb : o.buffer < (buf ++ [row]).length
        · rw [if_pos hb, if_pos hb, (h.more [row]).flush hist]
          obtain ⟨-, e, -, h2⟩ := h.more [row]
          have h2 := h2 []
          rw [List.append_nil] at h2
          simp only [flushChecked, h2]
          exact ⟨trivial, fun _ h => nomatch h⟩
        · rw [if_neg hb, if_neg hb]
          exact doomed_loop rfl (h.more [row])

/-- States only come on top. -/
theorem writeLoop_suffix : ∀ {xs : List (List Val × Nat)} {st : WState σ (List DbState)},
    (∀ st', writeLoop W (flushTo dialect strategy k d cols) o xs st = .ok st' → st.dest <:+ st'.dest) ∧
    ∀ q, writeLoop W (flushTo dialect strategy k d cols) o xs st = .error q → st.dest <:+ q.1.dest
  | [], st => ⟨fun st' h => by cases h; exact List.suffix_rfl, fun _ h => nomatch h⟩
  | x :: xs, st => by
    unfold writeLoop writeStep
    cases outRow W o x st.world with
    | error e => exact ⟨fun _ h => (nomatch h), fun q h => by cases h; exact List.suffix_rfl⟩
    | ok y =>
      obtain ⟨row, s'⟩ := y
      dsimp only
      cases autoMax o st.auto row with
      | error e => exact ⟨fun _ h => (nomatch h), fun q h => by cases h; exact List.suffix_rfl⟩
      | ok a =>
        dsimp only
        by_cases hb : o.buffer < (st.buffer ++ [row]).length
        · rw [if_pos hb]
          cases hf : flushTo dialect strategy k d cols (st.buffer ++ [row]) st.dest with
          | error e => exact ⟨fun _ h => (nomatch h), fun q h => by cases h; exact List.suffix_rfl⟩
          | ok dd =>
            have : st.dest <:+ dd := by
              unfold flushTo at hf
              split at hf
              · rename_i hd; cases hf; rw [hd]; exact List.suffix_rfl
              · rename_i hd
                rw [hd]
                split at hf
                · cases hf
                · cases hf; exact List.suffix_cons ..
            obtain ⟨h1, h2⟩ := writeLoop_suffix (xs := xs) (st := ⟨[], dd, a, s', st.written ++ [st.buffer ++ [row]]⟩)
            exact ⟨fun st' h => this.trans (h1 st' h), fun q h => this.trans (h2 q h)⟩
        · rw [if_neg hb]
          exact writeLoop_suffix (xs := xs) (st := ⟨st.buffer ++ [row], st.dest, a, s', st.written⟩)

/-- The loop with a buffer (`st`), checked or not, and without (`sf`): the latter has inserted what is in the buffer of the
former. -/
structure Along (ok : DbState → Bool) (dialect : Dialect) (strategy : Strategy) (k : Key) (d : DestTable) (cols : List Str)
    (sf st : WState σ (List DbState)) : Prop where
  empty : sf.buffer = []
  auto : sf.auto = st.auto
  world : sf.world = st.world
  dest : ∃ X hf Y hc, sf.dest = X :: hf ∧ st.dest = Y :: hc ∧ insertRows ok dialect strategy k d cols st.buffer Y = .ok X

theorem outRow_buffer {x : List Val × Nat} {s : σ} (N : Nat) : outRow W { o with buffer := N } x s = outRow W o x s := rfl

theorem autoMax_buffer {a : Val} {row : List Val} (N : Nat) : autoMax { o with buffer := N } a row = autoMax o a row := rfl

theorem along_loop : ∀ {xs : List (List Val × Nat)} {sf st : WState σ (List DbState)},
    Along ok dialect strategy k d cols sf st →
    (∀ st', writeLoop W (flushTo dialect strategy k d cols) { o with buffer := 0 } xs sf = .ok st' → ∀ X ∈ st'.dest, ok X = true) →
    (∀ q, writeLoop W (flushTo dialect strategy k d cols) { o with buffer := 0 } xs sf = .error q → ∀ X ∈ q.1.dest, ok X = true) →
    writeLoop W (flushTo dialect strategy k d cols) o xs st = writeLoop W (flushChecked ok dialect strategy k d cols) o xs st ∧
    ∀ st', writeLoop W (flushTo dialect strategy k d cols) o xs st = .ok st' →
      (∃ sf', writeLoop W (flushTo dialect strategy k d cols) { o with buffer := 0 } xs sf = .ok sf' ∧
        Along ok dialect strategy k d cols sf' st') ∨
      ((∃ q, writeLoop W (flushTo dialect strategy k d cols) { o with buffer := 0 } xs sf = .error q) ∧
        ∃ Y hc, st'.dest = Y :: hc ∧ Doomed ok dialect strategy k d cols st'.buffer Y)
  | [], sf, st, h, _, _ => ⟨rfl, fun st' h' => by cases h'; exact .inl ⟨sf, rfl, h⟩⟩
  | x :: xs, sf, st, h, hok, herr => by
    obtain ⟨buf, dest, auto, world, written⟩ := st
    obtain ⟨fbuf, fdest, fauto, fworld, fwritten⟩ := sf
    obtain ⟨he, ha, hw, X, hf, Y, hc, hX, hY, hins⟩ := h
    dsimp only at he ha hw hX hY hins
    subst he ha hw hX hY
    unfold writeLoop writeStep at hok herr ⊢
    dsimp only at hok herr ⊢
    rw [outRow_buffer (o := o) 0] at hok herr ⊢
    cases h1 : outRow W o x fworld with
    | error e => exact ⟨rfl, fun _ h => nomatch h⟩
    | ok y =>
      obtain ⟨row, s'⟩ := y
      rw [h1] at hok herr
      dsimp only at hok herr ⊢
      rw [autoMax_buffer (o := o) 0] at hok herr ⊢
      cases h2 : autoMax o fauto row with
      | error e => exact ⟨rfl, fun _ h => nomatch h⟩
      | ok a =>
        rw [h2] at hok herr
        dsimp only [List.nil_append, List.length_singleton] at hok herr ⊢
        rw [if_pos Nat.zero_lt_one] at hok herr ⊢
        cases h3 : flushBuffer dialect strategy d cols [row] (X k) with
        | error e =>
          have hdoom : Doomed ok dialect strategy k d cols (buf ++ [row]) Y := by
            refine ⟨by simp, e, fun more => ?_, fun more => ?_⟩
            · obtain ⟨g1, g2⟩ := insertRows_ok hins
              cases buf with
              | nil =>
                cases hins
                rw [List.nil_append, List.singleton_append, flush_cons, h3]
              | cons b bs =>
                rw [List.append_assoc, flush_append (g2 (by simp)), List.singleton_append, flush_cons, h3]
            · rw [List.append_assoc, insertRows_append, hins]
              dsimp only [List.singleton_append]
              rw [insertRows, h3]
          have hfe : flushTo dialect strategy k d cols [row] (X :: hf) = .error e := by
            unfold flushTo; dsimp only; rw [h3]
          rw [hfe]
          by_cases hb : o.buffer < (buf ++ [row]).length
          · rw [if_pos hb, if_pos hb, hdoom.flush hc]
            obtain ⟨-, e', -, g⟩ := hdoom
            have g := g []
            rw [List.append_nil] at g
            simp only [flushChecked, g]
            exact ⟨trivial, fun _ h => nomatch h⟩
          · rw [if_neg hb, if_neg hb]
            obtain ⟨g1, g2⟩ := doomed_loop (W := W) (o := o) (xs := xs) (st := ⟨buf ++ [row], Y :: hc, a, s', written⟩) rfl hdoom
            exact ⟨g1, fun st' h => .inr ⟨⟨_, rfl⟩, Y, hc, g2 st' h⟩⟩
        | ok rows =>
          have hfe : flushTo dialect strategy k d cols [row] (X :: hf) = .ok (X.set k rows :: X :: hf) := by
            unfold flushTo; dsimp only; rw [h3]
          rw [hfe] at hok herr ⊢
          dsimp only at hok herr ⊢
          have hX' : ok (X.set k rows) = true := by
            have hs := writeLoop_suffix (W := W) (o := { o with buffer := 0 }) (dialect := dialect) (strategy := strategy) (k := k) (d := d) (cols := cols) (xs := xs)
              (st := ⟨[], X.set k rows :: X :: hf, a, s', fwritten ++ [[row]]⟩)
            cases h4 : writeLoop W (flushTo dialect strategy k d cols) { o with buffer := 0 } xs ⟨[], X.set k rows :: X :: hf, a, s', fwritten ++ [[row]]⟩ with
            | error q => exact herr q h4 _ ((hs.2 q h4).subset (by simp))
            | ok st' => exact hok st' h4 _ ((hs.1 st' h4).subset (by simp))
          have hins' : insertRows ok dialect strategy k d cols (buf ++ [row]) Y = .ok (X.set k rows) := by
            rw [insertRows_append, hins]
            simp only [insertRows, h3]
            rw [if_pos hX']
          by_cases hb : o.buffer < (buf ++ [row]).length
          · rw [if_pos hb, if_pos hb]
            obtain ⟨g1, g2⟩ := insertRows_ok hins'
            have e1 : flushTo dialect strategy k d cols (buf ++ [row]) (Y :: hc) = .ok (X.set k rows :: Y :: hc) := by
              unfold flushTo
              dsimp only
              rw [g2 (by simp)]
              dsimp only
              rw [← g1]
            have e2 : flushChecked ok dialect strategy k d cols (buf ++ [row]) (Y :: hc) = .ok (X.set k rows :: Y :: hc) := by
              unfold flushChecked
              dsimp only
              rw [hins']
            rw [e1, e2]
            exact along_loop ⟨rfl, rfl, rfl, _, _, _, _, rfl, rfl, rfl⟩ hok herr
          · rw [if_neg hb, if_neg hb]
            exact along_loop ⟨rfl, rfl, rfl, _, _, _, _, rfl, rfl, hins'⟩ hok herr

theorem flushTo_suffix {buf : List (List Val)} {hist hist' : List DbState}
    (h : flushTo dialect strategy k d cols buf hist = .ok hist') : hist <:+ hist' := by
  unfold flushTo at h
  split at h
  · cases h; exact List.suffix_rfl
  · split at h
    · cases h
    · cases h; exact List.suffix_cons ..

/-- What `writeAll` makes of a history contains what the loop made of it. -/
theorem writeAll_loop {rows : List (List Val)} {hist : List DbState} {s : σ} {st : WState σ (List DbState)}
    (h : writeLoop W (flushTo dialect strategy k d cols) o (copies o.multiplier rows) ⟨[], hist, .null, s, []⟩ = .ok st) :
    (∃ st', writeAll W (flushTo dialect strategy k d cols) o rows hist s = .ok st' ∧ st.dest <:+ st'.dest) ∨
    ∃ q, writeAll W (flushTo dialect strategy k d cols) o rows hist s = .error q ∧ st.dest <:+ q.1.dest := by
  unfold writeAll
  rw [h]
  dsimp only
  split
  · exact .inl ⟨_, rfl, List.suffix_rfl⟩
  · cases hf : flushTo dialect strategy k d cols st.buffer st.dest with
    | error e => exact .inr ⟨_, rfl, List.suffix_rfl⟩
    | ok dd => exact .inl ⟨_, rfl, flushTo_suffix hf⟩

theorem writeAll_suffix {rows : List (List Val)} {hist : List DbState} {s : σ} :
    (∀ st', writeAll W (flushTo dialect strategy k d cols) o rows hist s = .ok st' → hist <:+ st'.dest) ∧
    ∀ q, writeAll W (flushTo dialect strategy k d cols) o rows hist s = .error q → hist <:+ q.1.dest := by
  have hs := writeLoop_suffix (W := W) (o := o) (dialect := dialect) (strategy := strategy) (k := k) (d := d) (cols := cols)
    (xs := copies o.multiplier rows) (st := ⟨[], hist, .null, s, []⟩)
  cases h : writeLoop W (flushTo dialect strategy k d cols) o (copies o.multiplier rows) ⟨[], hist, .null, s, []⟩ with
  | error q =>
    have : writeAll W (flushTo dialect strategy k d cols) o rows hist s = .error q := by unfold writeAll; rw [h]
    rw [this]
    exact ⟨fun _ h => (nomatch h), fun q' h' => by cases h'; exact hs.2 q h⟩
  | ok st =>
    have h1 := hs.1 st h
    rcases writeAll_loop h with ⟨st', h2, h3⟩ | ⟨q, h2, h3⟩ <;> rw [h2]
    · exact ⟨fun _ h' => by cases h'; exact h1.trans h3, fun _ h => (nomatch h)⟩
    · exact ⟨fun _ h => (nomatch h), fun _ h' => by cases h'; exact h1.trans h3⟩

/-- Writing one table: checks make no difference if all states of the loop without buffer are fine, and both end with the
same contents. -/
theorem along_all {rows : List (List Val)} {Y : DbState} {hc hf : List DbState} {s : σ}
    (hok : ∀ st', writeAll W (flushTo dialect strategy k d cols) { o with buffer := 0 } rows (Y :: hf) s = .ok st' →
      ∀ X ∈ st'.dest, ok X = true)
    (herr : ∀ q, writeAll W (flushTo dialect strategy k d cols) { o with buffer := 0 } rows (Y :: hf) s = .error q →
      ∀ X ∈ q.1.dest, ok X = true) :
    writeAll W (flushTo dialect strategy k d cols) o rows (Y :: hc) s =
      writeAll W (flushChecked ok dialect strategy k d cols) o rows (Y :: hc) s ∧
    ∀ st', writeAll W (flushTo dialect strategy k d cols) o rows (Y :: hc) s = .ok st' →
      ∃ sf' X h1 h2, writeAll W (flushTo dialect strategy k d cols) { o with buffer := 0 } rows (Y :: hf) s = .ok sf' ∧
        sf'.dest = X :: h1 ∧ st'.dest = X :: h2 ∧ sf'.world = st'.world := by
  have hal := along_loop (W := W) (o := o) (xs := copies o.multiplier rows) (ok := ok) (dialect := dialect) (strategy := strategy)
    (k := k) (d := d) (cols := cols) (sf := ⟨[], Y :: hf, .null, s, []⟩) (st := ⟨[], Y :: hc, .null, s, []⟩)
    ⟨rfl, rfl, rfl, _, _, _, _, rfl, rfl, rfl⟩
    (fun st' h X hX => by
      rcases writeAll_loop (o := { o with buffer := 0 }) h with ⟨st2, h2, h3⟩ | ⟨q, h2, h3⟩
      · exact hok _ h2 X (h3.subset hX)
      · exact herr _ h2 X (h3.subset hX))
    (fun q h X hX => herr q (by unfold writeAll; rw [h]) X hX)
  obtain ⟨e1, e2⟩ := hal
  generalize hz : writeAll W (flushTo dialect strategy k d cols) { o with buffer := 0 } rows (Y :: hf) s = z
  unfold writeAll
  rw [← e1]
  cases h : writeLoop W (flushTo dialect strategy k d cols) o (copies o.multiplier rows) ⟨[], Y :: hc, .null, s, []⟩ with
  | error q => exact ⟨rfl, fun _ h => nomatch h⟩
  | ok st =>
    dsimp only
    rcases e2 st h with ⟨sf', g1, g2⟩ | ⟨⟨q, -⟩, Y', h', g1, g2⟩
    · have g0 : z = .ok sf' := by
        rw [← hz]
        unfold writeAll
        dsimp only
        rw [g1]
        dsimp only
        rw [if_pos g2.empty]
      obtain ⟨X, hX, Y', hY, x1, x2, x3⟩ := g2.dest
      by_cases hb : st.buffer = []
      · rw [if_pos hb, if_pos hb]
        rw [hb] at x3
        cases x3
        exact ⟨rfl, fun st' h' => by cases h'; exact ⟨sf', _, hX, hY, g0, x1, x2, g2.world⟩⟩
      · rw [if_neg hb, if_neg hb, x2]
        obtain ⟨i1, i2⟩ := insertRows_ok x3
        have f1 : flushTo dialect strategy k d cols st.buffer (Y' :: hY) = .ok (X :: Y' :: hY) := by
          unfold flushTo
          dsimp only
          rw [i2 hb]
          dsimp only
          rw [← i1]
        have f2 : flushChecked ok dialect strategy k d cols st.buffer (Y' :: hY) = .ok (X :: Y' :: hY) := by
          unfold flushChecked
          dsimp only
          rw [x3]
        rw [f1, f2]
        exact ⟨rfl, fun st' h' => by cases h'; exact ⟨sf', X, hX, _, g0, x1, rfl, g2.world⟩⟩
    · rw [if_neg g2.1, if_neg g2.1, g1, g2.flush h']
      obtain ⟨-, e, -, i⟩ := g2
      have i := i []
      rw [List.append_nil] at i
      simp only [flushChecked, i]
      exact ⟨trivial, fun _ h => nomatch h⟩

end

/-- A job without buffer. -/
def TableJob.plain (j : TableJob) : TableJob := ⟨j.key, j.strategy, { j.input with buffer := 0 }, j.rows⟩

theorem outPlan_plain {x : OutInput} : outPlan { x with buffer := 0 } =
    match outPlan x with
    | .error e => .error e
    | .ok o => .ok { o with buffer := 0 } := by
  unfold outPlan
  dsimp only
  split
  · rfl
  · rfl

theorem readTable_plain {C : RunConfig} {D : Setting σ} {r : Started} {x : DestMeta} {offs : Dict Key (Dict Str Int)}
    {compact : Dict Key (List Str)} {p : Plan} {temps : Temps} (n : Str) :
    readTable C { D with buffer := 0 } r x offs compact p temps n =
      match readTable C D r x offs compact p temps n with
      | .error e => .error e
      | .ok none => .ok none
      | .ok (some j) => .ok (some j.plain) := by
  unfold readTable
  dsimp only
  cases parseTableName n with
  | none => rfl
  | some k =>
    dsimp only
    cases dget p.queries n with
    | none => rfl
    | some q =>
      dsimp only
      cases copyRows D.engine r.tables D.le C.compact.startKey compact D.src D.reopen temps k q with
      | error e => rfl
      | ok rows =>
        dsimp only
        cases dget r.tables k with
        | none => rfl
        | some t =>
          dsimp only
          unfold tableJob
          dsimp only
          cases constructFilter D.world t.columns ((dget C.filters n).getD []) with
          | error e => rfl
          | ok ch =>
            dsimp only
            cases remapTable C.remap k with
            | none => rfl
            | some kd =>
              dsimp only
              cases dget x.tables kd with
              | none => rfl
              | some td => rfl

theorem copyAll_suffix {W : Outside σ Val} {read : Str → Except RunErr (Option TableJob)} :
    ∀ {ns : List Str} {hist : List DbState} {s : σ}, hist <:+ (copyAll W dialect read ns hist s).1
  | [], hist, s => List.suffix_rfl
  | n :: ns, hist, s => by
    unfold copyAll
    split
    · exact List.suffix_rfl
    · exact copyAll_suffix
    · split
      · exact List.suffix_rfl
      · split
        · rename_i h; exact writeAll_suffix.2 _ h
        · rename_i h; exact (writeAll_suffix.1 _ h).trans copyAll_suffix

theorem copyAll_checked {W : Outside σ Val} {read read0 : Str → Except RunErr (Option TableJob)}
    (hr : ∀ n, read0 n = match read n with
      | .error e => .error e
      | .ok none => .ok none
      | .ok (some j) => .ok (some j.plain)) :
    ∀ {ns : List Str} {Y : DbState} {hc hf : List DbState} {s : σ},
    (∀ X ∈ (copyAll W dialect read0 ns (Y :: hf) s).1, ok X = true) →
    copyAllChecked ok W dialect read ns (Y :: hc) s = copyAll W dialect read ns (Y :: hc) s
  | [], Y, hc, hf, s, _ => rfl
  | n :: ns, Y, hc, hf, s, h => by
    unfold copyAllChecked copyAll
    unfold copyAll at h
    rw [hr n] at h
    cases h1 : read n with
    | error e => rfl
    | ok jo =>
      rw [h1] at h
      cases jo with
      | none => exact copyAll_checked hr h
      | some j =>
        dsimp only [TableJob.plain] at h ⊢
        rw [outPlan_plain] at h
        cases h2 : outPlan j.input with
        | error e => rfl
        | ok o =>
          rw [h2] at h
          dsimp only at h ⊢
          obtain ⟨g1, g2⟩ := along_all (W := W) (o := o) (ok := ok) (dialect := dialect) (strategy := j.strategy) (k := j.key)
            (d := j.input.dest) (cols := o.colsOut) (rows := j.rows) (Y := Y) (hc := hc) (hf := hf) (s := s)
            (fun st' h' X hX => by rw [h'] at h; exact h X (copyAll_suffix.subset hX))
            (fun q h' X hX => by rw [h'] at h; exact h X hX)
          rw [← g1]
          cases h3 : writeAll W (flushTo dialect j.strategy j.key j.input.dest o.colsOut) o j.rows (Y :: hc) s with
          | error q => rfl
          | ok st' =>
            obtain ⟨sf', X, l1, l2, i1, i2, i3, i4⟩ := g2 st' h3
            rw [i1] at h
            dsimp only at h ⊢
            rw [i2, i4] at h
            rw [i3, copyAll_checked hr h]

theorem truncateChecked_ok {l : List DbState} (h : ∀ X ∈ l, ok X = true) : truncateChecked ok l = (l, true) := by
  induction l with
  | nil => rfl
  | cons X l ih =>
    unfold truncateChecked
    rw [if_pos (h X (by simp)), ih fun Y hY => h Y (by simp [hY])]

theorem sample_checked {C : RunConfig} {D : Setting σ} {p : Plan} {S : DbState} {s : σ}
    (h : ∀ X ∈ (sample C { D with buffer := 0 } p S s).hist, ok X = true) :
    sampleChecked ok C D p S s = sample C D p S s := by
  have e1 : startRun C { D with buffer := 0 } p = startRun C D p := rfl
  have e2 : ∀ r, createStep C { D with buffer := 0 } r = createStep C D r := fun _ => rfl
  unfold sampleChecked sample
  unfold sample at h
  rw [e1] at h
  cases c1 : startRun C D p with
  | error e => rfl
  | ok r =>
    rw [c1] at h
    dsimp only at h ⊢
    rw [e2] at h
    cases c2 : createStep C D r with
    | error e => rfl
    | ok y =>
      obtain ⟨db, x⟩ := y
      rw [c2] at h
      dsimp only at h ⊢
      cases c3 : insertOrder x with
      | error e => rfl
      | ok order =>
        rw [c3] at h
        dsimp only at h ⊢
        cases c4 : truncateStep C x S with
        | error e => rfl
        | ok states =>
          rw [c4] at h
          dsimp only at h ⊢
          have hst : ∀ X ∈ states, ok X = true := by
            intro X hX
            have hX' : X ∈ states.reverse ++ [S] := by simp [hX]
            split at h
            · exact h X hX'
            · split at h
              · exact h X hX'
              · split at h
                · exact h X hX'
                · split at h
                  · exact h X hX'
                  · exact h X (copyAll_suffix.subset hX')
          rw [truncateChecked_ok hst]
          dsimp only
          rw [if_pos rfl]
          cases c5 : prepareStep C r.tables x ((states.reverse ++ [S]).head?.getD S) p with
          | error e => rfl
          | ok offs =>
            rw [c5] at h
            dsimp only at h ⊢
            cases c6 : getCompactColumns r.tables p.passthrough C.compact with
            | error e => rfl
            | ok compact =>
              rw [c6] at h
              dsimp only at h ⊢
              cases c7 : materializationOrder r.tables compact p with
              | error e => rfl
              | ok mat =>
                rw [c7] at h
                dsimp only at h ⊢
                cases c8 : materialize D.engine r.tables D.src D.reopen p mat [] with
                | error e => rfl
                | ok temps =>
                  rw [c8] at h
                  dsimp only at h ⊢
                  obtain ⟨Y, hc, hY⟩ : ∃ Y hc, states.reverse ++ [S] = Y :: hc := by
                    cases h' : states.reverse ++ [S] with
                    | nil => simp at h'
                    | cons Y hc => exact ⟨Y, hc, rfl⟩
                  rw [hY] at h ⊢
                  rw [copyAll_checked (ok := ok) (readTable_plain (C := C) (D := D)) h]

/-! ### Any checks -/

theorem flushChecked_cases (buf : List (List Val)) (hb : buf ≠ []) (hist : List DbState) :
    flushChecked ok dialect strategy k d cols buf hist = flushTo dialect strategy k d cols buf hist ∨
    flushChecked ok dialect strategy k d cols buf hist = .error .integrity := by
  unfold flushChecked flushTo
  cases hist with
  | nil => exact .inl rfl
  | cons S hist =>
    dsimp only
    cases h : insertRows ok dialect strategy k d cols buf S with
    | error e =>
      dsimp only
      rcases insertRows_error h with rfl | h1
      · exact .inr rfl
      · have h1 := h1 []
        rw [List.append_nil] at h1
        rw [h1]
        exact .inl rfl
    | ok S' =>
      obtain ⟨h1, h2⟩ := insertRows_ok h
      rw [h2 hb]
      dsimp only
      rw [← h1]
      exact .inl rfl

theorem insertRows_fine {buf : List (List Val)} {S S' : DbState}
    (h : insertRows ok dialect strategy k d cols buf S = .ok S') (hb : buf ≠ []) : ok S' = true := by
  induction buf generalizing S with
  | nil => exact absurd rfl hb
  | cons b bs ih =>
    unfold insertRows at h
    cases h1 : flushBuffer dialect strategy d cols [b] (S k) with
    | error e => rw [h1] at h; cases h
    | ok rows =>
      rw [h1] at h
      dsimp only at h
      split at h
      · rename_i hk
        cases bs with
        | nil => cases h; exact hk
        | cons c bs => exact ih h (by simp)
      · cases h

theorem flushChecked_fine {buf : List (List Val)} (hb : buf ≠ []) {hist hist' : List DbState}
    (h : flushChecked ok dialect strategy k d cols buf hist = .ok hist') {P : DbState → Prop}
    (hP : ∀ X ∈ hist, P X ∨ ok X = true) : ∀ X ∈ hist', P X ∨ ok X = true := by
  unfold flushChecked at h
  cases hist with
  | nil => cases h; exact hP
  | cons S hist =>
    dsimp only at h
    cases h1 : insertRows ok dialect strategy k d cols buf S with
    | error e => rw [h1] at h; cases h
    | ok S' =>
      rw [h1] at h
      cases h
      intro X hX
      rcases List.mem_cons.1 hX with rfl | hX
      · exact .inr (insertRows_fine h1 hb)
      · exact hP X hX

/-- The state a loop ended with. -/
def endState {α : Type} : Except (α × OutErr) α → α
  | .error q => q.1
  | .ok st => st

section
variable {W : Outside σ Val} {o : OutPlan}

theorem loop_suffix {xs : List (List Val × Nat)} {st : WState σ (List DbState)} :
    st.dest <:+ (endState (writeLoop W (flushTo dialect strategy k d cols) o xs st)).dest := by
  have h := writeLoop_suffix (W := W) (o := o) (dialect := dialect) (strategy := strategy) (k := k) (d := d) (cols := cols)
    (xs := xs) (st := st)
  cases h1 : writeLoop W (flushTo dialect strategy k d cols) o xs st with
  | error q => exact h.2 q h1
  | ok st' => exact h.1 st' h1

theorem loop_either {P : DbState → Prop} : ∀ {xs : List (List Val × Nat)} {st : WState σ (List DbState)},
    (∀ X ∈ st.dest, P X ∨ ok X = true) →
    (∀ X ∈ (endState (writeLoop W (flushChecked ok dialect strategy k d cols) o xs st)).dest, P X ∨ ok X = true) ∧
    (writeLoop W (flushChecked ok dialect strategy k d cols) o xs st = writeLoop W (flushTo dialect strategy k d cols) o xs st ∨
      ∃ q, writeLoop W (flushChecked ok dialect strategy k d cols) o xs st = .error (q, .integrity) ∧
        q.dest <:+ (endState (writeLoop W (flushTo dialect strategy k d cols) o xs st)).dest)
  | [], st, hP => ⟨hP, .inl rfl⟩
  | x :: xs, st, hP => by
    have hsuf := loop_suffix (W := W) (o := o) (dialect := dialect) (strategy := strategy) (k := k) (d := d) (cols := cols)
      (xs := x :: xs) (st := st)
    unfold writeLoop writeStep at hsuf ⊢
    cases h1 : outRow W o x st.world with
    | error e => exact ⟨hP, .inl rfl⟩
    | ok y =>
      obtain ⟨row, s'⟩ := y
      rw [h1] at hsuf
      dsimp only at hsuf ⊢
      cases h2 : autoMax o st.auto row with
      | error e => exact ⟨hP, .inl rfl⟩
      | ok a =>
        rw [h2] at hsuf
        dsimp only at hsuf ⊢
        by_cases hb : o.buffer < (st.buffer ++ [row]).length
        · rw [if_pos hb] at hsuf
          rw [if_pos hb, if_pos hb]
          have hne : st.buffer ++ [row] ≠ [] := by simp
          rcases flushChecked_cases (ok := ok) (dialect := dialect) (strategy := strategy) (k := k) (d := d) (cols := cols) _ hne st.dest with h3 | h3
          · cases h4 : flushTo dialect strategy k d cols (st.buffer ++ [row]) st.dest with
            | error e =>
              rw [h3, h4]
              exact ⟨hP, .inl rfl⟩
            | ok dd =>
              rw [h3, h4]
              rw [h4] at h3
              exact loop_either (st := ⟨[], dd, a, s', st.written ++ [st.buffer ++ [row]]⟩) (flushChecked_fine hne h3 hP)
          · rw [h3]
            exact ⟨hP, .inr ⟨st, rfl, hsuf⟩⟩
        · rw [if_neg hb, if_neg hb]
          exact loop_either (st := ⟨st.buffer ++ [row], st.dest, a, s', st.written⟩) hP

theorem all_either {P : DbState → Prop} {rows : List (List Val)} {hist : List DbState} {s : σ}
    (hP : ∀ X ∈ hist, P X ∨ ok X = true) :
    (∀ X ∈ (endState (writeAll W (flushChecked ok dialect strategy k d cols) o rows hist s)).dest, P X ∨ ok X = true) ∧
    (writeAll W (flushChecked ok dialect strategy k d cols) o rows hist s = writeAll W (flushTo dialect strategy k d cols) o rows hist s ∨
      ∃ q, writeAll W (flushChecked ok dialect strategy k d cols) o rows hist s = .error (q, .integrity) ∧
        q.dest <:+ (endState (writeAll W (flushTo dialect strategy k d cols) o rows hist s)).dest) := by
  obtain ⟨h1, h2⟩ := loop_either (W := W) (o := o) (ok := ok) (dialect := dialect) (strategy := strategy) (k := k) (d := d) (cols := cols)
    (P := P) (xs := copies o.multiplier rows) (st := ⟨[], hist, .null, s, []⟩) hP
  have hl := @writeAll_loop σ dialect strategy k d cols W o rows hist s
  unfold writeAll at hl ⊢
  rcases h2 with h2 | ⟨q, h2, h3⟩
  · rw [h2] at h1 ⊢
    cases h4 : writeLoop W (flushTo dialect strategy k d cols) o (copies o.multiplier rows) ⟨[], hist, .null, s, []⟩ with
    | error q =>
      rw [h4] at h1
      exact ⟨h1, .inl rfl⟩
    | ok st =>
      rw [h4] at h1
      dsimp only
      by_cases hb : st.buffer = []
      · rw [if_pos hb, if_pos hb]
        exact ⟨h1, .inl rfl⟩
      · rw [if_neg hb, if_neg hb]
        rcases flushChecked_cases (ok := ok) (dialect := dialect) (strategy := strategy) (k := k) (d := d) (cols := cols) _ hb st.dest with h3 | h3
        · cases h5 : flushTo dialect strategy k d cols st.buffer st.dest with
          | error e =>
            rw [h3, h5]
            exact ⟨h1, .inl rfl⟩
          | ok dd =>
            rw [h3, h5]
            rw [h5] at h3
            exact ⟨flushChecked_fine hb h3 h1, .inl rfl⟩
        · rw [h3]
          refine ⟨h1, .inr ⟨st, rfl, ?_⟩⟩
          have := hl h4
          rw [h4] at this
          dsimp only at this
          rw [if_neg hb] at this
          rcases this with ⟨st', e, hs⟩ | ⟨q, e, hs⟩ <;> rw [e] <;> exact hs
  · rw [h2] at h1 ⊢
    refine ⟨h1, .inr ⟨q, rfl, h3.trans ?_⟩⟩
    cases h4 : writeLoop W (flushTo dialect strategy k d cols) o (copies o.multiplier rows) ⟨[], hist, .null, s, []⟩ with
    | error q => exact List.suffix_rfl
    | ok st =>
      have := hl h4
      rw [h4] at this
      dsimp only at this ⊢
      rcases this with ⟨st', e, hs⟩ | ⟨q, e, hs⟩ <;> rw [e] <;> exact hs

end

theorem copyAll_either {W : Outside σ Val} {read : Str → Except RunErr (Option TableJob)} {P : DbState → Prop} :
    ∀ {ns : List Str} {hist : List DbState} {s : σ}, (∀ X ∈ hist, P X ∨ ok X = true) →
    (∀ X ∈ (copyAllChecked ok W dialect read ns hist s).1, P X ∨ ok X = true) ∧
    (copyAllChecked ok W dialect read ns hist s = copyAll W dialect read ns hist s ∨
      (copyAllChecked ok W dialect read ns hist s).2.2 = some (.dest (.output .integrity)) ∧
      (copyAllChecked ok W dialect read ns hist s).1 <:+ (copyAll W dialect read ns hist s).1)
  | [], hist, s, hP => ⟨hP, .inl rfl⟩
  | n :: ns, hist, s, hP => by
    unfold copyAllChecked copyAll
    cases read n with
    | error e => exact ⟨hP, .inl rfl⟩
    | ok jo =>
      cases jo with
      | none => exact copyAll_either hP
      | some j =>
        dsimp only
        cases outPlan j.input with
        | error e => exact ⟨hP, .inl rfl⟩
        | ok o =>
          dsimp only
          obtain ⟨h1, h2⟩ := all_either (W := W) (o := o) (ok := ok) (dialect := dialect) (strategy := j.strategy) (k := j.key)
            (d := j.input.dest) (cols := o.colsOut) (P := P) (rows := j.rows) (s := s) hP
          rcases h2 with h2 | ⟨q, h2, h3⟩
          · rw [h2] at h1 ⊢
            cases h3 : writeAll W (flushTo dialect j.strategy j.key j.input.dest o.colsOut) o j.rows hist s with
            | error q =>
              rw [h3] at h1
              exact ⟨h1, .inl rfl⟩
            | ok st =>
              rw [h3] at h1
              obtain ⟨g1, g2⟩ := copyAll_either (W := W) (read := read) (ns := ns) (hist := st.dest) (s := st.world) h1
              refine ⟨g1, g2.imp (fun g => ?_) id⟩
              dsimp only
              rw [g]
          · rw [h2] at h1 ⊢
            refine ⟨h1, .inr ⟨rfl, ?_⟩⟩
            cases h4 : writeAll W (flushTo dialect j.strategy j.key j.input.dest o.colsOut) o j.rows hist s with
            | error q' =>
              rw [h4] at h3
              exact h3
            | ok st =>
              rw [h4] at h3
              exact h3.trans copyAll_suffix

theorem truncateChecked_cases (l : List DbState) :
    (∀ X ∈ (truncateChecked ok l).1, ok X = true) ∧ (truncateChecked ok l).1 <+: l ∧
    ((truncateChecked ok l).2 = true → (truncateChecked ok l).1 = l) := by
  induction l with
  | nil => exact ⟨fun _ h => (nomatch h), List.prefix_rfl, fun _ => rfl⟩
  | cons X l ih =>
    unfold truncateChecked
    by_cases h : ok X = true
    · rw [if_pos h]
      obtain ⟨i1, i2, i3⟩ := ih
      refine ⟨fun Y hY => ?_, (List.prefix_cons_inj X).2 i2, fun h' => ?_⟩
      · rcases List.mem_cons.1 hY with rfl | hY
        · exact h
        · exact i1 Y hY
      · dsimp only at h' ⊢
        rw [i3 h']
    · rw [if_neg h]
      exact ⟨fun _ h => (nomatch h), List.nil_prefix, fun h => nomatch h⟩

theorem sample_either {C : RunConfig} {D : Setting σ} {p : Plan} {S : DbState} {s : σ} :
    (∀ X ∈ (sampleChecked ok C D p S s).hist, X = S ∨ ok X = true) ∧
    (sampleChecked ok C D p S s = sample C D p S s ∨
      (sampleChecked ok C D p S s).err = some (.dest (.output .integrity)) ∧
      (sampleChecked ok C D p S s).hist <:+ (sample C D p S s).hist) := by
  have h0 : ∀ X ∈ [S], X = S ∨ ok X = true := fun X hX => .inl (List.mem_singleton.1 hX)
  unfold sampleChecked sample
  cases startRun C D p with
  | error e => exact ⟨h0, .inl rfl⟩
  | ok r =>
    dsimp only
    cases createStep C D r with
    | error e => exact ⟨h0, .inl rfl⟩
    | ok y =>
      obtain ⟨db, x⟩ := y
      dsimp only
      cases insertOrder x with
      | error e => exact ⟨h0, .inl rfl⟩
      | ok order =>
        dsimp only
        cases truncateStep C x S with
        | error e => exact ⟨h0, .inl rfl⟩
        | ok states =>
          dsimp only
          obtain ⟨t1, t2, t3⟩ := truncateChecked_cases (ok := ok) states
          have h1 : ∀ X ∈ (truncateChecked ok states).1.reverse ++ [S], X = S ∨ ok X = true := by
            intro X hX
            rcases List.mem_append.1 hX with hX | hX
            · exact .inr (t1 X (List.mem_reverse.1 hX))
            · exact h0 X hX
          by_cases hf : (truncateChecked ok states).2 = true
          · rw [if_pos hf]
            rw [t3 hf] at h1 ⊢
            cases prepareStep C r.tables x ((states.reverse ++ [S]).head?.getD S) p with
            | error e => exact ⟨h1, .inl rfl⟩
            | ok offs =>
              dsimp only
              cases getCompactColumns r.tables p.passthrough C.compact with
              | error e => exact ⟨h1, .inl rfl⟩
              | ok compact =>
                dsimp only
                cases materializationOrder r.tables compact p with
                | error e => exact ⟨h1, .inl rfl⟩
                | ok mat =>
                  dsimp only
                  cases materialize D.engine r.tables D.src D.reopen p mat [] with
                  | error e => exact ⟨h1, .inl rfl⟩
                  | ok temps =>
                    dsimp only
                    obtain ⟨g1, g2⟩ := copyAll_either (W := D.world) (dialect := D.dialect)
                      (read := readTable C D r x offs compact p temps) (ns := order) (s := s) h1
                    refine ⟨g1, g2.imp (fun g => ?_) id⟩
                    rw [g]
          · rw [if_neg hf]
            refine ⟨h1, .inr ⟨rfl, ?_⟩⟩
            have hs : (truncateChecked ok states).1.reverse ++ [S] <:+ states.reverse ++ [S] := by
              obtain ⟨u, hu⟩ := t2
              refine ⟨u.reverse, ?_⟩
              rw [← List.append_assoc, ← List.reverse_append, hu]
            split
            · exact hs
            · split
              · exact hs
              · split
                · exact hs
                · split
                  · exact hs
                  · exact hs.trans copyAll_suffix

end Subsetter
