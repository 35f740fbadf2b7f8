import Verif.Model.Conflicts
import Verif.Proofs.Enforce

/- Inserting into tables with unique constraints. -/
namespace Subsetter

variable {σ : Type} {ok : DbState → Bool} {dialect : Dialect} {strategy : Strategy} {k : Key} {d : DestTable}
  {cols : List Str} {uniques : List (List Str)} {upd : List Str} {new : Row} {T T' : List Row}

theorem any_samePk : (T.any (samePk d new)) = true ↔ d.pk ≠ [] ∧ (T.any fun r => decide (pkOf d r = pkOf d new)) = true := by
  simp only [List.any_eq_true, samePk, decide_eq_true_eq]
  exact ⟨fun ⟨r, h1, h2, h3⟩ => ⟨h2, r, h1, h3⟩, fun ⟨h2, r, h1, h3⟩ => ⟨r, h1, h2, h3⟩⟩

theorem clash_iff {u : List Str} {r : Row} : clash u new r = true ↔ (∀ c ∈ u, new.get c ≠ .null) ∧ ∀ c ∈ u, r.get c = new.get c := by
  simp [clash, filledIn, List.map_inj_left]

/-- The last of the rows clashes with none before it. -/
theorem checkUnique_append {u : List Str} (h : checkUnique u (T ++ [new]) = true) : T.any (clash u new) = false := by
  induction T with
  | nil => rfl
  | cons r T ih =>
    rw [List.cons_append] at h
    unfold checkUnique at h
    rw [Bool.and_eq_true] at h
    rw [List.any_cons, ih h.2, Bool.or_false]
    cases e : clash u new r with
    | false => rfl
    | true =>
      obtain ⟨h1, h2⟩ := clash_iff.1 e
      have hf : filledIn u r = true := by
        unfold filledIn
        rw [List.all_eq_true]
        intro c hc
        rw [decide_eq_true_eq, h2 c hc]
        exact h1 c hc
      have h3 := h.1
      rw [hf] at h3
      simp only [Bool.not_true, Bool.false_or, List.all_eq_true, decide_eq_true_eq] at h3
      exact absurd (List.map_congr_left h2) (h3 new (by simp))

theorem find_none (h : ∀ u ∈ uniques, checkUnique u (T ++ [new]) = true) :
    (uniques.find? fun u => T.any (clash u new)) = none := by
  rw [List.find?_eq_none]
  intro u hu
  rw [checkUnique_append (h u hu)]
  exact Bool.false_ne_true

/-- As long as the result respects the constraints, they make no difference. -/
theorem insertUnique_eq (h : insertOne strategy d upd new T = .ok T') (hu : ∀ u ∈ uniques, checkUnique u T' = true) :
    insertUnique dialect strategy d uniques upd new T = .ok T' := by
  unfold insertOne at h
  unfold insertUnique
  dsimp only
  by_cases hpk : d.pk ≠ [] ∧ (T.any fun r => decide (pkOf d r = pkOf d new)) = true
  · rw [if_pos hpk] at h
    rw [any_samePk.2 hpk]
    cases strategy with
    | error => cases h
    | skip => cases h; rfl
    | replace =>
      cases h
      dsimp only
      rw [if_pos rfl]
      unfold accepted
      have : (T.map fun r => if samePk d new r = true then updateRow upd new r else r) =
          T.map fun r => if pkOf d r = pkOf d new then updateRow upd new r else r := by
        refine List.map_congr_left fun r _ => ?_
        simp [samePk, hpk.1]
      rw [this, if_pos (List.all_eq_true.2 hu)]
  · rw [if_neg hpk] at h
    cases h
    have : (T.any (samePk d new)) = false := by
      rw [Bool.eq_false_iff]
      exact fun h => hpk (any_samePk.1 h)
    rw [this, find_none hu]
    cases strategy <;> rfl

theorem insertUnique_error {e : OutErr} (h : insertOne strategy d upd new T = .error e) :
    insertUnique dialect strategy d uniques upd new T = .error e := by
  unfold insertOne at h
  by_cases hpk : d.pk ≠ [] ∧ (T.any fun r => decide (pkOf d r = pkOf d new)) = true
  · rw [if_pos hpk] at h
    unfold insertUnique
    dsimp only
    rw [any_samePk.2 hpk]
    cases strategy with
    | error => cases h; rfl
    | skip => cases h
    | replace => cases h
  · rw [if_neg hpk] at h
    cases h

theorem flushUnique_cons (b : List Val) (bs : List (List Val)) (T : List Row) :
    flushUnique dialect strategy d uniques cols (b :: bs) T =
      match flushUnique dialect strategy d uniques cols [b] T with
      | .error e => .error e
      | .ok T' => flushUnique dialect strategy d uniques cols bs T' := by
  unfold flushUnique
  cases conflictInit strategy d.pk cols with
  | error e => rfl
  | ok x =>
    obtain ⟨st, nonPk⟩ := x
    dsimp only
    by_cases h1 : dialect = .generic ∧ st ≠ .error
    · rw [if_pos h1, if_pos h1]
    · rw [if_neg h1, if_neg h1]
      by_cases h2 : st = .replace ∧ ((updateColumns dialect d nonPk).any fun c => decide (c ∈ d.computed)) = true
      · rw [if_pos h2, if_pos h2]
      · rw [if_neg h2, if_neg h2]
        simp only [h1, h2, if_false, List.map_cons, List.map_nil, insertUniques]
        cases insertUnique dialect st d uniques (updateColumns dialect d nonPk) (fullRow d (cols.zip b)) T <;> rfl

theorem flushUnique_one (b : List Val) : (∀ T', flushBuffer dialect strategy d cols [b] T = .ok T' →
      (∀ u ∈ uniques, checkUnique u T' = true) → flushUnique dialect strategy d uniques cols [b] T = .ok T') ∧
    ∀ e, flushBuffer dialect strategy d cols [b] T = .error e → flushUnique dialect strategy d uniques cols [b] T = .error e := by
  unfold flushBuffer flushUnique
  cases conflictInit strategy d.pk cols with
  | error e => exact ⟨fun _ h => (nomatch h), fun _ h => h⟩
  | ok x =>
    obtain ⟨st, nonPk⟩ := x
    dsimp only
    by_cases h1 : dialect = .generic ∧ st ≠ .error
    · rw [if_pos h1, if_pos h1]; exact ⟨fun _ h => (nomatch h), fun _ h => h⟩
    · rw [if_neg h1, if_neg h1]
      by_cases h2 : st = .replace ∧ ((updateColumns dialect d nonPk).any fun c => decide (c ∈ d.computed)) = true
      · rw [if_pos h2, if_pos h2]; exact ⟨fun _ h => (nomatch h), fun _ h => h⟩
      · rw [if_neg h2, if_neg h2]
        simp only [List.map_cons, List.map_nil, insertUniques, insertMany]
        cases h3 : insertOne st d (updateColumns dialect d nonPk) (fullRow d (cols.zip b)) T with
        | error e =>
          rw [insertUnique_error h3]
          exact ⟨fun _ h => (nomatch h), fun _ h => h⟩
        | ok T1 =>
          refine ⟨fun T' h hu => ?_, fun _ h => (nomatch h)⟩
          cases h
          rw [insertUnique_eq h3 hu]

theorem flushUnique_nil {e : OutErr} : (flushBuffer dialect strategy d cols [] T = .ok T → flushUnique dialect strategy d uniques cols [] T = .ok T) ∧
    (flushBuffer dialect strategy d cols [] T = .error e → flushUnique dialect strategy d uniques cols [] T = .error e) := by
  unfold flushBuffer flushUnique
  cases conflictInit strategy d.pk cols with
  | error e => exact ⟨fun h => (nomatch h), fun h => h⟩
  | ok x =>
    obtain ⟨st, nonPk⟩ := x
    dsimp only
    by_cases h1 : dialect = .generic ∧ st ≠ .error
    · rw [if_pos h1, if_pos h1]; exact ⟨fun h => (nomatch h), fun h => h⟩
    · rw [if_neg h1, if_neg h1]
      by_cases h2 : st = .replace ∧ ((updateColumns dialect d nonPk).any fun c => decide (c ∈ d.computed)) = true
      · rw [if_pos h2, if_pos h2]; exact ⟨fun h => (nomatch h), fun h => h⟩
      · rw [if_neg h2, if_neg h2]; exact ⟨fun _ => rfl, fun h => (nomatch h)⟩

/-- Rows that pass the checks one by one are inserted all the same; other errors are the same. -/
theorem insertRows_unique (hok : ∀ X, ok X = true → ∀ u ∈ uniques, checkUnique u (X k) = true) :
    ∀ {buf : List (List Val)} {S : DbState}, buf ≠ [] →
    (∀ S', insertRows ok dialect strategy k d cols buf S = .ok S' →
      flushUnique dialect strategy d uniques cols buf (S k) = .ok (S' k) ∧ S' = S.set k (S' k)) ∧
    ∀ e, insertRows ok dialect strategy k d cols buf S = .error e → e ≠ .integrity →
      flushUnique dialect strategy d uniques cols buf (S k) = .error e
  | [], _, h => absurd rfl h
  | b :: bs, S, _ => by
    unfold insertRows
    obtain ⟨h1, h2⟩ := flushUnique_one (dialect := dialect) (strategy := strategy) (d := d) (uniques := uniques) (cols := cols)
      (T := S k) b
    cases e1 : flushBuffer dialect strategy d cols [b] (S k) with
    | error e =>
      dsimp only
      refine ⟨fun _ h => (nomatch h), fun e' h _ => ?_⟩
      cases h
      rw [flushUnique_cons, h2 e e1]
    | ok rows =>
      dsimp only
      by_cases hc : ok (S.set k rows) = true
      · rw [if_pos hc]
        have hu : ∀ u ∈ uniques, checkUnique u rows = true := fun u hu => by
          have := hok _ hc u hu
          rwa [get_set] at this
        have h3 := h1 rows e1 hu
        rw [flushUnique_cons, h3]
        dsimp only
        cases bs with
        | nil =>
          refine ⟨fun S' h => ?_, fun _ h => (nomatch h)⟩
          cases h
          rw [get_set]
          refine ⟨?_, rfl⟩
          unfold flushUnique at h3 ⊢
          cases h4 : conflictInit strategy d.pk cols with
          | error e => rw [h4] at h3; cases h3
          | ok x =>
            rw [h4] at h3
            dsimp only at h3 ⊢
            split at h3
            · cases h3
            · split at h3
              · cases h3
              · rename_i g1 g2
                rw [if_neg g1, if_neg g2]
                rfl
        | cons c bs =>
          obtain ⟨g1, g2⟩ := insertRows_unique hok (buf := c :: bs) (S := S.set k rows) (List.cons_ne_nil _ _)
          rw [get_set] at g1 g2
          refine ⟨fun S' h => ⟨(g1 S' h).1, ?_⟩, g2⟩
          have := (g1 S' h).2
          rwa [set_set] at this
      · rw [if_neg hc]
        refine ⟨fun _ h => (nomatch h), fun e h he => ?_⟩
        cases h
        exact absurd rfl he

theorem flushUniqueTo_or {db : Dict Str TableMeta} (hok : ∀ X, ok X = true → ∀ u ∈ uniquesOf db k, checkUnique u (X k) = true)
    (buf : List (List Val)) (hb : buf ≠ []) (hist : List DbState) :
    flushUniqueTo db dialect strategy k d cols buf hist = flushChecked ok dialect strategy k d cols buf hist ∨
      flushChecked ok dialect strategy k d cols buf hist = .error .integrity := by
  cases hist with
  | nil => exact .inl rfl
  | cons S hist =>
    obtain ⟨h1, h2⟩ := insertRows_unique (dialect := dialect) (strategy := strategy) (d := d) (cols := cols) hok (S := S) hb
    unfold flushUniqueTo flushChecked
    dsimp only
    cases e : insertRows ok dialect strategy k d cols buf S with
    | ok S' =>
      obtain ⟨g1, g2⟩ := h1 S' e
      left
      rw [g1]
      dsimp only
      rw [← g2]
    | error x =>
      by_cases hx : x = .integrity
      · right; rw [hx]
      · left; rw [h2 x e hx]

section
variable {W : Outside σ Val} {o : OutPlan} {Δ : Type} {f g : List (List Val) → Δ → Except OutErr Δ}

theorem writeLoop_or (h : ∀ buf x, buf ≠ [] → f buf x = g buf x ∨ g buf x = .error .integrity) :
    ∀ (xs : List (List Val × Nat)) (st : WState σ Δ), writeLoop W f o xs st = writeLoop W g o xs st ∨
      ∃ st', writeLoop W g o xs st = .error (st', .integrity)
  | [], st => .inl rfl
  | x :: xs, st => by
    unfold writeLoop writeStep
    cases outRow W o x st.world with
    | error e => exact .inl rfl
    | ok y =>
      obtain ⟨row, s'⟩ := y
      dsimp only
      cases autoMax o st.auto row with
      | error e => exact .inl rfl
      | ok a =>
        dsimp only
        by_cases hb : o.buffer < (st.buffer ++ [row]).length
        · rw [if_pos hb, if_pos hb]
          rcases h (st.buffer ++ [row]) st.dest (by simp) with h1 | h1
          · rw [h1]
            cases g (st.buffer ++ [row]) st.dest with
            | error e => exact .inl rfl
            | ok d => exact writeLoop_or h xs _
          · rw [h1]
            exact .inr ⟨_, rfl⟩
        · rw [if_neg hb, if_neg hb]
          exact writeLoop_or h xs _

theorem writeAll_or (h : ∀ buf x, buf ≠ [] → f buf x = g buf x ∨ g buf x = .error .integrity) (rows : List (List Val)) (x : Δ) (s : σ) :
    writeAll W f o rows x s = writeAll W g o rows x s ∨ ∃ st', writeAll W g o rows x s = .error (st', .integrity) := by
  unfold writeAll
  rcases writeLoop_or (W := W) (o := o) h (copies o.multiplier rows) ⟨[], x, .null, s, []⟩ with h1 | ⟨st', h1⟩
  · rw [h1]
    cases writeLoop W g o (copies o.multiplier rows) ⟨[], x, .null, s, []⟩ with
    | error e => exact .inl rfl
    | ok st =>
      dsimp only
      by_cases hb : st.buffer = []
      · rw [if_pos hb, if_pos hb]; exact .inl rfl
      · rw [if_neg hb, if_neg hb]
        rcases h st.buffer st.dest hb with h2 | h2
        · rw [h2]; exact .inl rfl
        · rw [h2]; exact .inr ⟨_, rfl⟩
  · rw [h1]; exact .inr ⟨_, rfl⟩

end

theorem copyAllUnique_or {W : Outside σ Val} {read : Str → Except RunErr (Option TableJob)} {db : Dict Str TableMeta}
    (hok : ∀ X, ok X = true → ∀ k, ∀ u ∈ uniquesOf db k, checkUnique u (X k) = true) :
    ∀ (ns : List Str) (hist : List DbState) (s : σ),
    copyAllUnique db W dialect read ns hist s = copyAllChecked ok W dialect read ns hist s ∨
      (copyAllChecked ok W dialect read ns hist s).2.2 = some (.dest (.output .integrity))
  | [], hist, s => .inl rfl
  | n :: ns, hist, s => by
    unfold copyAllUnique copyAllChecked
    cases read n with
    | error e => exact .inl rfl
    | ok j =>
      cases j with
      | none => exact copyAllUnique_or hok ns hist s
      | some j =>
        dsimp only
        cases outPlan j.input with
        | error e => exact .inl rfl
        | ok o =>
          dsimp only
          rcases writeAll_or (W := W) (o := o) (f := flushUniqueTo db dialect j.strategy j.key j.input.dest o.colsOut)
            (g := flushChecked ok dialect j.strategy j.key j.input.dest o.colsOut)
            (fun buf x hb => flushUniqueTo_or (fun X hX => hok X hX j.key) buf hb x) j.rows hist s with h1 | ⟨st', h1⟩
          · rw [h1]
            cases writeAll W (flushChecked ok dialect j.strategy j.key j.input.dest o.colsOut) o j.rows hist s with
            | error e => exact .inl rfl
            | ok st =>
              dsimp only
              rcases copyAllUnique_or hok ns st.dest st.world with h2 | h2
              · rw [h2]; exact .inl rfl
              · exact .inr h2
          · rw [h1]; exact .inr rfl

theorem truncateChecked_fine {l : List DbState} (h : (truncateChecked ok l).2 = true) : (truncateChecked ok l).1 = l := by
  induction l with
  | nil => rfl
  | cons X l ih =>
    unfold truncateChecked at h ⊢
    by_cases hx : ok X = true
    · rw [if_pos hx] at h ⊢
      dsimp only at h ⊢
      rw [ih h]
    · rw [if_neg hx] at h; cases h

/-- A run that passes all checks does the same in a database with these unique constraints. -/
theorem sampleUnique_eq {C : RunConfig} {D : Setting σ} {p : Plan} {S : DbState} {s : σ}
    (hok : ∀ X, ok X = true → ∀ k, ∀ u ∈ uniquesOf (sample C D p S s).schema k, checkUnique u (X k) = true)
    (h : (sampleChecked ok C D p S s).err ≠ some (.dest (.output .integrity))) :
    sampleUnique C D p S s = sampleChecked ok C D p S s := by
  unfold sample at hok
  unfold sampleChecked at h
  unfold sampleUnique sampleChecked
  cases e0 : startRun C D p with
  | error e => rfl
  | ok r =>
    rw [e0] at h hok
    dsimp only at h hok ⊢
    cases e00 : createStep C D r with
    | error e => rfl
    | ok y =>
      obtain ⟨db, x⟩ := y
      rw [e00] at h hok
      dsimp only at h hok ⊢
      cases e01 : insertOrder x with
      | error e => rfl
      | ok order =>
        rw [e01] at h hok
        dsimp only at h hok ⊢
        cases e02 : truncateStep C x S with
        | error e => rfl
        | ok states =>
          rw [e02] at h hok
          dsimp only at h hok ⊢
          by_cases hf : (truncateChecked ok states).2 = true
          · rw [if_pos hf] at h
            rw [if_pos hf]
            rw [truncateChecked_fine hf] at h ⊢
            cases e1 : prepareStep C r.tables x ((states.reverse ++ [S]).head?.getD S) p with
            | error e => rfl
            | ok offs =>
              rw [e1] at h hok
              dsimp only at h hok ⊢
              cases e2 : getCompactColumns r.tables p.passthrough C.compact with
              | error e => rfl
              | ok compact =>
                rw [e2] at h hok
                dsimp only at h hok ⊢
                cases e3 : materializationOrder r.tables compact p with
                | error e => rfl
                | ok mat =>
                  rw [e3] at h hok
                  dsimp only at h hok ⊢
                  cases e4 : materialize D.engine r.tables D.src D.reopen p mat [] with
                  | error e => rfl
                  | ok temps =>
                    rw [e4] at h hok
                    dsimp only at h hok ⊢
                    rcases copyAllUnique_or (W := D.world) (dialect := D.dialect)
                      (read := readTable C D r x offs compact p temps) hok order (states.reverse ++ [S]) s with g | g
                    · rw [g]
                    · exact absurd g h
          · rw [if_neg hf] at h
            exact absurd rfl h

end Subsetter
