import Verif.Proofs.RunFacts

/- Runs that differ only in what the destination held. -/
namespace Subsetter
open Spec

variable {σ : Type}

/-- Two histories whose latest states agree on the tables `P`; other tables are as in `S` and `S'`. -/
def Agree (P : Key → Prop) (S S' : DbState) (h h' : List DbState) : Prop :=
  ∃ X rest X' rest', h = X :: rest ∧ h' = X' :: rest' ∧ (∀ k, P k → X k = X' k) ∧ ∀ k, ¬ P k → X k = S k ∧ X' k = S' k

/-- Two outcomes of writing that differ only in the destination. -/
inductive SameWrite {D D' : Type} (R : D → D' → Prop) :
    Except (WState σ D × OutErr) (WState σ D) → Except (WState σ D' × OutErr) (WState σ D') → Prop
  | ok {b d d' a w ws} : R d d' → SameWrite R (.ok ⟨b, d, a, w, ws⟩) (.ok ⟨b, d', a, w, ws⟩)
  | error {b d d' a w ws e} : R d d' → SameWrite R (.error (⟨b, d, a, w, ws⟩, e)) (.error (⟨b, d', a, w, ws⟩, e))

section
variable {D D' : Type} {R : D → D' → Prop} {W : Outside σ Val} {flush : List (List Val) → D → Except OutErr D}
  {flush' : List (List Val) → D' → Except OutErr D'} {o : OutPlan}
  (hf : ∀ b d d', R d d' → (∃ e, flush b d = .error e ∧ flush' b d' = .error e) ∨
    ∃ x x', flush b d = .ok x ∧ flush' b d' = .ok x' ∧ R x x')
include hf

theorem writeStep_fresh {b : List (List Val)} {d : D} {d' : D'} {a : Val} {w : σ} {ws : List (List (List Val))} (x : List Val × Nat) (h : R d d') :
    SameWrite R (writeStep W flush o ⟨b, d, a, w, ws⟩ x) (writeStep W flush' o ⟨b, d', a, w, ws⟩ x) := by
  unfold writeStep
  dsimp only
  cases outRow W o x w with
  | error e => exact .error h
  | ok y =>
    obtain ⟨row, s'⟩ := y
    dsimp only
    cases autoMax o a row with
    | error e => exact .error h
    | ok a' =>
      dsimp only
      by_cases hb : o.buffer < (b ++ [row]).length
      · rw [if_pos hb, if_pos hb]
        rcases hf (b ++ [row]) d d' h with ⟨e, h1, h2⟩ | ⟨y, y', h1, h2, h3⟩
        · rw [h1, h2]; exact .error h
        · rw [h1, h2]; exact .ok h3
      · rw [if_neg hb, if_neg hb]; exact .ok h

theorem writeLoop_fresh : ∀ (xs : List (List Val × Nat)) {b : List (List Val)} {d : D} {d' : D'} {a : Val} {w : σ} {ws : List (List (List Val))}, R d d' →
    SameWrite R (writeLoop W flush o xs ⟨b, d, a, w, ws⟩) (writeLoop W flush' o xs ⟨b, d', a, w, ws⟩)
  | [], _, _, _, _, _, _, h => .ok h
  | x :: xs, b, d, d', a, w, ws, h => by
    unfold writeLoop
    have := writeStep_fresh (W := W) (o := o) hf (b := b) (a := a) (w := w) (ws := ws) x h
    generalize writeStep W flush o ⟨b, d, a, w, ws⟩ x = y at this
    generalize writeStep W flush' o ⟨b, d', a, w, ws⟩ x = y' at this
    cases this with
    | ok h' => exact writeLoop_fresh xs h'
    | error h' => exact .error h'

theorem writeAll_fresh (rows : List (List Val)) {d : D} {d' : D'} (s : σ) (h : R d d') :
    SameWrite R (writeAll W flush o rows d s) (writeAll W flush' o rows d' s) := by
  unfold writeAll
  have := writeLoop_fresh (W := W) (o := o) hf (copies o.multiplier rows) (b := []) (a := .null) (w := s) (ws := []) h
  generalize writeLoop W flush o _ _ = y at this
  generalize writeLoop W flush' o _ _ = y' at this
  cases this with
  | error h' => exact .error h'
  | @ok b d d' a w ws h' =>
    dsimp only
    by_cases hb : b = []
    · rw [if_pos hb, if_pos hb]; exact .ok h'
    · rw [if_neg hb, if_neg hb]
      rcases hf b d d' h' with ⟨e, h1, h2⟩ | ⟨y, y', h1, h2, h3⟩
      · rw [h1, h2]; exact .error h'
      · rw [h1, h2]; exact .ok h3
end

theorem flushTo_fresh {P : Key → Prop} {S S' : DbState} {dialect : Dialect} {strategy : Strategy} {k : Key} {d : DestTable} {cols : List Str}
    (hk : P k) (b : List (List Val)) (h h' : List DbState) (hh : Agree P S S' h h') :
    (∃ e, flushTo dialect strategy k d cols b h = .error e ∧ flushTo dialect strategy k d cols b h' = .error e) ∨
    ∃ x x', flushTo dialect strategy k d cols b h = .ok x ∧ flushTo dialect strategy k d cols b h' = .ok x' ∧ Agree P S S' x x' := by
  obtain ⟨X, rest, X', rest', rfl, rfl, h1, h2⟩ := hh
  unfold flushTo
  dsimp only
  rw [← h1 k hk]
  cases flushBuffer dialect strategy d cols b (X k) with
  | error e => exact .inl ⟨e, rfl, rfl⟩
  | ok rows =>
    refine .inr ⟨_, _, rfl, rfl, _, _, _, _, rfl, rfl, fun k' hk' => ?_, fun k' hk' => ?_⟩
    · unfold DbState.set
      by_cases e : k' = k
      · rw [if_pos e, if_pos e]
      · rw [if_neg e, if_neg e]; exact h1 k' hk'
    · have e : k' ≠ k := by rintro rfl; exact hk' hk
      unfold DbState.set
      rw [if_neg e, if_neg e]
      exact h2 k' hk'

theorem copyAll_fresh {P : Key → Prop} {S S' : DbState} {W : Outside σ Val} {dialect : Dialect} {read : Str → Except RunErr (Option TableJob)} :
    ∀ (ns : List Str) {h h' : List DbState} (s : σ), (∀ n ∈ ns, ∀ j, read n = .ok (some j) → P j.key) → Agree P S S' h h' →
      Agree P S S' (copyAll W dialect read ns h s).1 (copyAll W dialect read ns h' s).1 ∧
      (copyAll W dialect read ns h s).2 = (copyAll W dialect read ns h' s).2
  | [], _, _, _, _, hh => ⟨hh, rfl⟩
  | n :: ns, h, h', s, hr, hh => by
    have hr' : ∀ n ∈ ns, ∀ j, read n = .ok (some j) → P j.key := fun m hm => hr m (List.mem_cons_of_mem _ hm)
    unfold copyAll
    cases hn : read n with
    | error e => exact ⟨hh, rfl⟩
    | ok o =>
      cases o with
      | none => exact copyAll_fresh ns s hr' hh
      | some j =>
        dsimp only
        cases outPlan j.input with
        | error e => exact ⟨hh, rfl⟩
        | ok o =>
          dsimp only
          have := writeAll_fresh (W := W) (o := o) (fun b d d' => flushTo_fresh (dialect := dialect) (strategy := j.strategy) (d := j.input.dest) (cols := o.colsOut)
            (hr n List.mem_cons_self j hn) b d d') j.rows s hh
          generalize writeAll W _ o j.rows h s = y at this
          generalize writeAll W _ o j.rows h' s = y' at this
          cases this with
          | error h1 => exact ⟨h1, rfl⟩
          | ok h1 =>
            dsimp only
            obtain ⟨g1, g2⟩ := copyAll_fresh ns _ hr' h1
            exact ⟨g1, congrArg (fun y => ((j.key, _) :: y.1, y.2)) g2⟩

theorem readTable_key {C : RunConfig} {D : Setting σ} {r : Started} {x : DestMeta} {offs : Dict Key (Dict Str Int)} {compact : Dict Key (List Str)}
    {p : Plan} {temps : Temps} {n : Str} {j : TableJob} (h : readTable C D r x offs compact p temps n = .ok (some j)) :
    ∃ t, (j.key, t) ∈ x.tables := by
  unfold readTable at h
  cases h1 : parseTableName n with
  | none => rw [h1] at h; cases h
  | some k =>
    rw [h1] at h
    dsimp only at h
    cases h2 : dget p.queries n with
    | none => rw [h2] at h; cases h
    | some q =>
      rw [h2] at h
      dsimp only at h
      cases h3 : copyRows D.engine r.tables D.le C.compact.startKey compact D.src D.reopen temps k q with
      | error e => rw [h3] at h; cases h
      | ok rows =>
        rw [h3] at h
        dsimp only at h
        cases h4 : dget r.tables k with
        | none => rw [h4] at h; cases h
        | some t =>
          rw [h4] at h
          dsimp only at h
          cases h5 : tableJob C D r.mult x offs p.passthrough n k t rows with
          | error e => rw [h5] at h; cases h
          | ok j' =>
            rw [h5] at h
            cases h
            unfold tableJob at h5
            cases h6 : constructFilter D.world t.columns ((dget C.filters n).getD []) with
            | error e => rw [h6] at h5; cases h5
            | ok ch =>
              rw [h6] at h5
              dsimp only at h5
              cases h7 : remapTable C.remap k with
              | none => rw [h7] at h5; cases h5
              | some kd =>
                rw [h7] at h5
                dsimp only at h5
                cases h8 : dget x.tables kd with
                | none => rw [h8] at h5; cases h5
                | some td =>
                  rw [h8] at h5
                  cases h5
                  exact ⟨td, dget_some_mem h8⟩

theorem prepareMax_fresh {remap : Str → Str} {T : Tables} {X X' : DbState} (h : ∀ k, (∃ t, (k, t) ∈ T) → X k = X' k) (pass : List Str) :
    ∀ (ns : List Str) (pm : Dict Str (Option Int)) (off : Dict Key (Dict Str Int)),
      prepareMax remap T X pass ns pm off = prepareMax remap T X' pass ns pm off
  | [], _, _ => rfl
  | n :: ns, pm, off => by
    unfold prepareMax
    by_cases hn : n ∈ pass
    · rw [if_pos hn, if_pos hn]; exact prepareMax_fresh h pass ns pm off
    · rw [if_neg hn, if_neg hn]
      cases parseTableName n with
      | none => rfl
      | some k0 =>
        dsimp only
        cases remapTable remap k0 with
        | none => rfl
        | some k =>
          dsimp only
          cases hk : dget T k with
          | none => rfl
          | some t =>
            dsimp only
            rw [h k ⟨t, dget_some_mem hk⟩]
            simp only [prepareMax_fresh h pass ns]

theorem prepareStep_fresh {C : RunConfig} {T : Tables} {x : DestMeta} {X X' : DbState} {p : Plan} (h : ∀ k, (∃ t, (k, t) ∈ x.tables) → X k = X' k) :
    prepareStep C T x X p = prepareStep C T x X' p := by
  unfold prepareStep prepare
  rw [prepareMax_fresh h]

/-- The histories after truncation. -/
theorem truncateStep_fresh {C : RunConfig} {db : Dict Str TableMeta} {remap : Str → Str} {planned : List Str} {x : DestMeta}
    (hp : PreparedFacts remap planned db x) (ht : C.truncate = true) (S S' : DbState) :
    (∃ e, truncateStep C x S = .error e ∧ truncateStep C x S' = .error e) ∨
    ∃ st st', truncateStep C x S = .ok st ∧ truncateStep C x S' = .ok st' ∧
      Agree (fun k => ∃ t, (k, t) ∈ x.tables) S S' (st.reverse ++ [S]) (st'.reverse ++ [S']) := by
  unfold truncateStep
  rw [if_pos ht, if_pos ht]
  have hB : ∀ (st : List DbState) (X : DbState), ∃ rest, st.reverse ++ [X] = st.getLast?.getD X :: rest := by
    intro st X
    rcases List.eq_nil_or_concat st with rfl | ⟨l, b, rfl⟩
    · exact ⟨[], rfl⟩
    · exact ⟨l.reverse ++ [X], by simp⟩
  cases h : truncate x S with
  | error e =>
    refine .inl ⟨e, rfl, ?_⟩
    unfold truncate at h ⊢
    cases h1 : metaToposort x.tables with
    | error e' => rw [h1] at h; cases h; rfl
    | ok ts => rw [h1] at h; cases h
  | ok st =>
    obtain ⟨st', h'⟩ : ∃ st', truncate x S' = .ok st' := by
      unfold truncate at h ⊢
      cases h1 : metaToposort x.tables with
      | error e' => rw [h1] at h; cases h
      | ok ts => exact ⟨_, rfl⟩
    obtain ⟨r1, g1⟩ := hB st S
    obtain ⟨r2, g2⟩ := hB st' S'
    obtain ⟨-, -, a1, a2⟩ := hp.truncate h
    obtain ⟨-, -, b1, b2⟩ := hp.truncate h'
    exact .inr ⟨st, st', rfl, h', _, _, _, _, g1, g2, fun k hk => by rw [a1 k hk, b1 k hk], fun k hk => ⟨a2 k hk, b2 k hk⟩⟩

/-- A run that truncates fails before it changes anything, or does the same whatever the tables it loads held. -/
theorem sample_fresh {C : RunConfig} {D : Setting σ} {p : Plan} (hok : RunOK C D p) (ht : C.truncate = true) (S S' : DbState) (s : σ) :
    (sample C D p S s).schema = (sample C D p S' s).schema ∧ (sample C D p S s).writes = (sample C D p S' s).writes ∧
    (sample C D p S s).err = (sample C D p S' s).err ∧
    (((sample C D p S s).hist = [S] ∧ (sample C D p S' s).hist = [S'] ∧ (sample C D p S s).err ≠ none ∧ (sample C D p S s).writes = []) ∨
      Agree (Reached C D p) S S' (sample C D p S s).hist (sample C D p S' s).hist) := by
  unfold sample
  cases h1 : startRun C D p with
  | error e => exact ⟨rfl, rfl, rfl, .inl ⟨rfl, rfl, nofun, rfl⟩⟩
  | ok r =>
    dsimp only
    cases h2 : createStep C D r with
    | error e => exact ⟨rfl, rfl, rfl, .inl ⟨rfl, rfl, nofun, rfl⟩⟩
    | ok y =>
      obtain ⟨db, x⟩ := y
      have hre := reached_iff hok (prepared_of_step h1 h2)
      have hre' : (fun k => ∃ t, (k, t) ∈ x.tables) = Reached C D p := funext fun k => propext (hre k)
      dsimp only
      cases insertOrder x with
      | error e => exact ⟨rfl, rfl, rfl, .inl ⟨rfl, rfl, nofun, rfl⟩⟩
      | ok order =>
        dsimp only
        rcases truncateStep_fresh (prepared_run hok h1 h2) ht S S' with ⟨e, g1, g2⟩ | ⟨st, st', g1, g2, g3⟩
        · rw [g1, g2]; exact ⟨rfl, rfl, rfl, .inl ⟨rfl, rfl, nofun, rfl⟩⟩
        · rw [g1, g2]
          dsimp only
          rw [hre'] at g3
          have hpre : prepareStep C r.tables x ((st.reverse ++ [S]).head?.getD S) p = prepareStep C r.tables x ((st'.reverse ++ [S']).head?.getD S') p := by
            obtain ⟨X, rest, X', rest', e1, e2, e3, -⟩ := g3
            rw [e1, e2]
            exact prepareStep_fresh fun k hk => e3 k ((hre k).1 hk)
          rw [hpre]
          cases prepareStep C r.tables x ((st'.reverse ++ [S']).head?.getD S') p with
          | error e => exact ⟨rfl, rfl, rfl, .inr g3⟩
          | ok offs =>
            dsimp only
            cases getCompactColumns r.tables p.passthrough C.compact with
            | error e => exact ⟨rfl, rfl, rfl, .inr g3⟩
            | ok compact =>
              dsimp only
              cases materializationOrder r.tables compact p with
              | error e => exact ⟨rfl, rfl, rfl, .inr g3⟩
              | ok mat =>
                dsimp only
                cases materialize D.engine r.tables D.src D.reopen p mat [] with
                | error e => exact ⟨rfl, rfl, rfl, .inr g3⟩
                | ok temps =>
                  dsimp only
                  obtain ⟨a1, a2⟩ := copyAll_fresh (W := D.world) (dialect := D.dialect) (read := readTable C D r x offs compact p temps) order s
                    (fun n _ j hj => (hre j.key).1 (readTable_key hj)) g3
                  exact ⟨rfl, congrArg Prod.fst a2, congrArg Prod.snd a2, .inr a1⟩

end Subsetter
