import Verif.Proofs.Repeat
import Verif.Proofs.Still
import Verif.Proofs.RunDirectory

/- Filters of a table affect no other table. -/
namespace Subsetter
open Spec Props

variable {σ : Type} {C : RunConfig} {D : Setting σ} {p : Plan}

/-- The latest states of two histories have the same rows in the tables of `P`. -/
def AgreeOn (P : Key → Prop) (h h' : List DbState) : Prop :=
  ∃ X r X' r', h = X :: r ∧ h' = X' :: r' ∧ ∀ k, P k → X k = X' k

/-- Two outcomes of writing that differ only in the outside world and by `R`. -/
inductive Pair {E : Type} (R : E → E → Prop) :
    Except (WState σ E × OutErr) (WState σ E) → Except (WState σ E × OutErr) (WState σ E) → Prop
  | ok {b d d' a w w' ws} : R d d' → Pair R (.ok ⟨b, d, a, w, ws⟩) (.ok ⟨b, d', a, w', ws⟩)
  | error {b d d' a w w' ws e} : R d d' → Pair R (.error (⟨b, d, a, w, ws⟩, e)) (.error (⟨b, d', a, w', ws⟩, e))

section
variable {E : Type} {R : E → E → Prop} {W : Outside σ Val} {flush : List (List Val) → E → Except OutErr E} {o : OutPlan}
  (ho : ∀ y, Still (outRow W o y))
  (hf : ∀ b d d', R d d' → (∃ e, flush b d = .error e ∧ flush b d' = .error e) ∨ ∃ x x', flush b d = .ok x ∧ flush b d' = .ok x' ∧ R x x')
include ho hf

theorem writeStep_pair {b : List (List Val)} {d d' : E} (hd : R d d') {a : Val} (w w' : σ) {ws : List (List (List Val))} (x : List Val × Nat) :
    Pair R (writeStep W flush o ⟨b, d, a, w, ws⟩ x) (writeStep W flush o ⟨b, d', a, w', ws⟩ x) := by
  unfold writeStep
  dsimp only
  rcases ho x with ⟨e, h⟩ | ⟨row, h⟩
  · rw [h, h]; exact .error hd
  · rw [h, h]
    dsimp only
    cases autoMax o a row with
    | error e => exact .error hd
    | ok a' =>
      dsimp only
      by_cases hb : o.buffer < (b ++ [row]).length
      · rw [if_pos hb, if_pos hb]
        rcases hf (b ++ [row]) d d' hd with ⟨e, h1, h2⟩ | ⟨y, y', h1, h2, h3⟩
        · rw [h1, h2]; exact .error hd
        · rw [h1, h2]; exact .ok h3
      · rw [if_neg hb, if_neg hb]; exact .ok hd

theorem writeLoop_pair : ∀ (xs : List (List Val × Nat)) {b : List (List Val)} {d d' : E} (_ : R d d') {a : Val} (w w' : σ) {ws : List (List (List Val))},
    Pair R (writeLoop W flush o xs ⟨b, d, a, w, ws⟩) (writeLoop W flush o xs ⟨b, d', a, w', ws⟩)
  | [], _, _, _, hd, _, _, _, _ => .ok hd
  | x :: xs, b, d, d', hd, a, w, w', ws => by
    unfold writeLoop
    have := writeStep_pair ho hf (b := b) hd (a := a) w w' (ws := ws) x
    generalize writeStep W flush o ⟨b, d, a, w, ws⟩ x = y at this
    generalize writeStep W flush o ⟨b, d', a, w', ws⟩ x = y' at this
    cases this with
    | ok h => exact writeLoop_pair xs h _ _
    | error h => exact .error h

theorem writeAll_pair (rows : List (List Val)) {d d' : E} (hd : R d d') (s s' : σ) :
    Pair R (writeAll W flush o rows d s) (writeAll W flush o rows d' s') := by
  unfold writeAll
  have := writeLoop_pair ho hf (copies o.multiplier rows) (b := []) hd (a := .null) s s' (ws := [])
  generalize writeLoop W flush o _ ⟨[], d, .null, s, []⟩ = y at this
  generalize writeLoop W flush o _ ⟨[], d', .null, s', []⟩ = y' at this
  cases this with
  | error h => exact .error h
  | @ok b d d' a w w' ws h =>
    dsimp only
    by_cases hb : b = []
    · rw [if_pos hb, if_pos hb]; exact .ok h
    · rw [if_neg hb, if_neg hb]
      rcases hf b d d' h with ⟨e, h1, h2⟩ | ⟨y, y', h1, h2, h3⟩
      · rw [h1, h2]; exact .error h
      · rw [h1, h2]; exact .ok h3
end

theorem flushTo_on {P : Key → Prop} {dialect : Dialect} {st : Strategy} {k : Key} {d : DestTable} {cols : List Str} (hk : P k)
    (b : List (List Val)) (h h' : List DbState) (hh : AgreeOn P h h') :
    (∃ e, flushTo dialect st k d cols b h = .error e ∧ flushTo dialect st k d cols b h' = .error e) ∨
    ∃ x x', flushTo dialect st k d cols b h = .ok x ∧ flushTo dialect st k d cols b h' = .ok x' ∧ AgreeOn P x x' := by
  obtain ⟨X, r, X', r', rfl, rfl, he⟩ := hh
  unfold flushTo
  dsimp only
  rw [he k hk]
  cases flushBuffer dialect st d cols b (X' k) with
  | error e => exact .inl ⟨e, rfl, rfl⟩
  | ok rows =>
    refine .inr ⟨_, _, rfl, rfl, _, _, _, _, rfl, rfl, fun k' hk' => ?_⟩
    unfold DbState.set
    by_cases e : k' = k
    · rw [if_pos e, if_pos e]
    · rw [if_neg e, if_neg e]; exact he k' hk'

/-- Writing to another table. -/
theorem commits_off {P : Key → Prop} {dialect : Dialect} {st : Strategy} {k : Key} {d : DestTable} {cols : List Str} (hk : ¬ P k)
    {h x : List DbState} {bs : List (List (List Val))} (hc : Commits (flushTo dialect st k d cols) h bs x) {X : DbState} {r : List DbState}
    (he : h = X :: r) : ∃ Y r', x = Y :: r' ∧ ∀ k', P k' → Y k' = X k' := by
  induction hc generalizing X r with
  | nil _ => exact ⟨X, r, he, fun _ _ => rfl⟩
  | @cons d0 d1 d2 b bs hfl hc ih =>
    subst he
    unfold flushTo at hfl
    dsimp only at hfl
    split at hfl
    · cases hfl
    · cases hfl
      obtain ⟨Y, r', h1, h2⟩ := ih rfl
      refine ⟨Y, r', h1, fun k' hk' => ?_⟩
      rw [h2 k' hk']
      unfold DbState.set
      rw [if_neg]
      rintro rfl
      exact hk hk'

theorem copyAll_others {P : Key → Prop} {n0 : Str} {W : Outside σ Val} {dialect : Dialect}
    {read read' : Str → Except RunErr (Option TableJob)} (hsame : ∀ n, n ≠ n0 → read' n = read n)
    (hv : ∀ n, n ≠ n0 → ∀ j, read n = .ok (some j) → ∀ v ∈ j.input.chain.views, ∀ vals, Still (v.run W vals))
    (hon : ∀ n, n ≠ n0 → ∀ j, read n = .ok (some j) → P j.key)
    (hoff : ∀ j, read n0 = .ok (some j) → ¬ P j.key) (hoff' : ∀ j, read' n0 = .ok (some j) → ¬ P j.key) :
    ∀ (ns : List Str) (h h' : List DbState) (s s' : σ), AgreeOn P h h' →
      (copyAll W dialect read ns h s).2.2 = none → (copyAll W dialect read' ns h' s').2.2 = none →
      AgreeOn P (copyAll W dialect read ns h s).1 (copyAll W dialect read' ns h' s').1 ∧
      ∀ k bs, P k → ((k, bs) ∈ (copyAll W dialect read ns h s).2.1 ↔ (k, bs) ∈ (copyAll W dialect read' ns h' s').2.1)
  | [], h, h', s, s', hh, _, _ => ⟨hh, fun _ _ _ => Iff.rfl⟩
  | n :: ns, h, h', s, s', hh, g, g' => by
    have ih := copyAll_others (P := P) (dialect := dialect) hsame hv hon hoff hoff' ns
    by_cases hn : n = n0
    · subst hn
      -- one side at a time
      have side : ∀ (rd : Str → Except RunErr (Option TableJob)), (∀ j, rd n = .ok (some j) → ¬ P j.key) → ∀ (u : List DbState) (w : σ) (X : DbState) (r : List DbState),
          u = X :: r → (copyAll W dialect rd (n :: ns) u w).2.2 = none →
          ∃ u1 w1, (∃ Y r', u1 = Y :: r' ∧ ∀ k, P k → Y k = X k) ∧ (copyAll W dialect rd ns u1 w1).2.2 = none ∧
            (copyAll W dialect rd (n :: ns) u w).1 = (copyAll W dialect rd ns u1 w1).1 ∧
            ∀ k bs, P k → ((k, bs) ∈ (copyAll W dialect rd (n :: ns) u w).2.1 ↔ (k, bs) ∈ (copyAll W dialect rd ns u1 w1).2.1) := by
        intro rd hrd u w X r hu hg
        rw [copyAll.eq_2] at hg ⊢
        cases h1 : rd n with
        | error e => rw [h1] at hg; cases hg
        | ok oj =>
          rw [h1] at hg
          cases oj with
          | none => exact ⟨u, w, ⟨X, r, hu, fun _ _ => rfl⟩, hg, rfl, fun _ _ _ => Iff.rfl⟩
          | some j =>
            dsimp only at hg ⊢
            cases h2 : outPlan j.input with
            | error e => rw [h2] at hg; cases hg
            | ok o =>
              rw [h2] at hg
              dsimp only at hg ⊢
              cases h3 : writeAll W (flushTo dialect j.strategy j.key j.input.dest o.colsOut) o j.rows u w with
              | error e => rw [h3] at hg; cases hg
              | ok st =>
                rw [h3] at hg
                dsimp only at hg ⊢
                obtain ⟨outs, -, -, -, hc, -⟩ := writeAll_ok h3
                refine ⟨st.dest, st.world, commits_off (hrd j h1) hc hu, hg, rfl, fun k bs hk => ?_⟩
                rw [List.mem_cons]
                constructor
                · rintro (e | e)
                  · cases e; exact absurd hk (hrd j h1)
                  · exact e
                · exact .inr
      obtain ⟨X, r, X', r', rfl, rfl, he⟩ := hh
      obtain ⟨u, w, ⟨Y, r1, rfl, hY⟩, a1, a2, a3⟩ := side read hoff _ s X r rfl g
      obtain ⟨u', w', ⟨Y', r1', rfl, hY'⟩, b1, b2, b3⟩ := side read' hoff' _ s' X' r' rfl g'
      obtain ⟨c1, c2⟩ := ih _ _ w w' ⟨Y, r1, Y', r1', rfl, rfl, fun k hk => by rw [hY k hk, hY' k hk, he k hk]⟩ a1 b1
      rw [a2, b2]
      exact ⟨c1, fun k bs hk => by rw [a3 k bs hk, b3 k bs hk, c2 k bs hk]⟩
    · unfold copyAll at g g' ⊢
      rw [hsame n hn] at g' ⊢
      cases h1 : read n with
      | error e => rw [h1] at g; cases g
      | ok oj =>
        rw [h1] at g g'
        cases oj with
        | none => exact ih h h' s s' hh g g'
        | some j =>
          dsimp only at g g' ⊢
          cases h2 : outPlan j.input with
          | error e => rw [h2] at g; cases g
          | ok o =>
            rw [h2] at g g'
            dsimp only at g g' ⊢
            have := writeAll_pair (R := AgreeOn P) (flush := flushTo dialect j.strategy j.key j.input.dest o.colsOut)
              (outRow_still h2 (hv n hn j h1)) (flushTo_on (hon n hn j h1)) j.rows hh s s'
            generalize writeAll W _ o j.rows h s = y at this g ⊢
            generalize writeAll W _ o j.rows h' s' = y' at this g' ⊢
            cases this with
            | error => cases g
            | @ok b d d' a w w' ws hd =>
              dsimp only at g g' ⊢
              obtain ⟨c1, c2⟩ := ih d d' w w' hd g g'
              refine ⟨c1, fun k bs hk => ?_⟩
              rw [List.mem_cons, List.mem_cons, c2 k bs hk]

/-- Runs that succeed differ only in the destination of the table whose filters differ. -/
theorem sample_others {fs : Dict Str (List (FilterCfg Val))} {n0 : Str} {S : DbState} {s s' : σ} (hok : RunOK C D p)
    (h0 : n0 ∈ dkeys p.queries) (hfs : ∀ n, n ≠ n0 → dget fs n = dget C.filters n)
    (hset : ∀ n, n ≠ n0 → ∀ f ∈ filtersOf C n, FilterCfg.Settled f)
    (h : (sample C D p S s).err = none) (h' : (sample { C with filters := fs } D p S s').err = none) :
    (sample C D p S s).schema = (sample { C with filters := fs } D p S s').schema ∧
    ∀ k, ¬ DestOf C.remap n0 k →
      (sample C D p S s).final k = (sample { C with filters := fs } D p S s').final k ∧
      ∀ bs, (k, bs) ∈ (sample C D p S s).writes ↔ (k, bs) ∈ (sample { C with filters := fs } D p S s').writes := by
  rcases sample_cases C D p S s with ⟨-, -, ⟨e, he⟩, -⟩ | ⟨_, _, _, _, _, -, -, -, -, -, -, -, e, he, -⟩ |
      ⟨r, db, x, order, states, offs, compact, mat, temps, hst, hsch, hcp⟩
  · rw [h] at he; cases he
  · rw [h] at he; cases he
  rcases sample_cases { C with filters := fs } D p S s' with ⟨-, -, ⟨e, he⟩, -⟩ | ⟨_, _, _, _, _, -, -, -, -, -, -, -, e, he, -⟩ |
      ⟨r', db', x', order', states', offs', compact', mat', temps', hst', hsch', hcp'⟩
  · rw [h'] at he; cases he
  · rw [h'] at he; cases he
  obtain ⟨l, a1, a2, a3, -, a4, a5⟩ := startRun_ok hst.start
  obtain ⟨l', b1, b2, b3, -, b4, b5⟩ := startRun_ok hst'.start
  have hl : l = l' := by rw [a1] at b1; cases b1; rfl
  subst hl
  have hr : r' = r := by
    obtain ⟨raw, tables, mult, dest⟩ := r
    obtain ⟨raw', tables', mult', dest'⟩ := r'
    dsimp only at a2 a3 a4 a5 b2 b3 b4 b5
    subst a2 a3 b2 b3
    rw [a4] at b4
    rw [a5] at b5
    cases b4; cases b5; rfl
  subst hr
  have c1 : Except.ok (db', x') = Except.ok (db, x) := hst'.create.symm.trans hst.create
  cases c1
  have c2 : Except.ok order' = Except.ok order := hst'.order.symm.trans hst.order
  cases c2
  have c3 : Except.ok states' = Except.ok states := hst'.truncate.symm.trans hst.truncate
  cases c3
  have c4 : Except.ok offs' = Except.ok offs := hst'.prepare.symm.trans hst.prepare
  cases c4
  have c5 : Except.ok compact' = Except.ok compact := hst'.compacted.symm.trans hst.compacted
  cases c5
  have c6 : Except.ok mat' = Except.ok mat := hst'.ordered.symm.trans hst.ordered
  cases c6
  have c7 : Except.ok temps' = Except.ok temps := hst'.materialized.symm.trans hst.materialized
  cases c7
  refine ⟨by rw [hsch, hsch'], ?_⟩
  have hX : AgreeOn (fun k => ¬ DestOf C.remap n0 k) (states.reverse ++ [S]) (states.reverse ++ [S]) := by
    cases hx : states.reverse ++ [S] with
    | nil => simp at hx
    | cons X rest => exact ⟨X, rest, X, rest, rfl, rfl, fun _ _ => rfl⟩
  obtain ⟨⟨X, u, X', u', g1, g2, g3⟩, g4⟩ := copyAll_others (P := fun k => ¬ DestOf C.remap n0 k) (n0 := n0) (W := D.world) (dialect := D.dialect)
    (read := readTable C D r' x offs compact p temps) (read' := readTable { C with filters := fs } D r' x offs compact p temps)
    (fun n hn => by unfold readTable tableJob; dsimp only; rw [hfs n hn])
    (fun n hn j hj => by
      obtain ⟨k, q, t, td, rows, -, -, -, -, g5, -⟩ := readTable_some hj
      exact loop_still (constructFilter_ok g5).2 (hset n hn))
    (fun n hn j hj hd => by
      obtain ⟨k, q, t, td, rows, -, g2, -, -, -, g6, -⟩ := readTable_some hj
      have hp : n ∈ dkeys p.queries := dget_isSome_iff.1 (by rw [g2]; rfl)
      exact hn (hst.dest_inj hp h0 g6 hd hok))
    (fun j hj hd => by
      obtain ⟨k, q, t, td, rows, -, -, -, -, -, g6, -⟩ := readTable_some hj
      exact hd g6)
    (fun j hj hd => by
      obtain ⟨k, q, t, td, rows, -, -, -, -, -, g6, -⟩ := readTable_some hj
      exact hd g6)
    order _ _ s s' hX (by rw [hcp]; exact h) (by rw [hcp']; exact h')
  rw [hcp, hcp'] at g4
  rw [hcp] at g1
  rw [hcp'] at g2
  dsimp only at g1 g2 g4
  intro k hk
  refine ⟨?_, fun bs => g4 k bs hk⟩
  unfold RunResult.final
  rw [g1, g2]
  exact g3 k hk

/-! ### Directories -/

theorem outRow_views_still {W : Outside σ Val} {o : OutPlan} (hv : ∀ v ∈ o.views, ∀ vals, Still (v.run W vals))
    (y : List Val × Nat) : Still (outRow W o y) := by
  unfold outRow
  rcases runViews_still hv y.1 with ⟨e, h1⟩ | ⟨b, h1⟩
  · exact .inl ⟨.filter e, fun s => by dsimp only; rw [h1]⟩
  · cases h2 : multiplyAt o.multiplier y.2 o.multiplied b with
    | error e => exact .inl ⟨e, fun s => by dsimp only; rw [h1]; dsimp only; rw [h2]⟩
    | ok r1 =>
      cases h3 : shiftAt o.offsets r1 with
      | error e => exact .inl ⟨e, fun s => by dsimp only; rw [h1]; dsimp only; rw [h2]; dsimp only; rw [h3]⟩
      | ok r2 => exact .inr ⟨r2, fun s => by dsimp only; rw [h1]; dsimp only; rw [h2]; dsimp only; rw [h3]⟩

theorem directoryLoop_still {W : Outside σ Val} {o : OutPlan} (ho : ∀ y, Still (outRow W o y)) :
    ∀ (xs : List (List Val × Nat)) (s s' : σ), (directoryLoop W o xs s).1 = (directoryLoop W o xs s').1 ∧
      (directoryLoop W o xs s).2.2 = (directoryLoop W o xs s').2.2
  | [], _, _ => ⟨rfl, rfl⟩
  | x :: xs, s, s' => by
    unfold directoryLoop
    rcases ho x with ⟨e, h⟩ | ⟨row, h⟩
    · rw [h, h]; exact ⟨rfl, rfl⟩
    · rw [h, h]
      obtain ⟨h1, h2⟩ := directoryLoop_still ho xs s s'
      dsimp only
      exact ⟨by rw [h1], h2⟩

theorem copyFiles_others {f : Str} {n0 : Str} {mult : Dict Str (List Str)} {fs : Dict Str (List (FilterCfg Val))}
    {read read' : Str → Except RunErr (Option (Key × Chain Val × List (List Val)))} (hsame : ∀ n, n ≠ n0 → read' n = read n)
    (hv : ∀ n, n ≠ n0 → ∀ k ch rows, read n = .ok (some (k, ch, rows)) → ∀ v ∈ ch.views, ∀ vals, Still (v.run D.world vals))
    (hoff : ∀ k ch rows, read n0 = .ok (some (k, ch, rows)) → fileName k ≠ f)
    (hoff' : ∀ k ch rows, read' n0 = .ok (some (k, ch, rows)) → fileName k ≠ f) :
    ∀ (ns : List Str) (F F' : Files) (s s' : σ), F f = F' f →
      (copyFiles C D mult read ns F s).2 = none → (copyFiles { C with filters := fs } D mult read' ns F' s').2 = none →
      (copyFiles C D mult read ns F s).1 f = (copyFiles { C with filters := fs } D mult read' ns F' s').1 f
  | [], F, F', s, s', hF, _, _ => hF
  | n :: ns, F, F', s, s', hF, g, g' => by
    have ih := copyFiles_others (mult := mult) (fs := fs) hsame hv hoff hoff' ns
    by_cases hn : n = n0
    · subst hn
      have side : ∀ (C0 : RunConfig) (rd : Str → Except RunErr (Option (Key × Chain Val × List (List Val)))),
          (∀ k ch rows, rd n = .ok (some (k, ch, rows)) → fileName k ≠ f) → ∀ (G : Files) (w : σ),
          (copyFiles C0 D mult rd (n :: ns) G w).2 = none →
          ∃ G1 w1, G1 f = G f ∧ copyFiles C0 D mult rd (n :: ns) G w = copyFiles C0 D mult rd ns G1 w1 := by
        intro C0 rd hrd G w hg
        rw [copyFiles.eq_2] at hg ⊢
        cases h1 : rd n with
        | error e => rw [h1] at hg; cases hg
        | ok oj =>
          rw [h1] at hg
          cases oj with
          | none => exact ⟨G, w, rfl, rfl⟩
          | some y =>
            obtain ⟨k, ch, rows⟩ := y
            dsimp only at hg ⊢
            generalize directoryOutput D.world ch (if (dget mult n).isNone then 1 else C0.mult.multiplier.toNat) ((dget mult n).getD []) rows w = z at hg ⊢
            obtain ⟨lines, s1, err⟩ := z
            cases err with
            | some e => cases hg
            | none =>
              refine ⟨_, s1, ?_, rfl⟩
              unfold Files.set
              rw [if_neg (hrd k ch rows h1).symm]
      obtain ⟨G, w, a1, a2⟩ := side C read hoff F s g
      obtain ⟨G', w', b1, b2⟩ := side _ read' hoff' F' s' g'
      rw [a2] at g ⊢
      rw [b2] at g' ⊢
      exact ih G G' w w' (by rw [a1, b1, hF]) g g'
    · rw [copyFiles.eq_2] at g g' ⊢
      rw [copyFiles.eq_2 { C with filters := fs }]
      rw [hsame n hn] at g' ⊢
      cases h1 : read n with
      | error e => rw [h1] at g; cases g
      | ok oj =>
        rw [h1] at g g'
        cases oj with
        | none => exact ih F F' s s' hF g g'
        | some y =>
          obtain ⟨k, ch, rows⟩ := y
          dsimp only at g g' ⊢
          have hd : (directoryOutput D.world ch (if (dget mult n).isNone then 1 else C.mult.multiplier.toNat) ((dget mult n).getD []) rows s).1 =
                (directoryOutput D.world ch (if (dget mult n).isNone then 1 else C.mult.multiplier.toNat) ((dget mult n).getD []) rows s').1 := by
            unfold directoryOutput
            refine (directoryLoop_still (fun y => ?_) _ s s').1
            exact outRow_views_still (hv n hn k ch rows h1) y
          generalize directoryOutput D.world ch (if (dget mult n).isNone then 1 else C.mult.multiplier.toNat) ((dget mult n).getD []) rows s = z at hd g ⊢
          generalize directoryOutput D.world ch (if (dget mult n).isNone then 1 else C.mult.multiplier.toNat) ((dget mult n).getD []) rows s' = z' at hd g' ⊢
          obtain ⟨lines, s1, err⟩ := z
          obtain ⟨lines', s1', err'⟩ := z'
          dsimp only at hd
          subst hd
          cases err with
          | some e => cases g
          | none =>
            cases err' with
            | some e => cases g'
            | none =>
              refine ih _ _ s1 s1' ?_ g g'
              unfold Files.set
              by_cases e : f = fileName k
              · rw [if_pos e, if_pos e]
              · rw [if_neg e, if_neg e]; exact hF

theorem directory_others {fs : Dict Str (List (FilterCfg Val))} {n0 : Str} {F : Files} {s s' : σ}
    (hfs : ∀ n, n ≠ n0 → dget fs n = dget C.filters n)
    (hset : ∀ n, n ≠ n0 → ∀ f ∈ filtersOf C n, FilterCfg.Settled f)
    (h : (sampleDirectory C D p F s).2 = none) (h' : (sampleDirectory { C with filters := fs } D p F s').2 = none)
    {f : Str} (hf : f ≠ fileOf n0) :
    (sampleDirectory C D p F s).1 f = (sampleDirectory { C with filters := fs } D p F s').1 f := by
  rcases sampleDirectory_cases (C := C) (D := D) (p := p) (F := F) (s := s) with ⟨e, he⟩ | ⟨l, T, mult, compact, mat, temps, hst, e1⟩
  · rw [he] at h; cases h
  rcases sampleDirectory_cases (C := { C with filters := fs }) (D := D) (p := p) (F := F) (s := s') with ⟨e, he⟩ | ⟨l', T', mult', compact', mat', temps', hst', e2⟩
  · rw [he] at h'; cases h'
  have c0 : some (some l') = some (some l) := hst'.load.symm.trans hst.load
  cases c0
  have c1 : T' = T := hst'.infer.trans hst.infer.symm
  subst c1
  have c4 : Except.ok mult' = Except.ok mult := hst'.mult.symm.trans hst.mult
  cases c4
  have c5 : Except.ok compact' = Except.ok compact := hst'.compacted.symm.trans hst.compacted
  cases c5
  have c6 : Except.ok mat' = Except.ok mat := hst'.ordered.symm.trans hst.ordered
  cases c6
  have c7 : Except.ok temps' = Except.ok temps := hst'.materialized.symm.trans hst.materialized
  cases c7
  have key : ∀ (C0 : RunConfig) (n : Str) k ch rows, readRows C0 D T' compact p temps n = .ok (some (k, ch, rows)) →
      fileName k = fileOf n ∧ ∃ cols, constructFilter D.world cols ((dget C0.filters n).getD []) = .ok ch := by
    intro C0 n k ch rows hr
    unfold readRows at hr
    split at hr
    · cases hr
    · rename_i k' hk
      split at hr
      · cases hr
      · split at hr
        · cases hr
        · split at hr
          · cases hr
          · split at hr
            · cases hr
            · rename_i hc
              cases hr
              exact ⟨fileName_eq hk, _, hc⟩
  rw [e1] at h ⊢
  rw [e2] at h' ⊢
  refine copyFiles_others (n0 := n0) ?_ ?_ ?_ ?_ _ F F s s' rfl h h'
  · intro n hn
    unfold readRows
    dsimp only
    rw [hfs n hn]
  · intro n hn k ch rows hr
    obtain ⟨-, cols, hc⟩ := key C n k ch rows hr
    exact loop_still (constructFilter_ok hc).2 (hset n hn)
  · intro k ch rows hr e
    exact hf (e.symm.trans (key _ n0 k ch rows hr).1)
  · intro k ch rows hr e
    exact hf (e.symm.trans (key _ n0 k ch rows hr).1)

/-! ### Filters of tables that are not planned -/

theorem copyAll_read {W : Outside σ Val} {dialect : Dialect} {read read' : Str → Except RunErr (Option TableJob)} :
    ∀ (ns : List Str) (h : List DbState) (s : σ), (∀ n ∈ ns, read' n = read n) →
      copyAll W dialect read' ns h s = copyAll W dialect read ns h s
  | [], _, _, _ => rfl
  | n :: ns, h, s, hr => by
    have ih := fun h s => copyAll_read (W := W) (dialect := dialect) ns h s fun m hm => hr m (List.mem_cons_of_mem _ hm)
    rw [copyAll.eq_2, copyAll.eq_2, hr n List.mem_cons_self]
    simp only [ih]

theorem copyFiles_read {fs : Dict Str (List (FilterCfg Val))} {mult : Dict Str (List Str)} {read read' : Str → Except RunErr (Option (Key × Chain Val × List (List Val)))} :
    ∀ (ns : List Str) (F : Files) (s : σ), (∀ n ∈ ns, read' n = read n) →
      copyFiles { C with filters := fs } D mult read' ns F s = copyFiles C D mult read ns F s
  | [], _, _, _ => rfl
  | n :: ns, F, s, hr => by
    have ih := fun F s => copyFiles_read (fs := fs) (mult := mult) ns F s fun m hm => hr m (List.mem_cons_of_mem _ hm)
    rw [copyFiles.eq_2, copyFiles.eq_2, hr n List.mem_cons_self]
    simp only [ih]

theorem sample_unplanned {fs : Dict Str (List (FilterCfg Val))} {S : DbState} {s : σ}
    (hfs : ∀ n ∈ dkeys p.queries, (dget fs n).getD [] = filtersOf C n)
    (h : (sample C D p S s).err = none) (h' : (sample { C with filters := fs } D p S s).err = none) :
    sample { C with filters := fs } D p S s = sample C D p S s := by
  have hst : ∃ r, startRun C D p = .ok r := by
    unfold sample at h
    cases h1 : startRun C D p with
    | error e => rw [h1] at h; cases h
    | ok r => exact ⟨r, rfl⟩
  have hst' : ∃ r, startRun { C with filters := fs } D p = .ok r := by
    unfold sample at h'
    cases h1 : startRun { C with filters := fs } D p with
    | error e => rw [h1] at h'; cases h'
    | ok r => exact ⟨r, rfl⟩
  obtain ⟨r, hr⟩ := hst
  obtain ⟨r', hr'⟩ := hst'
  obtain ⟨l, a1, a2, a3, -, a4, a5⟩ := startRun_ok hr
  obtain ⟨l', b1, b2, b3, -, b4, b5⟩ := startRun_ok hr'
  have hl : l = l' := by rw [a1] at b1; cases b1; rfl
  subst hl
  have e : r' = r := by
    obtain ⟨raw, tables, mult, dest⟩ := r
    obtain ⟨raw', tables', mult', dest'⟩ := r'
    dsimp only at a2 a3 a4 a5 b2 b3 b4 b5
    subst a2 a3 b2 b3
    rw [a4] at b4
    rw [a5] at b5
    cases b4; cases b5; rfl
  subst e
  have hread : ∀ x offs compact temps (n : Str), readTable { C with filters := fs } D r' x offs compact p temps n = readTable C D r' x offs compact p temps n := by
    intro x offs compact temps n
    cases hq : dget p.queries n with
    | none =>
      unfold readTable
      rw [hq]
    | some q =>
      have := hfs n (dget_isSome_iff.1 (by rw [hq]; rfl))
      unfold filtersOf at this
      unfold readTable tableJob
      dsimp only
      rw [this]
  unfold sample
  rw [hr, hr']
  dsimp only
  rw [show createStep { C with filters := fs } D r' = createStep C D r' from rfl]
  cases createStep C D r' with
  | error e => rfl
  | ok y =>
    obtain ⟨db, x⟩ := y
    dsimp only
    cases insertOrder x with
    | error e => rfl
    | ok order =>
      dsimp only
      rw [show truncateStep { C with filters := fs } x S = truncateStep C x S from rfl]
      cases truncateStep C x S with
      | error e => rfl
      | ok states =>
        dsimp only
        rw [show prepareStep { C with filters := fs } r'.tables x ((states.reverse ++ [S]).head?.getD S) p =
          prepareStep C r'.tables x ((states.reverse ++ [S]).head?.getD S) p from rfl]
        cases prepareStep C r'.tables x ((states.reverse ++ [S]).head?.getD S) p with
        | error e => rfl
        | ok offs =>
          dsimp only
          cases getCompactColumns r'.tables p.passthrough C.compact with
          | error e => rfl
          | ok compact =>
            dsimp only
            cases materializationOrder r'.tables compact p with
            | error e => rfl
            | ok mat =>
              dsimp only
              cases materialize D.engine r'.tables D.src D.reopen p mat [] with
              | error e => rfl
              | ok temps =>
                dsimp only
                rw [copyAll_read order _ s fun n _ => hread x offs compact temps n]

theorem directory_unplanned {fs : Dict Str (List (FilterCfg Val))} {F : Files} {s : σ}
    (hfs : ∀ n ∈ dkeys p.queries, (dget fs n).getD [] = filtersOf C n)
    (h : (sampleDirectory C D p F s).2 = none) (h' : (sampleDirectory { C with filters := fs } D p F s).2 = none) :
    sampleDirectory { C with filters := fs } D p F s = sampleDirectory C D p F s := by
  rcases sampleDirectory_cases (C := C) (D := D) (p := p) (F := F) (s := s) with ⟨e, he⟩ | ⟨l, T, mult, compact, mat, temps, hst, e1⟩
  · rw [he] at h; cases h
  rcases sampleDirectory_cases (C := { C with filters := fs }) (D := D) (p := p) (F := F) (s := s) with ⟨e, he⟩ | ⟨l', T', mult', compact', mat', temps', hst', e2⟩
  · rw [he] at h'; cases h'
  have c0 : some (some l') = some (some l) := hst'.load.symm.trans hst.load
  cases c0
  have c1 : T' = T := hst'.infer.trans hst.infer.symm
  subst c1
  have c4 : Except.ok mult' = Except.ok mult := hst'.mult.symm.trans hst.mult
  cases c4
  have c5 : Except.ok compact' = Except.ok compact := hst'.compacted.symm.trans hst.compacted
  cases c5
  have c6 : Except.ok mat' = Except.ok mat := hst'.ordered.symm.trans hst.ordered
  cases c6
  have c7 : Except.ok temps' = Except.ok temps := hst'.materialized.symm.trans hst.materialized
  cases c7
  rw [e1, e2]
  refine copyFiles_read _ F s fun n hn => ?_
  have := hfs n hn
  unfold filtersOf at this
  unfold readRows
  dsimp only
  rw [this]

end Subsetter
