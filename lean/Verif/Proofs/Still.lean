import Verif.Proofs.SameOutput

/- Runs whose filters are settled do not depend on random choices. -/
namespace Subsetter
open Spec Props

variable {σ : Type} {C : RunConfig} {D : Setting σ} {p : Plan}

/-- A step that neither depends on the outside world nor changes it. -/
def Still {ε α : Type} (f : σ → Except ε (α × σ)) : Prop :=
  (∃ e, ∀ s, f s = .error e) ∨ ∃ a, ∀ s, f s = .ok (a, s)

theorem columns_still {V : Type} {W : Outside σ V} {cols : List Str} {is : List Nat} {a : Act V}
    (ha : ∀ vals, Still (a.run W vals)) (vals : List V) : Still ((SimpleView.columns cols is a).run W vals) := by
  unfold SimpleView.run
  dsimp only
  cases pick vals is with
  | error e => exact .inl ⟨e, fun _ => rfl⟩
  | ok old =>
    rcases ha old with ⟨e, h⟩ | ⟨b, h⟩
    · exact .inl ⟨e, fun s => by dsimp only; rw [h]⟩
    · exact .inr ⟨_, fun s => by dsimp only; rw [h]⟩

theorem omit_still {V : Type} {W : Outside σ V} (cols cs : List Str) (vals : List V) :
    Still ((mkOmit (V := V) cols cs).run W vals) := by
  unfold mkOmit SimpleView.run
  dsimp only
  split
  · exact .inl ⟨_, fun _ => rfl⟩
  · exact .inr ⟨_, fun _ => rfl⟩

theorem simple_still {V : Type} {W : Outside σ V} {cols : List Str} {c : SimpleCfg V} {v : SimpleView V}
    (h : constructSimple W cols c = .ok v) (hc : SimpleCfg.Settled c) (vals : List V) : Still (v.run W vals) := by
  cases c with
  | zero cs =>
    obtain ⟨-, -, is, -, rfl⟩ := mkColumns_ok h
    refine columns_still (fun vals => ?_) vals
    unfold Act.run
    dsimp only
    cases zeroAll W vals with
    | error e => exact .inl ⟨e, fun _ => rfl⟩
    | ok zs => exact .inr ⟨zs, fun _ => rfl⟩
  | «omit» cs =>
    cases h
    exact omit_still _ _ vals
  | null cs =>
    obtain ⟨-, -, is, -, rfl⟩ := mkColumns_ok h
    exact columns_still (fun vals => .inr ⟨_, fun _ => rfl⟩) vals
  | constant cs vs =>
    unfold constructSimple at h
    dsimp only at h
    split at h
    · cases h
    · rename_i v' hv
      obtain ⟨-, -, is, -, rfl⟩ := mkColumns_ok hv
      split at h
      · cases h
        exact columns_still (fun vals => .inr ⟨_, fun _ => rfl⟩) vals
      · cases h
  | _ => cases hc

theorem conds_still {V : Type} {W : Outside σ V} {cols : List Str} :
    ∀ {cs : List (Nat × SimpleCfg V)} {vs : List (Nat × SimpleView V)}, constructConds W cols cs = .ok vs →
    (∀ x ∈ cs, SimpleCfg.Settled x.2) → ∀ (x : V) (vals : List V), Still fun s => runConds W x vals s vs
  | [], vs, h, _, x, vals => by
    cases h
    exact .inr ⟨_, fun _ => rfl⟩
  | (n, c) :: cs, vs, h, hs, x, vals => by
    unfold constructConds at h
    split at h
    · cases h
    · rename_i v hv
      split at h
      · cases h
      · rename_i vs' hvs
        cases h
        unfold runConds
        cases W.holds n x with
        | error e => exact .inl ⟨e, fun _ => rfl⟩
        | ok b =>
          cases b with
          | true => exact simple_still hv (hs (n, c) (List.mem_cons_self ..)) vals
          | false => exact conds_still hvs (fun y hy => hs y (by simp [hy])) x vals

theorem view_still {V : Type} {W : Outside σ V} {cols : List Str} {f : FilterCfg V} {v : View V}
    (h : constructView W cols f = .ok v) (hf : FilterCfg.Settled f) (vals : List V) : Still (v.run W vals) := by
  cases f with
  | simple c =>
    unfold constructView at h
    dsimp only at h
    split at h
    · cases h
    · rename_i w hw
      cases h
      exact simple_still hw hf vals
  | multiplex column conds =>
    unfold constructView at h
    dsimp only at h
    split at h
    · cases h
    · rename_i i hi
      split at h
      · cases h
      · rename_i vs hvs
        split at h
        · cases h
          unfold View.run
          dsimp only
          cases vals[i]? with
          | none => exact .inl ⟨_, fun _ => rfl⟩
          | some x => exact conds_still hvs hf x vals
        · cases h

theorem runViews_still {V : Type} {W : Outside σ V} : ∀ {vs : List (View V)}, (∀ v ∈ vs, ∀ vals, Still (v.run W vals)) →
    ∀ vals : List V, Still (runViews W vs vals)
  | [], _, vals => .inr ⟨vals, fun _ => rfl⟩
  | v :: vs, h, vals => by
    rcases h v List.mem_cons_self vals with ⟨e, h1⟩ | ⟨b, h1⟩
    · exact .inl ⟨e, fun s => by unfold runViews; rw [h1]⟩
    · rcases runViews_still (fun w hw => h w (List.mem_cons_of_mem _ hw)) b with ⟨e, h2⟩ | ⟨b', h2⟩
      · exact .inl ⟨e, fun s => by unfold runViews; rw [h1]; exact h2 s⟩
      · exact .inr ⟨b', fun s => by unfold runViews; rw [h1]; exact h2 s⟩

theorem loop_still {V : Type} {W : Outside σ V} : ∀ {fs : List (FilterCfg V)} {cols out : List Str} {vs : List (View V)},
    constructLoop W cols fs = .ok (vs, out) → (∀ f ∈ fs, FilterCfg.Settled f) → ∀ v ∈ vs, ∀ vals, Still (v.run W vals)
  | [], cols, out, vs, h, _ => by
    cases h
    exact fun _ h => nomatch h
  | f :: fs, cols, out, vs, h, hs => by
    unfold constructLoop at h
    split at h
    · cases h
    · rename_i v hv
      split at h
      · cases h
      · rename_i vs' out' hvs
        cases h
        intro w hw vals
        rcases List.mem_cons.1 hw with rfl | hw
        · exact view_still hv (hs f (by simp)) vals
        · exact loop_still hvs (fun g hg => hs g (by simp [hg])) w hw vals

/-- A copy of a row. -/
theorem outRow_still {W : Outside σ Val} {x : OutInput} {o : OutPlan} (h : outPlan x = .ok o)
    (hv : ∀ v ∈ x.chain.views, ∀ vals, Still (v.run W vals)) (y : List Val × Nat) : Still (outRow W o y) := by
  have hs : ∀ vals, Still (runViews W o.views vals) := by
    apply runViews_still
    rcases (outPlan_ok h).2.2.2.2.2.2 with ⟨e, -⟩ | ⟨comp, e, -⟩
    · rw [e]; exact hv
    · rw [e]
      intro v hm
      rcases List.mem_append.1 hm with hm | hm
      · exact hv v hm
      · rw [List.mem_singleton] at hm
        subst hm
        exact fun vals => omit_still (W := W) _ _ vals
  unfold outRow
  rcases hs y.1 with ⟨e, h1⟩ | ⟨b, h1⟩
  · exact .inl ⟨.filter e, fun s => by dsimp only; rw [h1]⟩
  · cases h2 : multiplyAt o.multiplier y.2 o.multiplied b with
    | error e => exact .inl ⟨e, fun s => by dsimp only; rw [h1]; dsimp only; rw [h2]⟩
    | ok r1 =>
      cases h3 : shiftAt o.offsets r1 with
      | error e => exact .inl ⟨e, fun s => by dsimp only; rw [h1]; dsimp only; rw [h2]; dsimp only; rw [h3]⟩
      | ok r2 => exact .inr ⟨r2, fun s => by dsimp only; rw [h1]; dsimp only; rw [h2]; dsimp only; rw [h3]⟩

/-- Two outcomes of writing that differ only in the outside world. -/
inductive Twin {E : Type} : Except (WState σ E × OutErr) (WState σ E) → Except (WState σ E × OutErr) (WState σ E) → Prop
  | ok {b d a w w' ws} : Twin (.ok ⟨b, d, a, w, ws⟩) (.ok ⟨b, d, a, w', ws⟩)
  | error {b d a w w' ws e} : Twin (.error (⟨b, d, a, w, ws⟩, e)) (.error (⟨b, d, a, w', ws⟩, e))

section
variable {E : Type} {W : Outside σ Val} {flush : List (List Val) → E → Except OutErr E} {o : OutPlan}
  (ho : ∀ y, Still (outRow W o y))
include ho

theorem writeStep_twin {b : List (List Val)} {d : E} {a : Val} (w w' : σ) {ws : List (List (List Val))} (x : List Val × Nat) :
    Twin (writeStep W flush o ⟨b, d, a, w, ws⟩ x) (writeStep W flush o ⟨b, d, a, w', ws⟩ x) := by
  unfold writeStep
  dsimp only
  rcases ho x with ⟨e, h⟩ | ⟨row, h⟩
  · rw [h, h]; exact .error
  · rw [h, h]
    dsimp only
    cases autoMax o a row with
    | error e => exact .error
    | ok a' =>
      dsimp only
      by_cases hb : o.buffer < (b ++ [row]).length
      · rw [if_pos hb, if_pos hb]
        cases flush (b ++ [row]) d with
        | error e => exact .error
        | ok d' => exact .ok
      · rw [if_neg hb, if_neg hb]; exact .ok

theorem writeLoop_twin : ∀ (xs : List (List Val × Nat)) {b : List (List Val)} {d : E} {a : Val} (w w' : σ) {ws : List (List (List Val))},
    Twin (writeLoop W flush o xs ⟨b, d, a, w, ws⟩) (writeLoop W flush o xs ⟨b, d, a, w', ws⟩)
  | [], _, _, _, _, _, _ => .ok
  | x :: xs, b, d, a, w, w', ws => by
    unfold writeLoop
    have := writeStep_twin (flush := flush) ho (b := b) (d := d) (a := a) w w' (ws := ws) x
    generalize writeStep W flush o ⟨b, d, a, w, ws⟩ x = y at this
    generalize writeStep W flush o ⟨b, d, a, w', ws⟩ x = y' at this
    cases this with
    | ok => exact writeLoop_twin xs _ _
    | error => exact .error

theorem writeAll_twin (rows : List (List Val)) (d : E) (s s' : σ) :
    Twin (writeAll W flush o rows d s) (writeAll W flush o rows d s') := by
  unfold writeAll
  have := writeLoop_twin (flush := flush) ho (copies o.multiplier rows) (b := []) (d := d) (a := .null) s s' (ws := [])
  generalize writeLoop W flush o _ ⟨[], d, .null, s, []⟩ = y at this
  generalize writeLoop W flush o _ ⟨[], d, .null, s', []⟩ = y' at this
  cases this with
  | error => exact .error
  | @ok b d a w w' ws =>
    dsimp only
    by_cases hb : b = []
    · rw [if_pos hb, if_pos hb]; exact .ok
    · rw [if_neg hb, if_neg hb]
      cases flush b d with
      | error e => exact .error
      | ok d' => exact .ok
end

theorem copyAll_still {W : Outside σ Val} {dialect : Dialect} {read : Str → Except RunErr (Option TableJob)}
    (hr : ∀ n j, read n = .ok (some j) → ∀ v ∈ j.input.chain.views, ∀ vals, Still (v.run W vals)) :
    ∀ (ns : List Str) (h : List DbState) (s s' : σ), copyAll W dialect read ns h s = copyAll W dialect read ns h s'
  | [], _, _, _ => rfl
  | n :: ns, h, s, s' => by
    unfold copyAll
    cases hn : read n with
    | error e => rfl
    | ok o =>
      cases o with
      | none => exact copyAll_still hr ns h s s'
      | some j =>
        dsimp only
        cases ho : outPlan j.input with
        | error e => rfl
        | ok o =>
          dsimp only
          have := writeAll_twin (flush := flushTo dialect j.strategy j.key j.input.dest o.colsOut)
            (outRow_still ho (hr n j hn)) j.rows h s s'
          generalize writeAll W _ o j.rows h s = y at this
          generalize writeAll W _ o j.rows h s' = y' at this
          cases this with
          | error => rfl
          | ok =>
            dsimp only
            rw [copyAll_still hr ns _ _ _]

/-- The whole run. -/
theorem sample_still (hf : ∀ n, ∀ f ∈ (dget C.filters n).getD [], FilterCfg.Settled f) (S : DbState) (s s' : σ) :
    sample C D p S s = sample C D p S s' := by
  unfold sample
  cases startRun C D p with
  | error e => rfl
  | ok r =>
    dsimp only
    cases createStep C D r with
    | error e => rfl
    | ok y =>
      obtain ⟨db, x⟩ := y
      dsimp only
      cases insertOrder x with
      | error e => rfl
      | ok order =>
        dsimp only
        cases truncateStep C x S with
        | error e => rfl
        | ok states =>
          dsimp only
          cases prepareStep C r.tables x ((states.reverse ++ [S]).head?.getD S) p with
          | error e => rfl
          | ok offs =>
            dsimp only
            cases getCompactColumns r.tables p.passthrough C.compact with
            | error e => rfl
            | ok compact =>
              dsimp only
              cases materializationOrder r.tables compact p with
              | error e => rfl
              | ok mat =>
                dsimp only
                cases materialize D.engine r.tables D.src D.reopen p mat [] with
                | error e => rfl
                | ok temps =>
                  dsimp only
                  rw [copyAll_still (fun n j hj => ?_) order _ s s']
                  obtain ⟨k, q, t, td, rows, -, -, -, -, g5, -⟩ := readTable_some hj
                  exact loop_still (constructFilter_ok g5).2 (hf n)

end Subsetter
