import Verif.Proofs.OtherTables
import Verif.Proofs.NoConflict
import Verif.Spec.Reorder

/- Independent filters can be reordered. -/
namespace Subsetter
open Spec Props

variable {σ : Type} {C : RunConfig} {D : Setting σ} {p : Plan}

theorem place_set {V : Type} {i : Nat} {v : V} : ∀ {js : List Nat} {new vals : List V}, i ∉ js →
    place (vals.set i v) js new = (place vals js new).set i v
  | [], _, _, _ => by unfold place; rfl
  | j :: js, [], _, _ => by unfold place; rfl
  | j :: js, w :: new, vals, h => by
    unfold place
    rw [List.set_comm _ _ (fun e => h (by rw [e]; exact List.mem_cons_self))]
    exact place_set fun hm => h (List.mem_cons_of_mem _ hm)

theorem place_comm {V : Type} {js : List Nat} {b : List V} : ∀ {is : List Nat} {a vals : List V}, (∀ i ∈ is, i ∉ js) →
    place (place vals is a) js b = place (place vals js b) is a
  | [], a, vals, _ => by
    rw [show place vals [] a = vals by unfold place; rfl, show place (place vals js b) [] a = place vals js b by rw [place]; simp]
  | i :: is, [], vals, _ => by
    rw [show place vals (i :: is) [] = vals by unfold place; rfl, show place (place vals js b) (i :: is) [] = place vals js b by rw [place]; simp]
  | i :: is, v :: a, vals, h => by
    rw [place.eq_1 vals, place.eq_1 (place vals js b), place_comm fun k hk => h k (List.mem_cons_of_mem _ hk), place_set (h i List.mem_cons_self)]

/-- Whatever the one list of views gives, the other gives. -/
def SameViews (W : Outside σ Val) (vs vs' : List (View Val)) : Prop :=
  ∀ vals s y, runViews W vs vals s = .ok y → runViews W vs' vals s = .ok y

theorem act_still {W : Outside σ Val} {cols cs : List Str} {is : List Nat} {a : Act Val} {c : SimpleCfg Val}
    (h : constructSimple W cols c = .ok (.columns cs is a)) (hc : SimpleCfg.Settled c) (vals : List Val) : Still (a.run W vals) := by
  cases c with
  | zero cs =>
    obtain ⟨-, -, is, -, e⟩ := mkColumns_ok h
    cases e
    unfold Act.run
    dsimp only
    cases zeroAll W vals with
    | error e => exact .inl ⟨e, fun _ => rfl⟩
    | ok zs => exact .inr ⟨zs, fun _ => rfl⟩
  | «omit» cs => cases h
  | null cs =>
    obtain ⟨-, -, is, -, e⟩ := mkColumns_ok h
    cases e
    exact .inr ⟨_, fun _ => rfl⟩
  | constant cs vs =>
    unfold constructSimple at h
    dsimp only at h
    split at h
    · cases h
    · rename_i v' hv
      obtain ⟨-, -, is, -, rfl⟩ := mkColumns_ok hv
      split at h
      · cases h
        exact .inr ⟨_, fun _ => rfl⟩
      · cases h
  | _ => cases hc

theorem columns_run {W : Outside σ Val} {cs : List Str} {is : List Nat} {a : Act Val} {vals out : List Val} {s s' : σ}
    (h : (View.simple (.columns cs is a)).run W vals s = .ok (out, s')) :
    ∃ old new, pick vals is = .ok old ∧ a.run W old s = .ok (new, s') ∧ out = place vals is new := by
  unfold View.run SimpleView.run at h
  dsimp only at h
  cases h1 : pick vals is with
  | error e => rw [h1] at h; cases h
  | ok old =>
    rw [h1] at h
    dsimp only at h
    cases h2 : a.run W old s with
    | error e => rw [h2] at h; cases h
    | ok y =>
      obtain ⟨new, s1⟩ := y
      rw [h2] at h
      cases h
      exact ⟨old, new, rfl, h2, rfl⟩

theorem columns_runs {W : Outside σ Val} {cs : List Str} {is : List Nat} {a : Act Val} {vals old new : List Val} {s s' : σ}
    (h1 : pick vals is = .ok old) (h2 : a.run W old s = .ok (new, s')) :
    (View.simple (.columns cs is a)).run W vals s = .ok (place vals is new, s') := by
  unfold View.run SimpleView.run
  dsimp only
  rw [h1]
  dsimp only
  rw [h2]

theorem Still.at {ε α : Type} {f : σ → Except ε (α × σ)} (h : Still f) {s s' : σ} {a : α} (hs : f s = .ok (a, s')) :
    s' = s ∧ ∀ w, f w = .ok (a, w) := by
  rcases h with ⟨e, h⟩ | ⟨b, h⟩
  · rw [h] at hs; cases hs
  · have := h s
    rw [this] at hs
    cases hs
    exact ⟨rfl, h⟩

theorem swap_views {W : Outside σ Val} {c1 c2 : List Str} {is js : List Nat} {a b : Act Val} (hd : ∀ i ∈ is, i ∉ js)
    (hs : (∀ vals, Still (a.run W vals)) ∨ ∀ vals, Still (b.run W vals)) (vs : List (View Val)) :
    SameViews W (.simple (.columns c1 is a) :: .simple (.columns c2 js b) :: vs) (.simple (.columns c2 js b) :: .simple (.columns c1 is a) :: vs) := by
  intro vals s y h
  rw [runViews.eq_2] at h
  split at h
  · cases h
  · rename_i v1 s1 h1
    rw [runViews.eq_2] at h
    split at h
    · cases h
    · rename_i v2 s2 h2
      obtain ⟨o1, n1, p1, r1, rfl⟩ := columns_run h1
      obtain ⟨o2, n2, p2, r2, rfl⟩ := columns_run h2
      have q2 : pick vals js = .ok o2 := by
        rw [← p2]
        exact pick_congr fun j hj => (place_other fun hm => hd j hm hj).symm
      have q1 : pick (place vals js n2) is = .ok o1 := by
        rw [← p1]
        exact pick_congr fun i hi => place_other (hd i hi)
      have hrun : ∃ w, b.run W o2 s = .ok (n2, w) ∧ a.run W o1 w = .ok (n1, s2) := by
        rcases hs with hs | hs
        · obtain ⟨rfl, g⟩ := (hs o1).at r1
          exact ⟨s2, r2, g s2⟩
        · obtain ⟨rfl, g⟩ := (hs o2).at r2
          exact ⟨s, g s, r1⟩
      obtain ⟨w, g1, g2⟩ := hrun
      rw [runViews.eq_2, columns_runs q2 g1]
      dsimp only
      rw [runViews.eq_2, columns_runs q1 g2]
      dsimp only
      rw [place_comm hd] at h
      exact h

theorem SameViews.cons {W : Outside σ Val} {vs vs' : List (View Val)} (h : SameViews W vs vs') (v : View Val) : SameViews W (v :: vs) (v :: vs') := by
  intro vals s y hy
  rw [runViews.eq_2] at hy ⊢
  split at hy
  · cases hy
  · rename_i v1 s1 h1
    exact h _ _ _ hy

theorem SameViews.append {W : Outside σ Val} {vs vs' : List (View Val)} (h : SameViews W vs vs') (us : List (View Val)) : SameViews W (vs ++ us) (vs' ++ us) := by
  intro vals s y hy
  obtain ⟨out, s'⟩ := y
  obtain ⟨f, s1, h1, h2⟩ := runViews_append hy
  have h3 := h _ _ _ h1
  clear hy h1 h
  induction vs' generalizing vals s with
  | nil => cases h3; exact h2
  | cons v vs' ih =>
    rw [List.cons_append, runViews.eq_2]
    rw [runViews.eq_2] at h3
    split at h3
    · cases h3
    · exact ih _ _ h3

theorem located_at {cols cs : List Str} {is : List Nat} (h : Located cols cs is) {i : Nat} (hi : i ∈ is) : ∃ c ∈ cs, cols[i]? = some c := by
  unfold Located at h
  induction h with
  | nil => cases hi
  | @cons c j cs is hc _ ih =>
    rcases List.mem_cons.1 hi with rfl | hi
    · exact ⟨c, List.mem_cons_self, hc⟩
    · obtain ⟨c', h1, h2⟩ := ih hi
      exact ⟨c', List.mem_cons_of_mem _ h1, h2⟩

theorem loop_swap {W : Outside σ Val} {f g : SimpleCfg Val} (hi : Independent f g) {cols out : List Str} {post : List (FilterCfg Val)}
    {vs : List (View Val)} (h : constructLoop W cols (.simple f :: .simple g :: post) = .ok (vs, out)) :
    ∃ vs', constructLoop W cols (.simple g :: .simple f :: post) = .ok (vs', out) ∧ SameViews W vs vs' := by
  rw [constructLoop.eq_2] at h
  unfold constructView at h
  dsimp only at h
  cases h1 : constructSimple W cols f with
  | error e => rw [h1] at h; cases h
  | ok v1 =>
    rw [h1] at h
    dsimp only at h
    rcases constructSimple_ok h1 with ⟨cs, rfl, -⟩ | ⟨-, -, -, is, a, l1, rfl, -⟩
    · exact absurd trivial hi.keeps.1
    · rw [show View.colsOut (View.simple (SimpleView.columns cols is a)) = cols from rfl] at h
      rw [constructLoop.eq_2] at h
      unfold constructView at h
      dsimp only at h
      cases h2 : constructSimple W cols g with
      | error e => rw [h2] at h; cases h
      | ok v2 =>
        rw [h2] at h
        dsimp only at h
        rcases constructSimple_ok h2 with ⟨cs, rfl, -⟩ | ⟨-, -, -, js, b, l2, rfl, -⟩
        · exact absurd trivial hi.keeps.2
        · rw [show View.colsOut (View.simple (SimpleView.columns cols js b)) = cols from rfl] at h
          cases h3 : constructLoop W cols post with
          | error e => rw [h3] at h; cases h
          | ok y =>
            obtain ⟨us, o⟩ := y
            rw [h3] at h
            cases h
            refine ⟨.simple (.columns cols js b) :: .simple (.columns cols is a) :: us, ?_, swap_views ?_ ?_ us⟩
            · rw [constructLoop.eq_2]
              unfold constructView
              dsimp only
              rw [h2]
              dsimp only
              rw [show View.colsOut (View.simple (SimpleView.columns cols js b)) = cols from rfl, constructLoop.eq_2]
              unfold constructView
              dsimp only
              rw [h1]
              dsimp only
              rw [show View.colsOut (View.simple (SimpleView.columns cols is a)) = cols from rfl, h3]
            · intro i hi1 hi2
              obtain ⟨c, c1, c2⟩ := located_at l1 hi1
              obtain ⟨d, d1, d2⟩ := located_at l2 hi2
              rw [c2] at d2
              cases d2
              exact hi.columns c c1 d1
            · rcases hi.settled with hs | hs
              · exact .inl (act_still h1 hs)
              · exact .inr (act_still h2 hs)

theorem loop_reordered {W : Outside σ Val} {fs fs' : List (FilterCfg Val)} (hr : Reordered fs fs') {cols out : List Str}
    {vs : List (View Val)} (h : constructLoop W cols fs = .ok (vs, out)) :
    ∃ vs', constructLoop W cols fs' = .ok (vs', out) ∧ SameViews W vs vs' := by
  induction hr generalizing vs with
  | refl fs => exact ⟨vs, h, fun _ _ _ h => h⟩
  | @swap pre post f g hi =>
    induction pre generalizing cols vs with
    | nil => exact loop_swap hi h
    | cons q pre ih =>
      rw [List.cons_append, constructLoop.eq_2] at h
      rw [List.cons_append, constructLoop.eq_2]
      cases h1 : constructView W cols q with
      | error e => rw [h1] at h; cases h
      | ok v =>
        rw [h1] at h
        dsimp only at h ⊢
        split at h
        · cases h
        · rename_i us o h2
          cases h
          obtain ⟨us', h3, h4⟩ := ih h2
          exact ⟨v :: us', by rw [h3], h4.cons v⟩
  | trans _ _ ih1 ih2 =>
    obtain ⟨vs1, h1, h2⟩ := ih1 h
    obtain ⟨vs2, h3, h4⟩ := ih2 h1
    exact ⟨vs2, h3, fun _ _ _ h => h4 _ _ _ (h2 _ _ _ h)⟩

theorem filter_reordered {W : Outside σ Val} {fs fs' : List (FilterCfg Val)} (hr : Reordered fs fs') {cols : List Str} {ch : Chain Val}
    (h : constructFilter W cols fs = .ok ch) :
    ∃ vs', constructFilter W cols fs' = .ok { ch with views := vs' } ∧ SameViews W ch.views vs' := by
  unfold constructFilter at h ⊢
  split at h
  · cases h
  · rename_i vs out h1
    cases h
    obtain ⟨vs', h2, h3⟩ := loop_reordered hr h1
    exact ⟨vs', by rw [h2], h3⟩

theorem reordered_length {fs fs' : List (FilterCfg Val)} (hr : Reordered fs fs') : fs'.length = fs.length := by
  induction hr with
  | refl => rfl
  | swap => simp
  | trans _ _ h1 h2 => rw [h2, h1]

theorem reordered_dget {fs fs' : Dict Str (List (FilterCfg Val))} (hr : ReorderedAll fs fs') (n : Str) :
    Reordered ((dget fs n).getD []) ((dget fs' n).getD []) := by
  unfold ReorderedAll at hr
  induction hr with
  | nil => exact .refl _
  | @cons a b l l' h _ ih =>
    obtain ⟨n1, f1⟩ := a
    obtain ⟨n2, f2⟩ := b
    obtain ⟨e, h⟩ := h
    dsimp only at e h
    subst e
    simp only [dget]
    split
    · exact h
    · exact ih

theorem validate_reordered {W : Outside σ Val} {T : Tables} {fs fs' : Dict Str (List (FilterCfg Val))} (hr : ReorderedAll fs fs')
    (h : validateFilters W T fs = .ok ()) : validateFilters W T fs' = .ok () := by
  unfold ReorderedAll at hr
  induction hr with
  | nil => rfl
  | @cons a b l l' hab _ ih =>
    obtain ⟨n1, f1⟩ := a
    obtain ⟨n2, f2⟩ := b
    obtain ⟨e, hab⟩ := hab
    dsimp only at e hab
    subst e
    have hl := reordered_length hab
    unfold validateFilters at h ⊢
    by_cases he : f1.isEmpty = true
    · rw [if_pos he] at h
      rw [if_pos (by rw [List.isEmpty_iff, ← List.length_eq_zero_iff, hl, List.length_eq_zero_iff, ← List.isEmpty_iff]; exact he)]
      exact ih h
    · rw [if_neg he] at h
      rw [if_neg (by rw [List.isEmpty_iff, ← List.length_eq_zero_iff, hl, List.length_eq_zero_iff, ← List.isEmpty_iff]; exact he)]
      split at h
      · cases h
      · split at h
        · exact ih h
        · split at h
          · cases h
          · rename_i ch hch
            obtain ⟨vs', h1, -⟩ := filter_reordered hab hch
            rw [h1]
            exact ih h

theorem outRow_same {W : Outside σ Val} {o : OutPlan} {vs' : List (View Val)} (h : SameViews W o.views vs') {x : List Val × Nat} {s : σ} {y : List Val × σ}
    (hy : outRow W o x s = .ok y) : outRow W { o with views := vs' } x s = .ok y := by
  unfold outRow at hy ⊢
  split at hy
  · cases hy
  · rename_i row s1 h1
    dsimp only
    rw [h _ _ _ h1]
    exact hy

theorem outPlan_same {W : Outside σ Val} {x : OutInput} {o : OutPlan} {vs' : List (View Val)} (h : SameViews W x.chain.views vs') (ho : outPlan x = .ok o) :
    ∃ us, outPlan { x with chain := { x.chain with views := vs' } } = .ok { o with views := us } ∧ SameViews W o.views us := by
  unfold outPlan at ho ⊢
  dsimp only at ho ⊢
  split at ho
  · cases ho
  · rename_i hm
    rw [if_neg hm]
    cases ho
    by_cases hc : x.chain.colsOut.filter (fun c => decide (c ∈ x.dest.computed)) = []
    · simp only [if_pos hc]
      exact ⟨vs', rfl, h⟩
    · simp only [if_neg hc]
      exact ⟨_, rfl, h.append _⟩

section
variable {E : Type} {W : Outside σ Val} {flush : List (List Val) → E → Except OutErr E} {o : OutPlan} {us : List (View Val)} (hu : SameViews W o.views us)
include hu

theorem writeStep_same {st st' : WState σ E} {x : List Val × Nat} (h : writeStep W flush o st x = .ok st') :
    writeStep W flush { o with views := us } st x = .ok st' := by
  unfold writeStep at h ⊢
  cases h1 : outRow W o x st.world with
  | error e => rw [h1] at h; cases h
  | ok y =>
    rw [h1] at h
    rw [outRow_same hu h1]
    exact h

theorem writeLoop_same : ∀ {xs : List (List Val × Nat)} {st st' : WState σ E}, writeLoop W flush o xs st = .ok st' →
    writeLoop W flush { o with views := us } xs st = .ok st'
  | [], _, _, h => h
  | x :: xs, st, st', h => by
    unfold writeLoop at h ⊢
    cases h1 : writeStep W flush o st x with
    | error e => rw [h1] at h; cases h
    | ok y =>
      rw [h1] at h
      rw [writeStep_same hu h1]
      exact writeLoop_same h

theorem writeAll_same {rows : List (List Val)} {d : E} {s : σ} {st : WState σ E} (h : writeAll W flush o rows d s = .ok st) :
    writeAll W flush { o with views := us } rows d s = .ok st := by
  unfold writeAll at h ⊢
  cases h1 : writeLoop W flush o (copies o.multiplier rows) ⟨[], d, .null, s, []⟩ with
  | error e => rw [h1] at h; cases h
  | ok y =>
    rw [h1] at h
    rw [writeLoop_same hu h1]
    exact h

omit hu in
theorem directoryLoop_same (hu : SameViews W o.views us) : ∀ {xs : List (List Val × Nat)} {s : σ}, (directoryLoop W o xs s).2.2 = none →
    directoryLoop W { o with views := us } xs s = directoryLoop W o xs s
  | [], _, _ => rfl
  | x :: xs, s, h => by
    unfold directoryLoop at h ⊢
    cases h1 : outRow W o x s with
    | error e => rw [h1] at h; cases h
    | ok y =>
      obtain ⟨row, s1⟩ := y
      rw [h1] at h
      rw [outRow_same hu h1]
      dsimp only at h ⊢
      rw [directoryLoop_same hu h]
end

/-- `read'` gives the jobs of `read` with other views that do the same. -/
def Reviewed (W : Outside σ Val) (read read' : Str → Except RunErr (Option TableJob)) (n : Str) : Prop :=
  (read n = .ok none → read' n = .ok none) ∧ ∀ j, read n = .ok (some j) → ∃ vs', SameViews W j.input.chain.views vs' ∧
    read' n = .ok (some { j with input := { j.input with chain := { j.input.chain with views := vs' } } })

theorem copyAll_same {W : Outside σ Val} {dialect : Dialect} {read read' : Str → Except RunErr (Option TableJob)} (hr : ∀ n, Reviewed W read read' n) :
    ∀ {ns : List Str} {h : List DbState} {s : σ},
      (copyAll W dialect read ns h s).2.2 = none → copyAll W dialect read' ns h s = copyAll W dialect read ns h s
  | [], _, _, _ => rfl
  | n :: ns, h, s, g => by
    obtain ⟨r1, r2⟩ := hr n
    rw [copyAll.eq_2] at g
    rw [copyAll.eq_2, copyAll.eq_2]
    cases h1 : read n with
    | error e => rw [h1] at g; cases g
    | ok oj =>
      rw [h1] at g
      cases oj with
      | none => rw [r1 h1]; exact copyAll_same hr g
      | some j =>
        obtain ⟨vs', hs, e⟩ := r2 j h1
        rw [e]
        dsimp only at g ⊢
        cases h2 : outPlan j.input with
        | error e => rw [h2] at g; cases g
        | ok o =>
          obtain ⟨us, e2, hu⟩ := outPlan_same hs h2
          rw [h2] at g
          rw [e2]
          dsimp only at g ⊢
          cases h3 : writeAll W (flushTo dialect j.strategy j.key j.input.dest o.colsOut) o j.rows h s with
          | error e => rw [h3] at g; cases g
          | ok w =>
            rw [h3] at g
            rw [writeAll_same hu h3]
            dsimp only at g ⊢
            rw [copyAll_same hr g]

theorem start_reordered {fs : Dict Str (List (FilterCfg Val))} (hfs : ReorderedAll C.filters fs) {r : Started} (h : startRun C D p = .ok r) :
    startRun { C with filters := fs } D p = .ok r := by
  unfold startRun at h ⊢
  split at h
  · cases h
  · cases h
  · rename_i l hl
    dsimp only at h ⊢
    split at h
    · cases h
    · rename_i hv
      rw [validate_reordered hfs hv]
      exact h

theorem read_reordered {fs : Dict Str (List (FilterCfg Val))} (hfs : ReorderedAll C.filters fs) {r : Started} {x : DestMeta}
    {offs : Dict Key (Dict Str Int)} {compact : Dict Key (List Str)} {temps : Temps} (n : Str) :
    Reviewed D.world (readTable C D r x offs compact p temps) (readTable { C with filters := fs } D r x offs compact p temps) n := by
  unfold Reviewed readTable
  cases parseTableName n with
  | none => exact ⟨fun h => (nomatch h), fun _ h => (nomatch h)⟩
  | some k =>
    dsimp only
    cases dget p.queries n with
    | none => exact ⟨fun _ => rfl, fun _ h => (nomatch h)⟩
    | some q =>
      dsimp only
      cases copyRows D.engine r.tables D.le C.compact.startKey compact D.src D.reopen temps k q with
      | error e => exact ⟨fun h => (nomatch h), fun _ h => (nomatch h)⟩
      | ok rows =>
        dsimp only
        cases dget r.tables k with
        | none => exact ⟨fun h => (nomatch h), fun _ h => (nomatch h)⟩
        | some t =>
          dsimp only
          unfold tableJob
          dsimp only
          cases hch : constructFilter D.world t.columns ((dget C.filters n).getD []) with
          | error e => exact ⟨fun h => (nomatch h), fun _ h => (nomatch h)⟩
          | ok ch =>
            obtain ⟨vs', h1, h2⟩ := filter_reordered (reordered_dget hfs n) hch
            rw [h1]
            dsimp only
            cases remapTable C.remap k with
            | none => exact ⟨fun h => (nomatch h), fun _ h => (nomatch h)⟩
            | some kd =>
              dsimp only
              cases dget x.tables kd with
              | none => exact ⟨fun h => (nomatch h), fun _ h => (nomatch h)⟩
              | some td =>
                refine ⟨fun h => (nomatch h), fun j hj => ?_⟩
                cases hj
                exact ⟨vs', h2, rfl⟩

theorem sample_reordered {fs : Dict Str (List (FilterCfg Val))} (hfs : ReorderedAll C.filters fs) {S : DbState} {s : σ}
    (h : (sample C D p S s).err = none) : sample { C with filters := fs } D p S s = sample C D p S s := by
  unfold sample at h ⊢
  cases h1 : startRun C D p with
  | error e => rw [h1] at h; cases h
  | ok r =>
    rw [h1] at h
    rw [start_reordered hfs h1]
    dsimp only at h ⊢
    rw [show createStep { C with filters := fs } D r = createStep C D r from rfl]
    cases h2 : createStep C D r with
    | error e => rfl
    | ok y =>
      obtain ⟨db, x⟩ := y
      rw [h2] at h
      dsimp only at h ⊢
      cases h3 : insertOrder x with
      | error e => rfl
      | ok order =>
        rw [h3] at h
        dsimp only at h ⊢
        rw [show truncateStep { C with filters := fs } x S = truncateStep C x S from rfl]
        cases h4 : truncateStep C x S with
        | error e => rfl
        | ok states =>
          rw [h4] at h
          dsimp only at h ⊢
          rw [show prepareStep { C with filters := fs } r.tables x ((states.reverse ++ [S]).head?.getD S) p =
            prepareStep C r.tables x ((states.reverse ++ [S]).head?.getD S) p from rfl]
          cases h5 : prepareStep C r.tables x ((states.reverse ++ [S]).head?.getD S) p with
          | error e => rfl
          | ok offs =>
            rw [h5] at h
            dsimp only at h ⊢
            cases h6 : getCompactColumns r.tables p.passthrough C.compact with
            | error e => rfl
            | ok compact =>
              rw [h6] at h
              dsimp only at h ⊢
              cases h7 : materializationOrder r.tables compact p with
              | error e => rfl
              | ok mat =>
                rw [h7] at h
                dsimp only at h ⊢
                cases h8 : materialize D.engine r.tables D.src D.reopen p mat [] with
                | error e => rfl
                | ok temps =>
                  rw [h8] at h
                  dsimp only at h ⊢
                  rw [copyAll_same (fun n => read_reordered hfs n) h]

/-! ### Directories -/

theorem copyFiles_same {fs : Dict Str (List (FilterCfg Val))} {mult : Dict Str (List Str)} {read read' : Str → Except RunErr (Option (Key × Chain Val × List (List Val)))}
    (hr : ∀ n, (read n = .ok none → read' n = .ok none) ∧ ∀ k ch rows, read n = .ok (some (k, ch, rows)) →
      ∃ vs', SameViews D.world ch.views vs' ∧ read' n = .ok (some (k, { ch with views := vs' }, rows))) :
    ∀ {ns : List Str} {F : Files} {s : σ}, (copyFiles C D mult read ns F s).2 = none →
      copyFiles { C with filters := fs } D mult read' ns F s = copyFiles C D mult read ns F s
  | [], _, _, _ => rfl
  | n :: ns, F, s, g => by
    obtain ⟨r1, r2⟩ := hr n
    rw [copyFiles.eq_2] at g
    rw [copyFiles.eq_2, copyFiles.eq_2]
    cases h1 : read n with
    | error e => rw [h1] at g; cases g
    | ok oj =>
      rw [h1] at g
      cases oj with
      | none => rw [r1 h1]; exact copyFiles_same hr g
      | some y =>
        obtain ⟨k, ch, rows⟩ := y
        obtain ⟨vs', hs, e⟩ := r2 k ch rows h1
        rw [e]
        dsimp only at g ⊢
        have hd : (directoryOutput D.world ch (if (dget mult n).isNone then 1 else C.mult.multiplier.toNat) ((dget mult n).getD []) rows s).2.2 = none →
            directoryOutput D.world { ch with views := vs' } (if (dget mult n).isNone then 1 else C.mult.multiplier.toNat) ((dget mult n).getD []) rows s =
              directoryOutput D.world ch (if (dget mult n).isNone then 1 else C.mult.multiplier.toNat) ((dget mult n).getD []) rows s := by
          intro hn
          unfold directoryOutput at hn ⊢
          exact directoryLoop_same (us := vs') hs hn
        generalize directoryOutput D.world ch (if (dget mult n).isNone then 1 else C.mult.multiplier.toNat) ((dget mult n).getD []) rows s = z at hd g ⊢
        obtain ⟨lines, s1, err⟩ := z
        cases err with
        | some e => cases g
        | none =>
          rw [hd rfl]
          exact copyFiles_same hr g

theorem directory_reordered {fs : Dict Str (List (FilterCfg Val))} (hfs : ReorderedAll C.filters fs) {F : Files} {s : σ}
    (h : (sampleDirectory C D p F s).2 = none) :
    sampleDirectory { C with filters := fs } D p F s = sampleDirectory C D p F s := by
  unfold sampleDirectory at h ⊢
  cases h1 : fromEngine D.fnmatch D.srcDb (dkeys p.queries) false false with
  | none => rfl
  | some l =>
    cases l with
    | none => rfl
    | some l =>
      rw [h1] at h
      dsimp only at h ⊢
      cases h2 : validateFilters D.world (inferStep C.infer l.tables) C.filters with
      | error e => rw [h2] at h; cases h
      | ok u =>
        rw [h2] at h
        rw [validate_reordered hfs h2]
        dsimp only at h ⊢
        cases h3 : multipliedColumns (inferStep C.infer l.tables) C.mult p.passthrough (dkeys p.queries) with
        | error e => rfl
        | ok mult =>
          rw [h3] at h
          dsimp only at h ⊢
          cases h4 : getCompactColumns (inferStep C.infer l.tables) p.passthrough C.compact with
          | error e => rfl
          | ok compact =>
            rw [h4] at h
            dsimp only at h ⊢
            cases h5 : materializationOrder (inferStep C.infer l.tables) compact p with
            | error e => rfl
            | ok mat =>
              rw [h5] at h
              dsimp only at h ⊢
              cases h6 : materialize D.engine (inferStep C.infer l.tables) D.src D.reopen p mat [] with
              | error e => rfl
              | ok temps =>
                rw [h6] at h
                dsimp only at h ⊢
                refine copyFiles_same (fun n => ?_) h
                unfold readRows
                cases parseTableName n with
                | none => exact ⟨fun h => (nomatch h), fun _ _ _ h => (nomatch h)⟩
                | some k =>
                  dsimp only
                  cases dget p.queries n with
                  | none => exact ⟨fun _ => rfl, fun _ _ _ h => (nomatch h)⟩
                  | some q =>
                    dsimp only
                    cases copyRows D.engine (inferStep C.infer l.tables) D.le C.compact.startKey compact D.src D.reopen temps k q with
                    | error e => exact ⟨fun h => (nomatch h), fun _ _ _ h => (nomatch h)⟩
                    | ok rows =>
                      dsimp only
                      cases dget (inferStep C.infer l.tables) k with
                      | none => exact ⟨fun h => (nomatch h), fun _ _ _ h => (nomatch h)⟩
                      | some t =>
                        dsimp only
                        cases hch : constructFilter D.world t.columns ((dget C.filters n).getD []) with
                        | error e => exact ⟨fun h => (nomatch h), fun _ _ _ h => (nomatch h)⟩
                        | ok ch =>
                          obtain ⟨vs', g1, g2⟩ := filter_reordered (reordered_dget hfs n) hch
                          rw [g1]
                          refine ⟨fun h => (nomatch h), fun _ _ _ hj => ?_⟩
                          cases hj
                          exact ⟨vs', g2, rfl⟩

end Subsetter
