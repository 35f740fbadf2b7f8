import Verif.Spec.SameOutput
import Verif.Proofs.RunDirectory
import Verif.Props.Run

/- Lemmas for C96. -/
namespace Subsetter
open Spec Props

variable {σ : Type} {C : RunConfig} {D : Setting σ} {p : Plan}

/-! ### Settled filters -/

/-- A step whose result does not depend on the outside world. -/
def Steady {α : Type} (f : σ → Except FilterErr (α × σ)) : Prop :=
  ∀ s s' a a' t t', f s = .ok (a, t) → f s' = .ok (a', t') → a = a'

theorem columns_steady {V : Type} {W : Outside σ V} {cols : List Str} {is : List Nat} {a : Act V}
    (ha : ∀ vals, Steady (a.run W vals)) (vals : List V) : Steady ((SimpleView.columns cols is a).run W vals) := by
  intro s s' x x' t t' h h'
  unfold SimpleView.run at h h'
  dsimp only at h h'
  cases h1 : pick vals is with
  | error e => rw [h1] at h; cases h
  | ok old =>
    rw [h1] at h h'; dsimp only at h h'
    cases h2 : a.run W old s with
    | error e => rw [h2] at h; cases h
    | ok y =>
      cases h3 : a.run W old s' with
      | error e => rw [h3] at h'; cases h'
      | ok y' =>
        rw [h2] at h; rw [h3] at h'
        cases h; cases h'
        rw [ha old s s' y.1 y'.1 y.2 y'.2 h2 h3]

theorem simple_steady {V : Type} {W : Outside σ V} {cols : List Str} {c : SimpleCfg V} {v : SimpleView V}
    (h : constructSimple W cols c = .ok v) (hc : SimpleCfg.Settled c) (vals : List V) : Steady (v.run W vals) := by
  cases c with
  | zero cs =>
    obtain ⟨-, -, is, -, rfl⟩ := mkColumns_ok h
    refine columns_steady (fun vals s s' a a' t t' h h' => ?_) vals
    unfold Act.run at h h'
    dsimp only at h h'
    cases h1 : zeroAll W vals with
    | error e => rw [h1] at h; cases h
    | ok zs => rw [h1] at h h'; cases h; cases h'; rfl
  | «omit» cs =>
    cases h
    intro s s' a a' t t' h h'
    unfold mkOmit SimpleView.run at h h'
    dsimp only at h h'
    split at h
    · cases h
    · rename_i h1
      rw [h1] at h'
      cases h; cases h'; rfl
  | null cs =>
    obtain ⟨-, -, is, -, rfl⟩ := mkColumns_ok h
    refine columns_steady (fun vals s s' a a' t t' h h' => ?_) vals
    cases h; cases h'; rfl
  | constant cs vs =>
    unfold constructSimple at h
    dsimp only at h
    split at h
    · cases h
    · rename_i v' hv
      obtain ⟨-, -, is, -, rfl⟩ := mkColumns_ok hv
      split at h
      · cases h
        refine columns_steady (fun vals s s' a a' t t' h h' => ?_) vals
        cases h; cases h'; rfl
      · cases h
  | _ => cases hc

theorem conds_steady {V : Type} {W : Outside σ V} {cols : List Str} :
    ∀ {cs : List (Nat × SimpleCfg V)} {vs : List (Nat × SimpleView V)}, constructConds W cols cs = .ok vs →
    (∀ x ∈ cs, SimpleCfg.Settled x.2) → ∀ (x : V) (vals : List V), Steady fun s => runConds W x vals s vs
  | [], vs, h, _, x, vals => by
    cases h
    intro s s' a a' t t' h h'
    cases h; cases h'; rfl
  | (n, c) :: cs, vs, h, hs, x, vals => by
    unfold constructConds at h
    split at h
    · cases h
    · rename_i v hv
      split at h
      · cases h
      · rename_i vs' hvs
        cases h
        intro s s' a a' t t' h h'
        dsimp only at h h'
        unfold runConds at h h'
        cases h1 : W.holds n x with
        | error e => rw [h1] at h; cases h
        | ok b =>
          rw [h1] at h h'
          cases b with
          | true => exact simple_steady hv (hs (n, c) (List.mem_cons_self ..)) vals s s' a a' t t' h h'
          | false => exact conds_steady hvs (fun y hy => hs y (by simp [hy])) x vals s s' a a' t t' h h'

theorem view_steady {V : Type} {W : Outside σ V} {cols : List Str} {f : FilterCfg V} {v : View V}
    (h : constructView W cols f = .ok v) (hf : FilterCfg.Settled f) (vals : List V) : Steady (v.run W vals) := by
  cases f with
  | simple c =>
    unfold constructView at h
    dsimp only at h
    split at h
    · cases h
    · rename_i w hw
      cases h
      exact simple_steady hw hf vals
  | multiplex column conds =>
    unfold constructView at h
    dsimp only at h
    split at h
    · cases h
    · rename_i i hi
      split at h
      · cases h
      · rename_i vs hvs
        split at h
        · cases h
          intro s s' a a' t t' h h'
          unfold View.run at h h'
          dsimp only at h h'
          cases h1 : vals[i]? with
          | none => rw [h1] at h; cases h
          | some x =>
            rw [h1] at h h'
            exact conds_steady hvs hf x vals s s' a a' t t' h h'
        · cases h

theorem loop_steady {V : Type} {W : Outside σ V} : ∀ {fs : List (FilterCfg V)} {cols out : List Str} {vs : List (View V)},
    constructLoop W cols fs = .ok (vs, out) → (∀ f ∈ fs, FilterCfg.Settled f) → ∀ vals : List V, Steady (runViews W vs vals)
  | [], cols, out, vs, h, _, vals => by
    cases h
    intro s s' a a' t t' h h'
    cases h; cases h'; rfl
  | f :: fs, cols, out, vs, h, hs, vals => by
    unfold constructLoop at h
    split at h
    · cases h
    · rename_i v hv
      split at h
      · cases h
      · rename_i vs' out' hvs
        cases h
        intro s s' a a' t t' h h'
        unfold runViews at h h'
        cases h1 : v.run W vals s with
        | error e => rw [h1] at h; cases h
        | ok y =>
          cases h2 : v.run W vals s' with
          | error e => rw [h2] at h'; cases h'
          | ok y' =>
            rw [h1] at h; rw [h2] at h'
            dsimp only at h h'
            rw [← view_steady hv (hs f (by simp)) vals s s' y.1 y'.1 y.2 y'.2 h1 h2] at h'
            exact loop_steady hvs (fun g hg => hs g (by simp [hg])) y.1 y.2 y'.2 a a' t t' h h'

theorem chain_steady {V : Type} {W : Outside σ V} {cols : List Str} {fs : List (FilterCfg V)} {ch : Chain V}
    (h : constructFilter W cols fs = .ok ch) (hs : ∀ f ∈ fs, FilterCfg.Settled f) (vals : List V) :
    Steady (ch.run W vals) := by
  unfold constructFilter at h
  split at h
  · cases h
  · rename_i hl
    cases h
    exact loop_steady hl hs vals

/-! ### Copies -/

theorem outVal_shift (mult : List Str) (m i : Int) (offs : Dict Str Int) (c : Str) (v : Val) :
    outVal mult m i offs c v = shiftVal (dget offs c) (outVal mult m i [] c v) := by
  unfold outVal
  generalize (if c ∈ mult then copyVal m i v else v) = w
  cases w <;> simp [shiftVal, dget]

/-- The line and the written row of the same copy. -/
theorem copies_agree {W : Outside σ Val} {ch : Chain Val} {vals : List Val} (hs : Steady (ch.run W vals)) {cols mult : List Str}
    (hcols : ∀ c ∈ cols, c ∈ ch.colsOut) {m i : Nat} {offs : Dict Str Int} {s t s' t' : σ} {out out' : List Val}
    (h : IsCopy W ch cols mult m offs vals i s out t) (h' : IsCopy W ch ch.colsOut mult m [] vals i s' out' t') :
    ∀ c ∈ cols, ∃ v, valueOf ch.colsOut out' c = some v ∧ valueOf cols out c = some (shiftVal (dget offs c) v) := by
  obtain ⟨f, h1, -, h2⟩ := h
  obtain ⟨f', h3, -, h4⟩ := h'
  have := hs s s' f f' t t' h1 h3
  subst this
  intro c hc
  obtain ⟨v, g1, g2⟩ := h2 c hc
  obtain ⟨v', g3, g4⟩ := h4 c (hcols c hc)
  rw [g1] at g3
  cases g3
  exact ⟨_, g4, by rw [g2, outVal_shift]⟩

/-- Two lists of first copies of the same rows, compared one by one. -/
theorem firstCopies_forall₂ {ρ ο ο' : Type} {step : ρ → Nat → σ → ο → σ → Prop} {step' : ρ → Nat → σ → ο' → σ → Prop}
    {R : ο → ο' → Prop} (hR : ∀ r i s t o s' t' o', step r i s o t → step' r i s' o' t' → R o o') {m : Nat} {rows : List ρ}
    {s s' : σ} {outs : List ο} {outs' : List ο'} (h : FirstCopies step m rows s outs) (h' : FirstCopies step' m rows s' outs')
    (hl : outs.length = rows.length * m) (hl' : outs'.length = rows.length * m) : List.Forall₂ R outs outs' := by
  rw [List.forall₂_iff_get]
  refine ⟨hl.trans hl'.symm, fun x h1 h2 => ?_⟩
  obtain ⟨-, ss, -, g⟩ := h
  obtain ⟨-, ss', -, g'⟩ := h'
  have hx : x < rows.length * m := hl ▸ h1
  have hm : 0 < m := Nat.pos_of_ne_zero fun e => by subst e; simp at hx
  have hk : x / m < rows.length := (Nat.div_lt_iff_lt_mul hm).2 hx
  have hi : x % m < m := Nat.mod_lt _ hm
  have e : x / m * m + x % m = x := Nat.div_add_mod' x m
  have hr : rows[x / m]? = some rows[x / m] := List.getElem?_eq_getElem hk
  have a := g (x / m) (x % m) _ outs[x] hr hi (by rw [e]; exact List.getElem?_eq_getElem h1)
  have a' := g' (x / m) (x % m) _ outs'[x] hr hi (by rw [e]; exact List.getElem?_eq_getElem h2)
  exact hR _ _ _ _ _ _ _ _ a a'

theorem zip_of_maps {α β : Type} : ∀ {l : List (α × β)} {a : List α} {b : List β}, l.map Prod.fst = a → l.map Prod.snd = b →
    l = a.zip b
  | [], _, _, h, h' => by subst h; rfl
  | x :: l, _, _, h, h' => by
    subst h; subst h'
    simp only [List.map_cons, List.zip_cons_cons]
    rw [← zip_of_maps (l := l) rfl rfl]

theorem forall₂_left {α β : Type} {R : α → β → Prop} : ∀ {l : List α} {l' : List β}, List.Forall₂ R l l' → ∀ {a}, a ∈ l →
    ∃ b ∈ l', R a b
  | _, _, .cons h _, _, .head _ => ⟨_, .head _, h⟩
  | _, _, .cons _ hs, _, .tail _ ha => by
    obtain ⟨b, h1, h2⟩ := forall₂_left hs ha
    exact ⟨b, .tail _ h1, h2⟩

theorem forall₂_trans {α β γ : Type} {R : α → β → Prop} {Q : β → γ → Prop} {P : α → γ → Prop}
    (h : ∀ a b c, R a b → Q b c → P a c) : ∀ {l : List α} {l' : List β} {l'' : List γ}, List.Forall₂ R l l' →
    List.Forall₂ Q l' l'' → List.Forall₂ P l l''
  | _, _, _, .nil, .nil => .nil
  | _, _, _, .cons h1 h2, .cons h3 h4 => .cons (h _ _ _ h1 h3) (forall₂_trans h h2 h4)

theorem forall₂_eq_of {α : Type} {R : α → α → Prop} : ∀ {l l' : List α}, (∀ a ∈ l, ∀ b, R a b → a = b) →
    List.Forall₂ R l l' → l = l'
  | _, _, _, .nil => rfl
  | _, _, h, .cons h1 h2 => by
    rw [h _ (by simp) _ h1, forall₂_eq_of (fun a ha => h a (by simp [ha])) h2]

/-- A row is determined by its columns and their values. -/
theorem dict_ext : ∀ {a b : Row}, dkeys a = dkeys b → (dkeys a).Nodup → (∀ c ∈ dkeys a, b.get c = a.get c) → a = b
  | [], [], _, _, _ => rfl
  | [], _ :: _, h, _, _ => by cases h
  | _ :: _, [], h, _, _ => by cases h
  | (c, v) :: a, (c', v') :: b, h, hnd, hv => by
    simp only [dkeys, List.map_cons, List.cons.injEq] at h
    obtain ⟨rfl, h⟩ := h
    simp only [dkeys, List.map_cons, List.nodup_cons] at hnd
    have h1 := hv c (by simp [dkeys])
    simp only [Row.get, dget, List.find?_cons_of_pos, beq_self_eq_true, if_true, Option.map_some, Option.getD_some] at h1
    subst h1
    rw [dict_ext (a := a) (b := b) h hnd.2 fun d hd => ?_]
    have hne : d ≠ c := fun e => hnd.1 (e ▸ hd)
    have := hv d (by simp only [dkeys, List.map_cons, List.mem_cons]; exact .inr hd)
    simpa [Row.get, dget, hne, hne.symm] using this

end Subsetter
