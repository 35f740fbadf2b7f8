import Verif.Spec.Random
import Verif.Proofs.Filters

namespace Subsetter
open Spec

variable {σ : Type} {W : Outside σ Val} {R : Rng σ}

theorem randint_ok {low high : Int} {s s' : σ} {i : Int} (h : randint R low high s = .ok (i, s')) : low ≤ i ∧ i ≤ high := by
  unfold randint at h
  dsimp only at h
  split at h
  · rename_i hw
    have h1 := R.below_lt (high + 1 - low).toNat s (by omega)
    have h2 : low + ((R.below (high + 1 - low).toNat s).1 : Int) = i := (Prod.mk.inj (Except.ok.inj h)).1
    omega
  · cases h

theorem randint_total {low high : Int} (h : low ≤ high) (s : σ) : ∃ x, randint R low high s = .ok x := by
  unfold randint
  dsimp only
  rw [if_pos (by omega)]
  exact ⟨_, rfl⟩

theorem randint_empty {low high : Int} (h : high < low) (s : σ) : randint R low high s = .error emptyRange := by
  unfold randint
  dsimp only
  rw [if_neg (by omega)]

theorem choices_spec {a : Str} (ha : a ≠ []) : ∀ (k : Nat) (s : σ), (choices R a k s).1.length = k ∧ ∀ d ∈ (choices R a k s).1, d ∈ a
  | 0, s => ⟨rfl, by simp [choices]⟩
  | k + 1, s => by
    obtain ⟨h1, h2⟩ := choices_spec ha k (R.below a.length s).2
    have h3 := R.below_lt a.length s (List.length_pos_iff.2 ha)
    refine ⟨by simp only [choices, List.length_cons, h1], fun d hd => ?_⟩
    simp only [choices, List.mem_cons] at hd
    rcases hd with rfl | hd
    · rw [List.getD_eq_getElem?_getD, List.getElem?_eq_getElem h3]; exact List.getElem_mem h3
    · exact h2 d hd

theorem alphabet_in {a : Alphabet} {custom : Option Str} {s : Str} (h : alphabetOf a custom = some s) :
    ∀ d ∈ s, InAlphabet custom a d := by
  cases a with
  | custom => intro d hd; exact ⟨s, h, hd⟩
  | _ => cases h; simp only [InAlphabet]; decide +kernel

theorem place_get {V : Type} {j k : Nat} {v : V} : ∀ {is : List Nat} {new vals : List V}, is.Nodup → is[j]? = some k →
    new[j]? = some v → k < vals.length → (place vals is new)[k]? = some v := by
  induction j with
  | zero =>
    intro is new vals hnd h1 h2 hk
    cases is with
    | nil => cases h1
    | cons i is =>
      cases new with
      | nil => cases h2
      | cons w new =>
        simp only [List.getElem?_cons_zero, Option.some.injEq] at h1 h2
        subst h1 h2
        unfold place
        rw [place_other (List.nodup_cons.1 hnd).1, List.getElem?_set_self hk]
  | succ j ih =>
    intro is new vals hnd h1 h2 hk
    cases is with
    | nil => cases h1
    | cons i is =>
      cases new with
      | nil => cases h2
      | cons w new =>
        unfold place
        exact ih (List.nodup_cons.1 hnd).2 h1 h2 (by simpa using hk)

theorem draws_all {V : Type} {W : Outside σ V} {g : GenKind} {P : V → Prop} (hg : ∀ s v s', W.gen g s = .ok (v, s') → P v) :
    ∀ {n : Nat} {s s' : σ} {vs : List V}, draws W g n s = .ok (vs, s') → ∀ v ∈ vs, P v
  | 0, s, s', vs, h => by cases h; simp
  | n + 1, s, s', vs, h => by
    unfold draws at h
    cases h1 : W.gen g s with
    | error e => rw [h1] at h; cases h
    | ok p =>
      obtain ⟨v, s1⟩ := p
      rw [h1] at h
      dsimp only at h
      cases h2 : draws W g n s1 with
      | error e => rw [h2] at h; cases h
      | ok q =>
        obtain ⟨vs', s2⟩ := q
        rw [h2] at h; cases h
        intro w hw
        rcases List.mem_cons.1 hw with rfl | hw
        · exact hg _ _ _ h1
        · exact draws_all hg h2 w hw

theorem draws_total {V : Type} {W : Outside σ V} {g : GenKind} (hg : ∀ s, ∃ x, W.gen g s = .ok x) :
    ∀ (n : Nat) (s : σ), ∃ x, draws W g n s = .ok x
  | 0, s => ⟨_, rfl⟩
  | n + 1, s => by
    obtain ⟨⟨v, s'⟩, h1⟩ := hg s
    obtain ⟨⟨vs, s''⟩, h2⟩ := draws_total hg n s'
    exact ⟨_, by unfold draws; rw [h1]; dsimp only; rw [h2]⟩

theorem located_nodup {cols cs : List Str} {is : List Nat} (h : Located cols cs is) (hnd : cs.Nodup) : is.Nodup := by
  induction h with
  | nil => exact .nil
  | @cons c i cs is h1 h2 ih =>
    rw [List.nodup_cons] at hnd ⊢
    refine ⟨fun hi => ?_, ih hnd.2⟩
    obtain ⟨d, h3, h4⟩ := Located.name h2 hi
    rw [h1] at h4; cases h4
    exact hnd.1 h3

theorem located_get {cols cs : List Str} {is : List Nat} (h : Located cols cs is) {j : Nat} {c : Str} (hc : cs[j]? = some c) :
    ∃ k, is[j]? = some k ∧ cols[k]? = some c := by
  induction h generalizing j with
  | nil => cases hc
  | @cons d i cs is h1 h2 ih =>
    cases j with
    | zero => cases hc; exact ⟨i, rfl, h1⟩
    | succ j => exact ih hc

/-- The values a simple filter leaves in its columns. -/
theorem produces_simple (hW : W.none = .null) {g : SimpleCfg Val} {cols : List Str} {v : SimpleView Val}
    (h : constructSimple (withRandom W R) cols g = .ok v) {c : Str} (hc : c ∈ SimpleCfg.columns g)
    (ho : ¬ SimpleCfg.IsOmit g) {r out : List Val} (hl : r.length = cols.length) {s s' : σ}
    (hr : v.run (withRandom W R) r s = .ok (out, s')) :
    ∃ (k : Nat) (x : Val), cols[k]? = some c ∧ out[k]? = some x ∧ Produces c g x := by
  have key : ∀ {cs : List Str} {a : Act Val}, c ∈ cs → mkColumns cols cs a = .ok v → (∀ vs, a = .constant vs → vs.length = cs.length) →
      ∀ P : Nat → Val → Prop, (∀ old new s s', old.length = cs.length → a.run (withRandom W R) old s = .ok (new, s') →
        ∀ j : Nat, cs[j]? = some c → ∃ x, new[j]? = some x ∧ P j x) → ∃ (j k : Nat) (x : Val), cs[j]? = some c ∧ cols[k]? = some c ∧
        out[k]? = some x ∧ P j x := by
    intro cs a hcs hm hlen P hP
    obtain ⟨-, hnd, is, h1, rfl⟩ := mkColumns_ok hm
    simp only [SimpleView.run] at hr
    obtain ⟨old, h3, h4⟩ := pick_spec (vals := r) (fun i hi => by rw [hl]; exact h1.lt i hi)
    rw [h3] at hr
    dsimp only at hr
    cases h5 : a.run (withRandom W R) old s with
    | error e => rw [h5] at hr; cases hr
    | ok p =>
      obtain ⟨new, s1⟩ := p
      rw [h5] at hr; cases hr
      obtain ⟨j, hj, hj'⟩ := List.mem_iff_getElem.1 hcs
      have hjc : cs[j]? = some c := by rw [List.getElem?_eq_getElem hj, hj']
      obtain ⟨k, h6, h7⟩ := located_get h1 hjc
      obtain ⟨x, h8, h9⟩ := hP old new _ _ (by rw [← h4.length_eq, ← h1.length_eq]) h5 j hjc
      exact ⟨j, k, x, hjc, h7, place_get (located_nodup h1 hnd) h6 h8 (by rw [hl]; exact (List.getElem?_eq_some_iff.1 h7).1), h9⟩
  have inRange : ∀ {new : List Val} {cs : List Str} {P : Val → Prop}, new.length = cs.length → (∀ x ∈ new, P x) → ∀ j : Nat,
      cs[j]? = some c → ∃ x, new[j]? = some x ∧ P x := by
    intro new cs P h1 h2 j hj
    have : j < new.length := by rw [h1]; exact (List.getElem?_eq_some_iff.1 hj).1
    exact ⟨new[j], List.getElem?_eq_getElem this, h2 _ (List.getElem_mem this)⟩
  have trivially : ∀ {cs : List Str} {a : Act Val}, c ∈ cs → mkColumns cols cs a = .ok v → (∀ x, Produces c g x) →
      ∃ (k : Nat) (x : Val), cols[k]? = some c ∧ out[k]? = some x ∧ Produces c g x := by
    intro cs a hcs hm hP
    obtain ⟨-, hnd, is, h1, rfl⟩ := mkColumns_ok hm
    simp only [SimpleView.run] at hr
    obtain ⟨old, h3, h4⟩ := pick_spec (vals := r) (fun i hi => by rw [hl]; exact h1.lt i hi)
    rw [h3] at hr
    dsimp only at hr
    cases h5 : a.run (withRandom W R) old s with
    | error e => rw [h5] at hr; cases hr
    | ok p =>
      obtain ⟨new, s1⟩ := p
      rw [h5] at hr; cases hr
      obtain ⟨k, hk, hk'⟩ := List.mem_iff_getElem.1 (h1.mem c hcs)
      exact ⟨k, _, by rw [List.getElem?_eq_getElem hk, hk'], List.getElem?_eq_getElem (by rw [place_length, hl]; exact hk), hP _⟩
  cases g with
  | «omit» cs => exact absurd trivial ho
  | zero cs => exact trivially hc h fun _ => trivial
  | uuid cs => exact trivially hc h fun _ => trivial
  | fake cs w u => exact trivially hc h fun _ => trivial
  | randomFloat cs l u => exact trivially hc h fun _ => trivial
  | plugin cs p =>
    simp only [constructSimple] at h
    split at h
    · exact trivially hc h fun _ => trivial
    · cases h
  | null cs =>
    obtain ⟨j, k, x, -, h1, h2, h3⟩ := key hc h (by simp) (fun _ x => x = .null) (fun old new s s' hlen ha j hj => by
      cases ha
      refine inRange (cs := cs) (by rw [List.length_map]; exact hlen) (fun x hx => ?_) j hj
      obtain ⟨-, -, rfl⟩ := List.mem_map.1 hx
      exact hW)
    exact ⟨k, x, h1, h2, h3⟩
  | constant cs vs =>
    simp only [constructSimple] at h
    cases h1 : mkColumns cols cs (.constant vs) with
    | error e => rw [h1] at h; cases h
    | ok w =>
      rw [h1] at h
      dsimp only at h
      split at h
      · rename_i hlen
        cases h
        obtain ⟨j, k, x, h2, h3, h4, h5⟩ := key hc h1 (fun ws e => by cases e; exact hlen) (fun j x => vs[j]? = some x)
          (fun old new s s' _ ha j hj => by
            cases ha
            have : j < vs.length := by rw [hlen]; exact (List.getElem?_eq_some_iff.1 hj).1
            exact ⟨vs[j], List.getElem?_eq_getElem this, List.getElem?_eq_getElem this⟩)
        exact ⟨k, x, h3, h4, j, h2, h5⟩
      · cases h
  | randomInt cs l u =>
    obtain ⟨j, k, x, -, h1, h2, h3⟩ := key hc h (by simp) (fun _ x => Produces c (.randomInt cs l u) x)
      (fun old new s s' hlen ha j hj => by
        have ha' : draws (withRandom W R) (.randomInt l u) old.length s = .ok (new, s') := ha
        refine inRange (cs := cs) ((draws_length ha').trans hlen) (draws_all (fun s v s' hg => ?_) ha') j hj
        simp only [withRandom] at hg
        cases h4 : randint R l u s with
        | error e => rw [h4] at hg; cases hg
        | ok q => obtain ⟨i, s1⟩ := q; rw [h4] at hg; cases hg; exact ⟨i, rfl, randint_ok h4⟩)
    exact ⟨k, x, h1, h2, h3⟩
  | randomString cs n a custom =>
    simp only [constructSimple] at h
    cases h0 : alphabetOf a custom with
    | none => rw [h0] at h; cases h
    | some al =>
      rw [h0] at h
      dsimp only at h
      split at h
      · cases h
      · rename_i hne
        obtain ⟨j, k, x, -, h1, h2, h3⟩ := key hc h (by simp) (fun _ x => Produces c (.randomString cs n a custom) x)
          (fun old new s s' hlen ha j hj => by
            have ha' : draws (withRandom W R) (.randomString n al) old.length s = .ok (new, s') := ha
            refine inRange (cs := cs) ((draws_length ha').trans hlen) (draws_all (fun s v s' hg => ?_) ha') j hj
            simp only [withRandom] at hg
            obtain ⟨h4, h5⟩ := choices_spec (R := R) (a := al) (fun e => hne (by rw [e]; rfl)) n.toNat s
            cases hg
            exact ⟨_, rfl, by rw [h4]; omega, fun d hd => alphabet_in h0 d (h5 d hd)⟩)
        exact ⟨k, x, h1, h2, h3⟩

/-- Filters that cannot fail do not. -/
theorem harmless_run {g : SimpleCfg Val} (hg : Harmless g) {cols : List Str} {v : SimpleView Val}
    (h : constructSimple (withRandom W R) cols g = .ok v) {r : List Val} (hl : r.length = cols.length) (s : σ) :
    ∃ x, v.run (withRandom W R) r s = .ok x := by
  have key : ∀ {cs : List Str} {a : Act Val}, mkColumns cols cs a = .ok v →
      (∀ old s, ∃ x, a.run (withRandom W R) old s = .ok x) → ∃ x, v.run (withRandom W R) r s = .ok x := by
    intro cs a hm ha
    obtain ⟨-, hnd, is, h1, rfl⟩ := mkColumns_ok hm
    obtain ⟨old, h3, h4⟩ := pick_spec (vals := r) (fun i hi => by rw [hl]; exact h1.lt i hi)
    obtain ⟨⟨new, s'⟩, h5⟩ := ha old s
    exact ⟨_, by simp only [SimpleView.run]; rw [h3]; dsimp only; rw [h5]⟩
  cases g with
  | zero cs => cases hg
  | uuid cs => cases hg
  | fake cs w u => cases hg
  | randomFloat cs l u => cases hg
  | plugin cs p => cases hg
  | «omit» cs =>
    cases h
    have hloc := omitLocated (cols := cols) (out := cols.filter fun c => decide (c ∉ cs)) fun c hc => List.mem_of_mem_filter hc
    obtain ⟨o, h3, -⟩ := pick_spec (vals := r) (fun i hi => by rw [hl]; exact hloc.lt i hi)
    exact ⟨_, by unfold mkOmit; simp only [SimpleView.run]; rw [h3]⟩
  | null cs => exact key h fun old s => ⟨_, rfl⟩
  | constant cs vs =>
    simp only [constructSimple] at h
    cases h1 : mkColumns cols cs (.constant vs) with
    | error e => rw [h1] at h; cases h
    | ok w =>
      rw [h1] at h
      dsimp only at h
      split at h
      · cases h
        exact key h1 fun old s => ⟨_, rfl⟩
      · cases h
  | randomInt cs l u =>
    refine key h fun old s => draws_total (fun s => ?_) _ s
    obtain ⟨⟨i, s'⟩, h1⟩ := randint_total (R := R) hg s
    exact ⟨_, by simp only [withRandom]; rw [h1]⟩
  | randomString cs n a custom =>
    simp only [constructSimple] at h
    cases h0 : alphabetOf a custom with
    | none => rw [h0] at h; cases h
    | some al =>
      rw [h0] at h
      dsimp only at h
      split at h
      · cases h
      · exact key h fun old s => draws_total (fun s => ⟨_, rfl⟩) _ s

end Subsetter
