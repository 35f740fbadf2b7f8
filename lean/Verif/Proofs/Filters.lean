import Verif.Spec.Filters
import Mathlib.Data.List.Forall2
import Mathlib.Data.List.Nodup

/-
Lemmas about filters.
-/
namespace Subsetter
open Spec

variable {σ V : Type} {W : Outside σ V} {cols : List Str}

theorem nodup_get_inj {l : List Str} (h : l.Nodup) {i j : Nat} {c : Str} (hi : l[i]? = some c)
    (hj : l[j]? = some c) : i = j := by
  obtain ⟨h1, h2⟩ := List.getElem?_eq_some_iff.1 hi
  obtain ⟨h3, h4⟩ := List.getElem?_eq_some_iff.1 hj
  exact (h.getElem_inj_iff).1 (h2.trans h4.symm)

theorem lastIndex_some {c : Str} : ∀ {l : List Str} {i : Nat}, lastIndex c l = some i → l[i]? = some c
  | [], _, h => by cases h
  | d :: ds, i, h => by
    unfold lastIndex at h
    cases h' : lastIndex c ds with
    | some j =>
      rw [h'] at h
      cases h
      simpa using lastIndex_some h'
    | none =>
      rw [h'] at h
      by_cases e : d = c
      · simp only [e, if_true] at h
        cases h
        simp [e]
      · simp only [if_neg e] at h
        cases h

theorem lastIndex_none {c : Str} : ∀ {l : List Str}, lastIndex c l = none ↔ c ∉ l
  | [] => by simp [lastIndex]
  | d :: ds => by
    unfold lastIndex
    cases h' : lastIndex c ds with
    | some j =>
      have : c ∈ ds := List.mem_of_getElem? (lastIndex_some h')
      simp [this]
    | none =>
      have := lastIndex_none.1 h'
      by_cases e : d = c
      · simp [e]
      · simp [this, e, Ne.symm e]

theorem firstIndex_some {c : Str} : ∀ {l : List Str} {i : Nat}, firstIndex c l = some i → l[i]? = some c
  | [], _, h => by cases h
  | d :: ds, i, h => by
    unfold firstIndex at h
    by_cases e : d = c
    · rw [if_pos e] at h; cases h; simp [e]
    · rw [if_neg e] at h
      cases h' : firstIndex c ds with
      | none => rw [h'] at h; cases h
      | some j =>
        rw [h'] at h; cases h
        simpa using firstIndex_some h'

theorem firstIndex_none {c : Str} : ∀ {l : List Str}, firstIndex c l = none ↔ c ∉ l
  | [] => by simp [firstIndex]
  | d :: ds => by
    unfold firstIndex
    by_cases e : d = c
    · simp [e]
    · rw [if_neg e]
      simp [firstIndex_none (l := ds), Ne.symm e]

theorem firstDup_none : ∀ {l seen : List Str}, firstDup seen l = none ↔ l.Nodup ∧ ∀ c ∈ l, c ∉ seen
  | [], _ => by simp [firstDup]
  | d :: ds, seen => by
    unfold firstDup
    by_cases h : d ∈ seen
    · simp [h]
    · rw [if_neg h, firstDup_none]
      simp only [List.nodup_cons, List.mem_cons, not_or, forall_eq_or_imp]
      constructor
      · rintro ⟨h1, h2⟩
        exact ⟨⟨fun hd => (h2 d hd).1 rfl, h1⟩, h, fun c hc => (h2 c hc).2⟩
      · rintro ⟨⟨h1, h2⟩, -, h3⟩
        exact ⟨h2, fun c hc => ⟨fun e => h1 (e ▸ hc), h3 c hc⟩⟩

/-- Names and positions of columns. -/
def Located (cols : List Str) (cs : List Str) (is : List Nat) : Prop :=
  List.Forall₂ (fun c i => cols[i]? = some c) cs is

theorem actIndices_ok : ∀ {cs : List Str} {is : List Nat}, actIndices cols cs = .ok is → Located cols cs is
  | [], is, h => by cases h; exact .nil
  | c :: cs, is, h => by
    unfold actIndices at h
    cases h1 : lastIndex c cols with
    | none => rw [h1] at h; cases h
    | some i =>
      rw [h1] at h
      dsimp only at h
      cases h2 : actIndices cols cs with
      | error e => rw [h2] at h; cases h
      | ok js =>
        rw [h2] at h; cases h
        exact .cons (lastIndex_some h1) (actIndices_ok h2)

theorem actIndices_complete : ∀ {cs : List Str}, (∀ c ∈ cs, c ∈ cols) → ∃ is, actIndices cols cs = .ok is
  | [], _ => ⟨[], rfl⟩
  | c :: cs, h => by
    obtain ⟨is, h2⟩ := actIndices_complete (cs := cs) fun c hc => h c (.tail _ hc)
    unfold actIndices
    cases h1 : lastIndex c cols with
    | none => exact absurd (h c (.head _)) (lastIndex_none.1 h1)
    | some i => exact ⟨i :: is, by rw [h2]⟩

theorem Located.mem {cs : List Str} {is : List Nat} (h : Located cols cs is) : ∀ c ∈ cs, c ∈ cols := by
  induction h with
  | nil => simp
  | cons h1 _ ih =>
    intro c hc
    rcases List.mem_cons.1 hc with rfl | hc
    · exact List.mem_of_getElem? h1
    · exact ih c hc

theorem Located.lt {cs : List Str} {is : List Nat} (h : Located cols cs is) : ∀ i ∈ is, i < cols.length := by
  induction h with
  | nil => simp
  | cons h1 _ ih =>
    intro c hc
    rcases List.mem_cons.1 hc with rfl | hc
    · exact (List.getElem?_eq_some_iff.1 h1).1
    · exact ih c hc

theorem Located.index {cs : List Str} {is : List Nat} (h : Located cols cs is) (hnd : cols.Nodup)
    {c : Str} (hc : c ∈ cs) {i : Nat} (hi : cols[i]? = some c) : i ∈ is := by
  induction h with
  | nil => cases hc
  | cons h1 _ ih =>
    rcases List.mem_cons.1 hc with rfl | hc
    · rw [nodup_get_inj hnd hi h1]; exact .head _
    · exact .tail _ (ih hc)

theorem Located.name {cs : List Str} {is : List Nat} (h : Located cols cs is) {i : Nat} (hi : i ∈ is) :
    ∃ c ∈ cs, cols[i]? = some c := by
  induction h with
  | nil => cases hi
  | cons h1 _ ih =>
    rcases List.mem_cons.1 hi with rfl | hi
    · exact ⟨_, .head _, h1⟩
    · obtain ⟨c, h2, h3⟩ := ih hi
      exact ⟨c, .tail _ h2, h3⟩

theorem validate_ok {cs : List Str} {is : List Nat} (h : validateAndIndex cols cs = .ok is) :
    cs ≠ [] ∧ cs.Nodup ∧ Located cols cs is := by
  unfold validateAndIndex at h
  by_cases h1 : cs.isEmpty = true
  · rw [if_pos h1] at h; cases h
  · rw [if_neg h1] at h
    cases h2 : firstDup [] cs with
    | some c => rw [h2] at h; cases h
    | none =>
      rw [h2] at h
      exact ⟨fun e => h1 (by rw [e]; rfl), (firstDup_none.1 h2).1, actIndices_ok h⟩

theorem validate_complete {cs : List Str} (h1 : cs ≠ []) (h2 : cs.Nodup) (h3 : ∀ c ∈ cs, c ∈ cols) :
    ∃ is, validateAndIndex cols cs = .ok is := by
  unfold validateAndIndex
  rw [if_neg (by cases cs <;> simp_all), firstDup_none.2 ⟨h2, by simp⟩]
  exact actIndices_complete h3

theorem mkColumns_ok {cs : List Str} {a : Act V} {v : SimpleView V} (h : mkColumns cols cs a = .ok v) :
    cs ≠ [] ∧ cs.Nodup ∧ ∃ is, Located cols cs is ∧ v = .columns cols is a := by
  unfold mkColumns at h
  cases h1 : validateAndIndex cols cs with
  | error e => rw [h1] at h; cases h
  | ok is =>
    rw [h1] at h; cases h
    obtain ⟨a, b, c⟩ := validate_ok h1
    exact ⟨a, b, is, c, rfl⟩

/-- The replacement values of a filter that does not read its columns. -/
def Act.Blind : Act V → Prop
  | .zero | .plugin _ => False
  | _ => True

/-- What a constructed simple view looks like. -/
theorem constructSimple_ok {g : SimpleCfg V} {v : SimpleView V} (h : constructSimple W cols g = .ok v) :
    (∃ cs, g = .omit cs ∧ v = mkOmit cols cs) ∨
    (¬ SimpleCfg.IsOmit g ∧ SimpleCfg.Fits cols g ∧ SimpleCfg.OptionsOK W.pluginOk g ∧
      ∃ is a, Located cols (SimpleCfg.columns g) is ∧ v = .columns cols is a ∧
        (∀ vs, a = .constant vs → vs.length = is.length) ∧
        (∀ c, c ∈ SimpleCfg.columns g → c ∉ SimpleCfg.reads g → a.Blind)) := by
  have key : ∀ {cs : List Str} {a : Act V}, mkColumns cols cs a = .ok v →
      (cs ≠ [] ∧ cs.Nodup ∧ ∀ c ∈ cs, c ∈ cols) ∧ ∃ is, Located cols cs is ∧ v = .columns cols is a := by
    intro cs a h
    obtain ⟨h1, h2, is, h3, h4⟩ := mkColumns_ok h
    exact ⟨⟨h1, h2, h3.mem⟩, is, h3, h4⟩
  cases g with
  | «omit» cs => left; cases h; exact ⟨cs, rfl, rfl⟩
  | zero cs =>
    right
    obtain ⟨h1, is, h2, h3⟩ := key h
    exact ⟨fun h => h, h1, trivial, is, _, h2, h3, fun _ e => (by cases e), fun c h4 h5 => absurd h4 h5⟩
  | null cs =>
    right
    obtain ⟨h1, is, h2, h3⟩ := key h
    exact ⟨fun h => h, h1, trivial, is, _, h2, h3, fun _ e => (by cases e), fun _ _ _ => trivial⟩
  | constant cs vs =>
    right
    simp only [constructSimple] at h
    cases h0 : mkColumns cols cs (.constant vs) with
    | error e => rw [h0] at h; cases h
    | ok w =>
      rw [h0] at h
      dsimp only at h
      by_cases hl : vs.length = cs.length
      · rw [if_pos hl] at h; cases h
        obtain ⟨h1, is, h2, h3⟩ := key h0
        exact ⟨fun h => h, h1, hl, is, _, h2, h3, fun _ e => (by cases e; rw [hl, h2.length_eq]),
          fun _ _ _ => trivial⟩
      · rw [if_neg hl] at h; cases h
  | randomInt cs l u =>
    right
    obtain ⟨h1, is, h2, h3⟩ := key h
    exact ⟨fun h => h, h1, trivial, is, _, h2, h3, fun _ e => (by cases e), fun _ _ _ => trivial⟩
  | randomFloat cs l u =>
    right
    obtain ⟨h1, is, h2, h3⟩ := key h
    exact ⟨fun h => h, h1, trivial, is, _, h2, h3, fun _ e => (by cases e), fun _ _ _ => trivial⟩
  | randomString cs n a custom =>
    right
    simp only [constructSimple] at h
    have hopt : ∀ s, alphabetOf a custom = some s → s ≠ [] →
        SimpleCfg.OptionsOK W.pluginOk (.randomString cs n a custom : SimpleCfg V) := by
      intro s hs hne ha
      subst ha
      exact ⟨s, hs, hne⟩
    revert hopt
    generalize alphabetOf a custom = o at h
    intro hopt
    cases o with
    | none => cases h
    | some s =>
      dsimp only at h
      by_cases hs : s.isEmpty = true
      · rw [if_pos hs] at h; cases h
      · rw [if_neg hs] at h
        obtain ⟨h1, is, h2, h3⟩ := key h
        exact ⟨fun h => h, h1, hopt s rfl (fun e => hs (by rw [e]; rfl)), is, _, h2, h3,
          fun _ e => (by cases e), fun _ _ _ => trivial⟩
  | uuid cs =>
    right
    obtain ⟨h1, is, h2, h3⟩ := key h
    exact ⟨fun h => h, h1, trivial, is, _, h2, h3, fun _ e => (by cases e), fun _ _ _ => trivial⟩
  | fake cs w u =>
    right
    obtain ⟨h1, is, h2, h3⟩ := key h
    exact ⟨fun h => h, h1, trivial, is, _, h2, h3, fun _ e => (by cases e), fun _ _ _ => trivial⟩
  | plugin cs p =>
    right
    simp only [constructSimple] at h
    by_cases hp : W.pluginOk p = true
    · rw [if_pos hp] at h
      obtain ⟨h1, is, h2, h3⟩ := key h
      exact ⟨fun h => h, h1, hp, is, _, h2, h3, fun _ e => (by cases e), fun c h4 h5 => absurd h4 h5⟩
    · rw [if_neg hp] at h; cases h

theorem constructSimple_complete {g : SimpleCfg V} (hf : SimpleCfg.IsOmit g ∨ SimpleCfg.Fits cols g)
    (ho : SimpleCfg.OptionsOK W.pluginOk g) : ∃ v, constructSimple W cols g = .ok v := by
  have key : ∀ {cs : List Str} (a : Act V), (cs ≠ [] ∧ cs.Nodup ∧ ∀ c ∈ cs, c ∈ cols) →
      ∃ v, mkColumns cols cs a = .ok v := by
    intro cs a ⟨h1, h2, h3⟩
    obtain ⟨is, h⟩ := validate_complete h1 h2 h3
    exact ⟨_, by unfold mkColumns; rw [h]⟩
  cases g with
  | «omit» cs => exact ⟨_, rfl⟩
  | constant cs vs =>
    rcases hf with hf | hf
    · cases hf
    obtain ⟨v, hv⟩ := key (.constant vs) hf
    refine ⟨v, ?_⟩
    change mkColumns cols cs _ = _ at hv
    simp only [constructSimple, hv]
    exact if_pos ho
  | randomString cs n a custom =>
    rcases hf with hf | hf
    · cases hf
    simp only [constructSimple]
    have : ∃ s, alphabetOf a custom = some s ∧ s ≠ [] := by
      cases a
      case custom => exact ho rfl
      all_goals exact ⟨_, rfl, by decide⟩
    obtain ⟨s, hs, hne⟩ := this
    obtain ⟨v, hv⟩ := key (.gen (.randomString n s)) hf
    rw [hs]
    exact ⟨v, by dsimp only; rw [if_neg (by cases s <;> simp_all)]; exact hv⟩
  | plugin cs p =>
    rcases hf with hf | hf
    · cases hf
    obtain ⟨v, hv⟩ := key (.plugin p) hf
    refine ⟨v, ?_⟩
    change mkColumns cols cs _ = _ at hv
    change W.pluginOk p = true at ho
    simp only [constructSimple]
    rw [if_pos ho, hv]
  | zero cs => rcases hf with hf | hf; cases hf; exact key _ hf
  | null cs => rcases hf with hf | hf; cases hf; exact key _ hf
  | randomInt cs l u => rcases hf with hf | hf; cases hf; exact key _ hf
  | randomFloat cs l u => rcases hf with hf | hf; cases hf; exact key _ hf
  | uuid cs => rcases hf with hf | hf; cases hf; exact key _ hf
  | fake cs w u => rcases hf with hf | hf; cases hf; exact key _ hf

/-! ### Running -/

theorem pick_spec {vals : List V} : ∀ {is : List Nat}, (∀ i ∈ is, i < vals.length) →
    ∃ out, pick vals is = .ok out ∧ List.Forall₂ (fun i v => vals[i]? = some v) is out
  | [], _ => ⟨[], rfl, .nil⟩
  | i :: is, h => by
    obtain ⟨out, h1, h2⟩ := pick_spec (is := is) fun j hj => h j (.tail _ hj)
    have hi : vals[i]? = some (vals[i]'(h i (.head _))) := List.getElem?_eq_getElem _
    refine ⟨vals[i]'(h i (.head _)) :: out, ?_, .cons hi h2⟩
    unfold pick
    rw [hi, h1]

theorem place_length : ∀ {is : List Nat} {new vals : List V}, (place vals is new).length = vals.length
  | [], new, vals => by unfold place; rfl
  | i :: is, [], vals => by unfold place; rfl
  | i :: is, v :: new, vals => by unfold place; rw [place_length]; simp

theorem place_other {k : Nat} : ∀ {is : List Nat} {new vals : List V}, k ∉ is →
    (place vals is new)[k]? = vals[k]?
  | [], new, vals, _ => by unfold place; rfl
  | i :: is, [], vals, _ => by unfold place; rfl
  | i :: is, v :: new, vals, h => by
    simp only [List.mem_cons, not_or] at h
    unfold place
    rw [place_other h.2, List.getElem?_set_ne (Ne.symm h.1)]

theorem place_congr {k : Nat} : ∀ {is : List Nat} {new vals vals' : List V}, vals.length = vals'.length →
    vals[k]? = vals'[k]? → (place vals is new)[k]? = (place vals' is new)[k]?
  | [], new, vals, vals', _, h => by unfold place; exact h
  | i :: is, [], vals, vals', _, h => by unfold place; exact h
  | i :: is, v :: new, vals, vals', hl, h => by
    unfold place
    refine place_congr (by simpa using hl) ?_
    by_cases e : i = k
    · subst e
      simp only [List.getElem?_set_self', h]
    · rw [List.getElem?_set_ne e, List.getElem?_set_ne e, h]

theorem place_written {k : Nat} : ∀ {is : List Nat} {new vals vals' : List V}, vals.length = vals'.length →
    k ∈ is → is.length = new.length → (place vals is new)[k]? = (place vals' is new)[k]?
  | i :: is, v :: new, vals, vals', hl, h, hn => by
    unfold place
    by_cases e : i = k
    · subst e
      refine place_congr (by simpa using hl) ?_
      by_cases hi : i < vals.length
      · rw [List.getElem?_set_self hi, List.getElem?_set_self (hl ▸ hi)]
      · rw [List.getElem?_eq_none (by simp; omega), List.getElem?_eq_none (by simp; omega)]
    · refine place_written (by simpa using hl) ?_ (by simpa using hn)
      rcases List.mem_cons.1 h with h | h
      · exact absurd h.symm e
      · exact h
  | i :: is, [], _, _, _, _, hn => by simp at hn
  | [], _, _, _, _, h, _ => by cases h

theorem draws_length {g : GenKind} : ∀ {n : Nat} {s s' : σ} {vs : List V}, draws W g n s = .ok (vs, s') →
    vs.length = n
  | 0, s, s', vs, h => by cases h; rfl
  | n + 1, s, s', vs, h => by
    unfold draws at h
    cases h1 : W.gen g s with
    | error e => rw [h1] at h; cases h
    | ok p =>
      obtain ⟨v, s1⟩ := p
      rw [h1] at h
      dsimp only at h
      cases h2 : draws W g n s1 with
      | error e => rw [h2] at h; cases h
      | ok q =>
        obtain ⟨vs', s2⟩ := q
        rw [h2] at h; cases h
        simp [draws_length h2]

theorem Act.run_blind {a : Act V} (h : a.Blind) {x y : List V} (hl : x.length = y.length) (s : σ) :
    a.run W x s = a.run W y s := by
  cases a with
  | zero => cases h
  | plugin p => cases h
  | null =>
    have : (x.map fun _ => W.none) = y.map fun _ => W.none := by
      rw [List.map_const', List.map_const', hl]
    simp only [Act.run, this]
  | constant vs => rfl
  | gen g => simp only [Act.run, hl]

theorem Act.run_blind_length {a : Act V} (h : a.Blind) {x out : List V} {s s' : σ}
    (hc : ∀ vs, a = .constant vs → vs.length = x.length) (hr : a.run W x s = .ok (out, s')) :
    out.length = x.length := by
  cases a with
  | zero => cases h
  | plugin p => cases h
  | null => cases hr; simp
  | constant vs => cases hr; exact hc _ rfl
  | gen g => exact draws_length hr

theorem omitLocated {out : List Str} : (∀ c ∈ out, c ∈ cols) →
    Located cols out (out.filterMap fun c => lastIndex c cols) := by
  induction out with
  | nil => intro _; exact .nil
  | cons c out ih =>
    intro h
    cases h1 : lastIndex c cols with
    | none => exact absurd (h c (.head _)) (lastIndex_none.1 h1)
    | some i =>
      rw [List.filterMap_cons_some (f := fun c => lastIndex c cols) h1]
      exact .cons (lastIndex_some h1) (ih fun d hd => h d (.tail _ hd))

theorem colsOut_eq {g : SimpleCfg V} {v : SimpleView V} (h : constructSimple W cols g = .ok v) :
    v.colsOut = cols.filter fun c => decide (c ∉ omitted [FilterCfg.simple g]) := by
  rcases constructSimple_ok h with ⟨cs, rfl, rfl⟩ | ⟨h1, -, -, is, a, -, rfl, -⟩
  · simp [SimpleView.colsOut, mkOmit, omitted]
  · have : omitted [FilterCfg.simple g] = [] := by
      cases g <;> first | rfl | exact absurd trivial h1
    rw [this]
    simp [SimpleView.colsOut]

/-- Positions and values after a simple filter. -/
theorem simple_run {g : SimpleCfg V} {v : SimpleView V} (h : constructSimple W cols g = .ok v)
    (hnd : cols.Nodup) {r : List V} (hl : r.length = cols.length) {s s' : σ} {out : List V}
    (hr : v.run W r s = .ok (out, s')) :
    out.length = v.colsOut.length ∧ ∀ (c : Str) (i : Nat), c ∉ SimpleCfg.columns g → cols[i]? = some c →
      ∃ j : Nat, v.colsOut[j]? = some c ∧ out[j]? = r[i]? := by
  rcases constructSimple_ok h with ⟨cs, rfl, rfl⟩ | ⟨h1, -, -, is, a, h2, rfl, -⟩
  · unfold mkOmit at hr ⊢
    simp only [SimpleView.run, SimpleView.colsOut] at hr ⊢
    have hsub : ∀ c ∈ cols.filter (fun c => decide (c ∉ cs)), c ∈ cols := fun c hc => List.mem_of_mem_filter hc
    have hloc := omitLocated hsub
    obtain ⟨o, h3, h4⟩ := pick_spec (vals := r) (fun i hi => by rw [hl]; exact hloc.lt i hi)
    rw [h3] at hr; cases hr
    refine ⟨h4.length_eq.symm.trans hloc.length_eq.symm, fun c i hc hi => ?_⟩
    change c ∉ cs at hc
    have hmem : c ∈ cols.filter fun c => decide (c ∉ cs) :=
      List.mem_filter.2 ⟨List.mem_of_getElem? hi, by simpa using hc⟩
    obtain ⟨j, hj, hj'⟩ := List.mem_iff_getElem.1 hmem
    refine ⟨j, by rw [List.getElem?_eq_getElem hj, hj'], ?_⟩
    have h5 := hloc.get hj (by rw [← hloc.length_eq]; exact hj)
    have hj2 : j < (List.filterMap (fun c => lastIndex c cols) (List.filter (fun c => decide (c ∉ cs)) cols)).length := by
      rw [← hloc.length_eq]; exact hj
    have h6 := h4.get hj2 (by rw [← h4.length_eq]; exact hj2)
    simp only [List.get_eq_getElem] at h5 h6
    rw [hj'] at h5
    rw [← nodup_get_inj hnd h5 hi, h6]
    exact List.getElem?_eq_getElem _
  · simp only [SimpleView.run, SimpleView.colsOut] at hr ⊢
    obtain ⟨old, h3, h4⟩ := pick_spec (vals := r) (fun i hi => by rw [hl]; exact h2.lt i hi)
    rw [h3] at hr
    dsimp only at hr
    cases h5 : a.run W old s with
    | error e => rw [h5] at hr; cases hr
    | ok p =>
      obtain ⟨new, s1⟩ := p
      rw [h5] at hr; cases hr
      refine ⟨by rw [place_length, hl], fun c i hc hi => ⟨i, hi, ?_⟩⟩
      refine place_other fun hin => ?_
      obtain ⟨d, h6, h7⟩ := h2.name hin
      rw [hi] at h7; cases h7
      exact hc h6

theorem constructConds_ok : ∀ {conds : List (Nat × SimpleCfg V)} {vs : List (Nat × SimpleView V)},
    constructConds W cols conds = .ok vs →
    List.Forall₂ (fun c v => c.1 = v.1 ∧ constructSimple W cols c.2 = .ok v.2) conds vs
  | [], vs, h => by cases h; exact .nil
  | (n, c) :: cs, vs, h => by
    unfold constructConds at h
    cases h1 : constructSimple W cols c with
    | error e => rw [h1] at h; cases h
    | ok v =>
      rw [h1] at h
      dsimp only at h
      cases h2 : constructConds W cols cs with
      | error e => rw [h2] at h; cases h
      | ok vs' =>
        rw [h2] at h; cases h
        exact .cons ⟨rfl, h1⟩ (constructConds_ok h2)

theorem constructConds_complete : ∀ {conds : List (Nat × SimpleCfg V)},
    (∀ c ∈ conds, ∃ v, constructSimple W cols c.2 = .ok v) → ∃ vs, constructConds W cols conds = .ok vs
  | [], _ => ⟨[], rfl⟩
  | (n, c) :: cs, h => by
    obtain ⟨v, h1⟩ := h _ (.head _)
    obtain ⟨vs, h2⟩ := constructConds_complete fun c hc => h c (.tail _ hc)
    exact ⟨(n, v) :: vs, by unfold constructConds; rw [h1, h2]⟩

/-- What a constructed view looks like. -/
theorem constructView_ok {f : FilterCfg V} {v : View V} (h : constructView W cols f = .ok v) :
    (∃ g w, f = .simple g ∧ v = .simple w ∧ constructSimple W cols g = .ok w) ∨
    (∃ column conds i vs, f = .multiplex column conds ∧ v = .multiplex cols i vs ∧
      firstIndex column cols = some i ∧
      List.Forall₂ (fun c v => c.1 = v.1 ∧ constructSimple W cols c.2 = .ok v.2) conds vs ∧
      ∀ w ∈ vs, w.2.colsOut = cols) := by
  cases f with
  | simple g =>
    left
    simp only [constructView] at h
    cases h1 : constructSimple W cols g with
    | error e => rw [h1] at h; cases h
    | ok w => rw [h1] at h; cases h; exact ⟨g, w, rfl, rfl, h1⟩
  | multiplex column conds =>
    right
    simp only [constructView] at h
    cases h1 : firstIndex column cols with
    | none => rw [h1] at h; cases h
    | some i =>
      rw [h1] at h
      dsimp only at h
      cases h2 : constructConds W cols conds with
      | error e => rw [h2] at h; cases h
      | ok vs =>
        rw [h2] at h
        dsimp only at h
        by_cases h3 : (vs.all fun v => decide (v.2.colsOut = cols)) = true
        · rw [if_pos h3] at h; cases h
          refine ⟨column, conds, i, vs, rfl, rfl, h1, constructConds_ok h2, ?_⟩
          intro w hw
          simpa using List.all_eq_true.1 h3 w hw
        · rw [if_neg h3] at h; cases h

theorem view_colsOut {f : FilterCfg V} {v : View V} (h : constructView W cols f = .ok v) :
    v.colsOut = cols.filter fun c => decide (c ∉ omitted [f]) := by
  rcases constructView_ok h with ⟨g, w, rfl, rfl, h1⟩ | ⟨column, conds, i, vs, rfl, rfl, -⟩
  · exact colsOut_eq h1
  · simp [View.colsOut, omitted]

theorem omitted_cons (f : FilterCfg V) (fs : List (FilterCfg V)) :
    omitted (f :: fs) = omitted [f] ++ omitted fs := by
  cases f with
  | simple g => cases g <;> simp [omitted]
  | multiplex c cs => simp [omitted]

theorem filter_omitted (f : FilterCfg V) (fs : List (FilterCfg V)) (cols : List Str) :
    (cols.filter fun c => decide (c ∉ omitted [f])).filter (fun c => decide (c ∉ omitted fs)) =
      cols.filter fun c => decide (c ∉ omitted (f :: fs)) := by
  rw [List.filter_filter]
  congr 1
  funext c
  rw [omitted_cons f fs, ← Bool.decide_and]
  refine decide_eq_decide.2 ?_
  simp only [List.mem_append, not_or]
  exact and_comm

theorem Forall2_mem_right {α β : Type} {R : α → β → Prop} {l : List α} {l' : List β}
    (h : List.Forall₂ R l l') : ∀ b ∈ l', ∃ a ∈ l, R a b := by
  induction h with
  | nil => simp
  | cons h _ ih =>
    intro b hb
    rcases List.mem_cons.1 hb with rfl | hb
    · exact ⟨_, .head _, h⟩
    · obtain ⟨a, h1, h2⟩ := ih b hb
      exact ⟨a, .tail _ h1, h2⟩

theorem runConds_ok {x : V} {r : List V} {s : σ} : ∀ {vs : List (Nat × SimpleView V)} {p : List V × σ},
    runConds W x r s vs = .ok p → p = (r, s) ∨ ∃ w ∈ vs, w.2.run W r s = .ok p
  | [], p, h => by cases h; exact .inl rfl
  | (n, v) :: rest, p, h => by
    unfold runConds at h
    cases h1 : W.holds n x with
    | error e => rw [h1] at h; cases h
    | ok b =>
      rw [h1] at h
      cases b with
      | true => exact .inr ⟨(n, v), .head _, h⟩
      | false =>
        rcases runConds_ok h with h | ⟨w, h2, h3⟩
        · exact .inl h
        · exact .inr ⟨w, .tail _ h2, h3⟩

/-- Positions and values after a filter. -/
theorem view_run {f : FilterCfg V} {v : View V} (h : constructView W cols f = .ok v)
    (hnd : cols.Nodup) {r : List V} (hl : r.length = cols.length) {s s' : σ} {out : List V}
    (hr : v.run W r s = .ok (out, s')) :
    out.length = v.colsOut.length ∧ ∀ (c : Str) (i : Nat), c ∉ FilterCfg.writes f → cols[i]? = some c →
      ∃ j : Nat, v.colsOut[j]? = some c ∧ out[j]? = r[i]? := by
  rcases constructView_ok h with ⟨g, w, rfl, rfl, h1⟩ | ⟨column, conds, i, vs, rfl, rfl, h1, h2, h3⟩
  · exact simple_run h1 hnd hl hr
  · simp only [View.run, View.colsOut] at hr ⊢
    cases h4 : r[i]? with
    | none => rw [h4] at hr; cases hr
    | some x =>
      rw [h4] at hr
      rcases runConds_ok hr with h5 | ⟨w, h5, h6⟩
      · cases h5; exact ⟨hl, fun c i _ hi => ⟨i, hi, rfl⟩⟩
      · obtain ⟨c, hc, -, hc'⟩ := Forall2_mem_right h2 w h5
        obtain ⟨h7, h8⟩ := simple_run hc' hnd hl h6
        rw [h3 w h5] at h7 h8
        refine ⟨h7, fun d i hd hi => h8 d i (fun hd' => hd ?_) hi⟩
        exact List.mem_flatMap.2 ⟨c, hc, hd'⟩

theorem construct_loop_cons {f : FilterCfg V} {fs : List (FilterCfg V)} {vs : List (View V)}
    {out : List Str} (h : constructLoop W cols (f :: fs) = .ok (vs, out)) :
    ∃ v vs', vs = v :: vs' ∧ constructView W cols f = .ok v ∧
      constructLoop W v.colsOut fs = .ok (vs', out) := by
  unfold constructLoop at h
  cases h1 : constructView W cols f with
  | error e => rw [h1] at h; cases h
  | ok v =>
    rw [h1] at h
    dsimp only at h
    cases h2 : constructLoop W v.colsOut fs with
    | error e => rw [h2] at h; cases h
    | ok p =>
      obtain ⟨vs', out'⟩ := p
      rw [h2] at h; cases h
      exact ⟨v, vs', rfl, rfl, h2⟩

/-- Positions and values after a chain. -/
theorem chain_run : ∀ {fs : List (FilterCfg V)} {cols : List Str} {vs : List (View V)} {colsOut : List Str},
    constructLoop W cols fs = .ok (vs, colsOut) → cols.Nodup → ∀ {r : List V}, r.length = cols.length →
    ∀ {s s' : σ} {out : List V}, runViews W vs r s = .ok (out, s') →
    out.length = colsOut.length ∧ ∀ (c : Str) (i : Nat), (∀ f ∈ fs, c ∉ FilterCfg.writes f) →
      cols[i]? = some c → ∃ j : Nat, colsOut[j]? = some c ∧ out[j]? = r[i]?
  | [], cols, vs, colsOut, h, _, r, hl, s, s', out, hr => by
    cases h; cases hr
    exact ⟨hl, fun c i _ hi => ⟨i, hi, rfl⟩⟩
  | f :: fs, cols, vs, colsOut, h, hnd, r, hl, s, s', out, hr => by
    obtain ⟨v, vs', rfl, h1, h2⟩ := construct_loop_cons h
    unfold runViews at hr
    cases h3 : v.run W r s with
    | error e => rw [h3] at hr; cases hr
    | ok p =>
      obtain ⟨r1, s1⟩ := p
      rw [h3] at hr
      obtain ⟨h4, h5⟩ := view_run h1 hnd hl h3
      have hnd' : v.colsOut.Nodup := by rw [view_colsOut h1]; exact hnd.filter _
      obtain ⟨h6, h7⟩ := chain_run h2 hnd' h4 hr
      refine ⟨h6, fun c i hc hi => ?_⟩
      obtain ⟨j, h8, h9⟩ := h5 c i (hc f (.head _)) hi
      obtain ⟨k, h10, h11⟩ := h7 c j (fun g hg => hc g (.tail _ hg)) h8
      exact ⟨k, h10, h11.trans h9⟩

theorem loop_colsOut : ∀ {fs : List (FilterCfg V)} {cols : List Str} {vs : List (View V)}
    {colsOut : List Str}, constructLoop W cols fs = .ok (vs, colsOut) →
    colsOut = cols.filter fun c => decide (c ∉ omitted fs)
  | [], cols, vs, colsOut, h => by cases h; simp [omitted]
  | f :: fs, cols, vs, colsOut, h => by
    obtain ⟨v, vs', rfl, h1, h2⟩ := construct_loop_cons h
    rw [loop_colsOut h2, view_colsOut h1, filter_omitted]

theorem valueOf_eq {cols : List Str} {r : List V} {c : Str} (hnd : cols.Nodup) (hl : r.length = cols.length)
    {i : Nat} (hi : cols[i]? = some c) : valueOf cols r c = r[i]? := by
  unfold valueOf
  induction cols generalizing r i with
  | nil => simp at hi
  | cons d ds ih =>
    cases r with
    | nil => simp at hl
    | cons x r =>
      simp only [List.nodup_cons] at hnd
      cases i with
      | zero =>
        simp only [List.getElem?_cons_zero, Option.some.injEq] at hi
        subst hi
        simp
      | succ i =>
        simp only [List.getElem?_cons_succ] at hi
        have hne : d ≠ c := fun e => hnd.1 (e ▸ List.mem_of_getElem? hi)
        have := ih hnd.2 (r := r) (by simpa using hl) hi
        rw [List.zip_cons_cons, List.find?_cons_of_neg (by simpa using hne), this]
        simp

/-! ### Non-interference -/

theorem pick_congr {r r' : List V} : ∀ {is : List Nat}, (∀ i ∈ is, r[i]? = r'[i]?) → pick r is = pick r' is
  | [], _ => rfl
  | i :: is, h => by
    unfold pick
    rw [h i (.head _), pick_congr fun j hj => h j (.tail _ hj)]

theorem sameBut_eq {c : Str} {r r' : List V} (h : SameBut cols c r r')
    (h' : ∀ i : Nat, cols[i]? = some c → r[i]? = r'[i]?) : r = r' := by
  refine List.ext_getElem? fun i => ?_
  by_cases hi : cols[i]? = some c
  · exact h' i hi
  · exact h.2 i hi

/-- Result of running a filter on two rows that differ in column `c`. -/
def SameRun (out : List Str) (c : Str) (b : Prop) (x y : Except FilterErr (List V × σ)) : Prop :=
  (∃ e, x = .error e ∧ y = .error e) ∨
  ∃ r r' s, x = .ok (r, s) ∧ y = .ok (r', s) ∧ SameBut out c r r' ∧ (b → r = r')

theorem simple_same {g : SimpleCfg V} {v : SimpleView V} (h : constructSimple W cols g = .ok v)
    (hnd : cols.Nodup) {r r' : List V} (hl : r.length = cols.length) {c : Str} (hs : SameBut cols c r r')
    (hc : c ∉ SimpleCfg.reads g) (s : σ) :
    SameRun v.colsOut c (c ∈ SimpleCfg.columns g) (v.run W r s) (v.run W r' s) := by
  have hl' : r'.length = cols.length := hs.1.symm.trans hl
  rcases constructSimple_ok h with ⟨cs, rfl, rfl⟩ | ⟨h1, -, -, is, a, h2, rfl, h3, h4⟩
  · right
    unfold mkOmit
    simp only [SimpleView.run, SimpleView.colsOut]
    have hsub : ∀ c ∈ cols.filter (fun c => decide (c ∉ cs)), c ∈ cols := fun c hc => List.mem_of_mem_filter hc
    have hloc := omitLocated hsub
    generalize hout : cols.filter (fun c => decide (c ∉ cs)) = out at *
    generalize out.filterMap (fun c => lastIndex c cols) = is at *
    obtain ⟨o, h5, h6⟩ := pick_spec (vals := r) (fun i hi => by rw [hl]; exact hloc.lt i hi)
    obtain ⟨o', h5', h6'⟩ := pick_spec (vals := r') (fun i hi => by rw [hl']; exact hloc.lt i hi)
    refine ⟨o, o', s, by rw [h5], by rw [h5'], ⟨h6.length_eq.symm.trans h6'.length_eq, ?_⟩, ?_⟩
    · intro i hi
      by_cases hlt : i < out.length
      · have a1 : i < is.length := by rw [← hloc.length_eq]; exact hlt
        have a2 : i < o.length := by rw [← h6.length_eq]; exact a1
        have a3 : i < o'.length := by rw [← h6'.length_eq]; exact a1
        have b1 := hloc.get hlt a1
        have b2 := h6.get a1 a2
        have b3 := h6'.get a1 a3
        simp only [List.get_eq_getElem] at b1 b2 b3
        rw [List.getElem?_eq_getElem a2, List.getElem?_eq_getElem a3, ← b2, ← b3]
        refine hs.2 _ fun e => hi ?_
        rw [b1] at e
        rw [List.getElem?_eq_getElem hlt, e]
      · have a2 : o.length = out.length := h6.length_eq.symm.trans hloc.length_eq.symm
        have a3 : o'.length = out.length := h6'.length_eq.symm.trans hloc.length_eq.symm
        rw [List.getElem?_eq_none (by omega), List.getElem?_eq_none (by omega)]
    · intro hcs
      change c ∈ cs at hcs
      have : pick r is = pick r' is := by
        refine pick_congr fun i hi => hs.2 i fun e => ?_
        obtain ⟨d, hd, hd'⟩ := hloc.name hi
        rw [e] at hd'; cases hd'
        rw [← hout] at hd
        have := (List.mem_filter.1 hd).2
        simp only [decide_eq_true_eq] at this
        exact this hcs
      rw [h5, h5'] at this
      cases this; rfl
  · simp only [SimpleView.run, SimpleView.colsOut]
    obtain ⟨old, h5, h6⟩ := pick_spec (vals := r) (fun i hi => by rw [hl]; exact h2.lt i hi)
    obtain ⟨old', h5', h6'⟩ := pick_spec (vals := r') (fun i hi => by rw [hl']; exact h2.lt i hi)
    have holdlen : old.length = old'.length := h6.length_eq.symm.trans h6'.length_eq
    have hrun : a.run W old s = a.run W old' s := by
      by_cases hcc : c ∈ SimpleCfg.columns g
      · exact Act.run_blind (h4 c hcc hc) holdlen s
      · have : pick r is = pick r' is := by
          refine pick_congr fun i hi => hs.2 i fun e => ?_
          obtain ⟨d, hd, hd'⟩ := h2.name hi
          rw [e] at hd'; cases hd'
          exact hcc hd
        rw [h5, h5'] at this
        cases this; rfl
    rw [h5, h5']
    dsimp only
    rw [← hrun]
    cases h7 : a.run W old s with
    | error e => exact .inl ⟨e, rfl, rfl⟩
    | ok p =>
      obtain ⟨new, s1⟩ := p
      have hsame : SameBut cols c (place r is new) (place r' is new) :=
        ⟨by rw [place_length, place_length, hs.1], fun i hi => place_congr hs.1 (hs.2 i hi)⟩
      refine .inr ⟨_, _, s1, rfl, rfl, hsame, fun hcc => ?_⟩
      refine sameBut_eq (cols := cols) hsame fun i hi => ?_
      refine place_written hs.1 (h2.index hnd hcc hi) ?_
      rw [Act.run_blind_length (h4 c hcc hc) (fun vs hvs => by rw [h3 vs hvs, h6.length_eq]) h7,
        h6.length_eq]

theorem view_same {f : FilterCfg V} {v : View V} (h : constructView W cols f = .ok v)
    (hnd : cols.Nodup) {r r' : List V} (hl : r.length = cols.length) {c : Str} (hs : SameBut cols c r r')
    (hc : c ∉ FilterCfg.reads f) (s : σ) :
    SameRun v.colsOut c (FilterCfg.Scrubs f c) (v.run W r s) (v.run W r' s) := by
  rcases constructView_ok h with ⟨g, w, rfl, rfl, h1⟩ | ⟨column, conds, i, vs, rfl, rfl, h1, h2, h3⟩
  · rcases simple_same h1 hnd hl hs hc s with h2 | ⟨a, b, s', h2, h3, h4, h5⟩
    · exact .inl h2
    · refine .inr ⟨a, b, s', h2, h3, h4, ?_⟩
      rintro ⟨g', e, h6, -⟩
      cases e
      exact h5 h6
  · have hns : FilterCfg.Scrubs (.multiplex column conds : FilterCfg V) c → False := by
      rintro ⟨g, e, -⟩; cases e
    simp only [FilterCfg.reads, List.mem_cons, not_or] at hc
    have hi : r[i]? = r'[i]? := hs.2 i fun e => by
      rw [firstIndex_some h1] at e
      exact hc.1 (Option.some.inj e).symm
    simp only [View.run, View.colsOut]
    rw [← hi]
    cases h4 : r[i]? with
    | none => exact .inl ⟨_, rfl, rfl⟩
    | some x =>
      dsimp only
      have key : ∀ {conds : List (Nat × SimpleCfg V)} {vs : List (Nat × SimpleView V)},
          List.Forall₂ (fun c v => c.1 = v.1 ∧ constructSimple W cols c.2 = .ok v.2) conds vs →
          (∀ w ∈ vs, w.2.colsOut = cols) → c ∉ conds.flatMap (fun p => SimpleCfg.reads p.2) →
          SameRun cols c False (runConds W x r s vs) (runConds W x r' s vs) := by
        intro conds vs hf
        induction hf with
        | nil => intro _ _; exact .inr ⟨r, r', s, rfl, rfl, hs, False.elim⟩
        | @cons p q l l' hpq _ ih =>
          intro h5 h6
          obtain ⟨n, w⟩ := q
          rw [List.flatMap_cons, List.mem_append, not_or] at h6
          simp only [runConds]
          cases h7 : W.holds n x with
          | error e => exact .inl ⟨e, rfl, rfl⟩
          | ok b =>
            cases b with
            | false => exact ih (fun w hw => h5 w (.tail _ hw)) h6.2
            | true =>
              have h8 := simple_same hpq.2 hnd hl hs h6.1 s
              have h9 : w.colsOut = cols := h5 (n, w) (.head _)
              dsimp only at h8
              rw [h9] at h8
              rcases h8 with h8 | ⟨a, b, s', h10, h11, h12, -⟩
              · exact .inl h8
              · exact .inr ⟨a, b, s', h10, h11, h12, False.elim⟩
      rcases key h2 h3 hc.2 with h5 | ⟨a, b, s', h5, h6, h7, -⟩
      · exact .inl h5
      · exact .inr ⟨a, b, s', h5, h6, h7, fun h => (hns h).elim⟩

theorem runViews_cons {v : View V} {vs : List (View V)} {r : List V} {s : σ} :
    runViews W (v :: vs) r s = match v.run W r s with
      | .error e => .error e
      | .ok (r', s') => runViews W vs r' s' := rfl

/-- A chain with a scrubbing filter that comes before any reader. -/
theorem chain_same {c : Str} : ∀ {pre : List (FilterCfg V)} {f : FilterCfg V} {post : List (FilterCfg V)}
    {cols : List Str} {vs : List (View V)} {colsOut : List Str},
    constructLoop W cols (pre ++ f :: post) = .ok (vs, colsOut) → cols.Nodup →
    (∀ g ∈ pre, c ∉ FilterCfg.reads g) → FilterCfg.Scrubs f c →
    ∀ {r r' : List V}, r.length = cols.length → SameBut cols c r r' → ∀ s : σ,
    runViews W vs r s = runViews W vs r' s
  | [], f, post, cols, vs, colsOut, h, hnd, _, hsc, r, r', hl, hs, s => by
    obtain ⟨v, vs', rfl, h1, -⟩ := construct_loop_cons h
    have hreads : c ∉ FilterCfg.reads f := by
      obtain ⟨g, rfl, -, h2⟩ := hsc
      exact h2
    rw [runViews_cons, runViews_cons]
    rcases view_same h1 hnd hl hs hreads s with ⟨e, h2, h3⟩ | ⟨a, b, s', h2, h3, -, h4⟩
    · rw [h2, h3]
    · rw [h2, h3, h4 hsc]
  | g :: pre, f, post, cols, vs, colsOut, h, hnd, hp, hsc, r, r', hl, hs, s => by
    obtain ⟨v, vs', rfl, h1, h2⟩ := construct_loop_cons h
    rw [runViews_cons, runViews_cons]
    rcases view_same h1 hnd hl hs (hp g (.head _)) s with ⟨e, h3, h4⟩ | ⟨a, b, s', h3, h4, h5, -⟩
    · rw [h3, h4]
    · rw [h3, h4]
      dsimp only
      have hnd' : v.colsOut.Nodup := by rw [view_colsOut h1]; exact hnd.filter _
      exact chain_same h2 hnd' (fun g hg => hp g (.tail _ hg)) hsc (view_run h1 hnd hl h3).1 h5 s'

end Subsetter
