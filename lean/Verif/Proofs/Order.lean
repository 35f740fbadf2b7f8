import Verif.Proofs.Reverse

/- `toposort_reachable` and `order_graph`. -/
namespace Subsetter
open Spec

set_option linter.unusedSectionVars false

theorem natSum_ge_of_mem {l : List Nat} {n : Nat} (h : n ∈ l) : n ≤ l.sum := by
  induction l with
  | nil => simp at h
  | cons a l ih =>
    rw [List.sum_cons]
    rcases List.mem_cons.1 h with rfl | h
    · omega
    · have := ih h; omega

section
variable {α : Type u} [LinearOrder α]

instance : Std.Total (weightGe (α := α)) := ⟨fun a b => by
  unfold weightGe
  rcases lt_trichotomy a.2 b.2 with h | h | h
  · exact Or.inr (Or.inl h)
  · rcases le_total a.1 b.1 with h' | h'
    · exact Or.inr (Or.inr ⟨h, h'⟩)
    · exact Or.inl (Or.inr ⟨h.symm, h'⟩)
  · exact Or.inl (Or.inl h)⟩

instance : IsTrans (α × Nat) (weightGe (α := α)) := ⟨fun a b c => by
  unfold weightGe
  rintro (h | ⟨h, h'⟩) (g | ⟨g, g'⟩)
  · exact Or.inl (lt_trans g h)
  · exact Or.inl (g ▸ h)
  · exact Or.inl (h ▸ g)
  · exact Or.inr ⟨g.trans h, le_trans g' h'⟩⟩

instance : Std.Antisymm (weightGe (α := α)) := ⟨fun a b => by
  unfold weightGe
  rintro (h | ⟨h, h'⟩) (g | ⟨g, g'⟩)
  · omega
  · omega
  · omega
  · exact Prod.ext (le_antisymm g' h') g⟩

/-- Members of the frame equation. -/
theorem Done.lt {G : Graph α} (hG : IsGraph G) {ig : List α} {P : α → Prop} {w : Dict α Nat}
    (hw : Done G ig P w) {x y : α} (hx : (dget w x).isSome) (hxy : Edge G x y) (hy : y ∉ ig) :
    (dget w y).isSome ∧ wt w y < wt w x := by
  have hf := hw.fin x hx
  have hm := (edge_iff_nbr hG.keys_nodup).1 hxy
  refine ⟨(hf.1 y hm hy).1, ?_⟩
  rw [hf.2]
  have : wt w y ∈ (((nbr G x).filter (· ∉ ig)).map (wt w)) := by
    apply List.mem_map_of_mem
    rw [List.mem_filter]; exact ⟨hm, by simpa using hy⟩
  have := natSum_ge_of_mem this
  omega

theorem before_of_pairwise {R : β → β → Prop} : ∀ {l : List β} {a b : β},
    l.Pairwise R → a ∈ l → b ∈ l → a ≠ b → ¬ R b a → Before l a b := by
  intro l a b hl ha hb hne hR
  induction l with
  | nil => simp at ha
  | cons c l ih =>
    rw [List.pairwise_cons] at hl
    rcases List.mem_cons.1 ha with rfl | ha'
    · have hb' := (List.mem_cons.1 hb).resolve_left (Ne.symm hne)
      obtain ⟨s, t, rfl⟩ := List.append_of_mem hb'
      exact ⟨[], s, t, rfl⟩
    · rcases List.mem_cons.1 hb with rfl | hb'
      · exact absurd (hl.1 a ha') hR
      · obtain ⟨l₁, l₂, l₃, h⟩ := ih hl.2 ha' hb'
        exact ⟨c :: l₁, l₂, l₃, by rw [h]; rfl⟩

theorem before_map {β γ : Type*} (f : β → γ) {l : List β} {a b : β} (h : Before l a b) :
    Before (l.map f) (f a) (f b) := by
  obtain ⟨l₁, l₂, l₃, rfl⟩ := h
  exact ⟨l₁.map f, l₂.map f, l₃.map f, by simp⟩

theorem before_append_left {β : Type*} {l l' : List β} {a b : β} (h : Before l a b) :
    Before (l ++ l') a b := by
  obtain ⟨l₁, l₂, l₃, rfl⟩ := h
  exact ⟨l₁, l₂, l₃ ++ l', by simp⟩

theorem before_append_right {β : Type*} {l l' : List β} {a b : β} (h : Before l a b) :
    Before (l' ++ l) a b := by
  obtain ⟨l₁, l₂, l₃, rfl⟩ := h
  exact ⟨l' ++ l₁, l₂, l₃, by simp⟩

theorem before_append_mem {β : Type*} {l l' : List β} {a b : β} (ha : a ∈ l) (hb : b ∈ l') :
    Before (l ++ l') a b := by
  obtain ⟨s, t, rfl⟩ := List.append_of_mem ha
  obtain ⟨s', t', rfl⟩ := List.append_of_mem hb
  exact ⟨s, t ++ s', t', by simp⟩

theorem before_mem {β : Type*} {l : List β} {a b : β} (h : Before l a b) : a ∈ l ∧ b ∈ l := by
  obtain ⟨l₁, l₂, l₃, rfl⟩ := h
  simp

theorem before_append_cases {β : Type*} {l l' : List β} {a b : β} (h : Before (l ++ l') a b) :
    Before l a b ∨ (a ∈ l ∧ b ∈ l') ∨ Before l' a b := by
  induction l with
  | nil => exact Or.inr (Or.inr h)
  | cons c l ih =>
    obtain ⟨l₁, l₂, l₃, h⟩ := h
    cases l₁ with
    | nil =>
      simp only [List.cons_append, List.nil_append, List.cons.injEq] at h
      obtain ⟨rfl, h⟩ := h
      have hb : b ∈ l ++ l' := by rw [h]; simp
      rcases List.mem_append.1 hb with hb | hb
      · obtain ⟨s, t, rfl⟩ := List.append_of_mem hb
        exact Or.inl ⟨[], s, t, rfl⟩
      · exact Or.inr (Or.inl ⟨by simp, hb⟩)
    | cons d l₁ =>
      simp only [List.cons_append, List.cons.injEq] at h
      obtain ⟨rfl, h⟩ := h
      rcases ih ⟨l₁, l₂, l₃, h⟩ with ⟨m₁, m₂, m₃, rfl⟩ | ⟨h1, h2⟩ | h1
      · exact Or.inl ⟨c :: m₁, m₂, m₃, rfl⟩
      · exact Or.inr (Or.inl ⟨List.mem_cons_of_mem _ h1, h2⟩)
      · exact Or.inr (Or.inr h1)

theorem before_cons_mem {β : Type*} {l : List β} {c a b : β} (h : Before (c :: l) a b) : b ∈ l := by
  obtain ⟨l₁, l₂, l₃, h⟩ := h
  cases l₁ with
  | nil => simp only [List.nil_append, List.cons.injEq] at h; rw [h.2]; simp
  | cons d l₁ => simp only [List.cons_append, List.cons.injEq] at h; rw [h.2]; simp

theorem before_asymm {β : Type*} {l : List β} (hl : l.Nodup) {a b : β} (h : Before l a b) :
    ¬ Before l b a := by
  induction l with
  | nil => obtain ⟨l₁, l₂, l₃, h⟩ := h; simp at h
  | cons c l ih =>
    rw [List.nodup_cons] at hl
    intro h'
    have h1 : Before ([c] ++ l) a b := h
    have h2 : Before ([c] ++ l) b a := h'
    have hs : ∀ x y : β, ¬ Before [c] x y := by
      rintro x y ⟨l₁, l₂, l₃, h⟩
      have := congrArg List.length h
      simp at this; omega
    rcases before_append_cases h1 with h1 | ⟨h1, h1'⟩ | h1
    · exact hs _ _ h1
    · rcases before_append_cases h2 with h2 | ⟨h2, h2'⟩ | h2
      · exact hs _ _ h2
      · simp only [List.mem_singleton] at h1 h2; subst h1; exact hl.1 h2'
      · simp only [List.mem_singleton] at h1; subst h1; exact hl.1 (before_cons_mem h')
    · rcases before_append_cases h2 with h2 | ⟨h2, h2'⟩ | h2
      · exact hs _ _ h2
      · simp only [List.mem_singleton] at h2; subst h2; exact hl.1 (before_cons_mem h)
      · exact ih hl.2 h1 h2

theorem before_irrefl {β : Type*} {l : List β} (hl : l.Nodup) {a : β} : ¬ Before l a a :=
  fun h => before_asymm hl h h

/-- What one call of `toposort_reachable` delivers. -/
structure ReachOK (A : Graph α) (src ig H : List α) : Prop where
  nodup : H.Nodup
  fresh : ∀ x ∈ H, x ∉ ig ∧ Node A x
  from_src : ∀ s ∈ src, ∀ u, Edge A s u → u ∉ ig → u ∈ H
  step : ∀ x ∈ H, ∀ y, Edge A x y → y ∉ ig → y ∈ H
  sorted : ∀ x ∈ H, ∀ y ∈ H, Edge A x y → Before H x y
  noloop : ∀ x ∈ H, ¬ Edge A x x

theorem wt_of_mem {w : Dict α Nat} (hw : (w.map Prod.fst).Nodup) {p : α × Nat} (hp : p ∈ w) :
    wt w p.1 = p.2 := by
  simp [wt, dget_of_mem hw (k := p.1) (v := p.2) hp]

theorem done_nil (G : Graph α) (ig : List α) (P : α → Prop) : Done G ig P [] :=
  ⟨by simp, by simp, by simp⟩

theorem mem_sortedKeys {w : Dict α Nat} {x : α} :
    x ∈ (w.insertionSort weightGe).map Prod.fst ↔ (dget w x).isSome := by
  rw [dget_isSome_iff]
  exact ((List.perm_insertionSort weightGe w).map Prod.fst).mem_iff

theorem toposortReachable_spec {G : Graph α} (hG : IsGraph G) {src ig : List α}
    (hsrc : ∀ s ∈ src, Node G s ∧ s ∈ ig) {P : α → Prop}
    (hP : ∀ x y, P x → Edge G x y → y ∉ ig → P y)
    (hPs : ∀ s ∈ src, ∀ u, Edge G s u → u ∉ ig → P u) :
    match toposortReachable G src ig with
    | .ok H => ReachOK G src ig H ∧ ∀ x ∈ H, P x
    | .error e => CycleReport G ig P e := by
  have h := reachSources_spec hG hP src [] (done_nil G ig P) (fun s hs => (hsrc s hs).1)
    (fun s hs => (hsrc s hs).2) hPs
  unfold toposortReachable
  cases hr : reachSources G ig src [] with
  | error e => rw [hr] at h; simpa using h
  | ok w =>
    rw [hr] at h
    simp only at h ⊢
    obtain ⟨hw, -, hsucc⟩ := h
    refine ⟨⟨?_, ?_, ?_, ?_, ?_, ?_⟩, ?_⟩
    · exact ((List.perm_insertionSort weightGe w).map Prod.fst).nodup_iff.2 hw.wnd
    · intro x hx
      obtain ⟨h1, h2, -⟩ := hw.good x (mem_sortedKeys.1 hx)
      exact ⟨h1, h2⟩
    · intro s hs u hu hui
      exact mem_sortedKeys.2 (hsucc s hs u hu hui)
    · intro x hx y hxy hy
      exact mem_sortedKeys.2 (hw.lt hG (mem_sortedKeys.1 hx) hxy hy).1
    · intro x hx y hy hxy
      have hyi := (hw.good y (mem_sortedKeys.1 hy)).1
      have hlt := (hw.lt hG (mem_sortedKeys.1 hx) hxy hyi).2
      obtain ⟨p, hp, rfl⟩ := List.mem_map.1 hx
      obtain ⟨q, hq, rfl⟩ := List.mem_map.1 hy
      apply before_map
      have hp' := (List.mem_insertionSort weightGe).1 hp
      have hq' := (List.mem_insertionSort weightGe).1 hq
      rw [wt_of_mem hw.wnd hp', wt_of_mem hw.wnd hq'] at hlt
      refine before_of_pairwise (List.pairwise_insertionSort weightGe w) hp hq ?_ ?_
      · rintro rfl; omega
      · unfold weightGe; omega
    · intro x hx hxx
      have hxw := mem_sortedKeys.1 hx
      have := (hw.lt hG hxw hxx (hw.good x hxw).1).2
      omega
    · intro x hx
      exact (hw.good x (mem_sortedKeys.1 hx)).2.2

/-- `toposort_reachable` returns or reports a cycle. -/
theorem toposortReachable_cases {G : Graph α} (hG : IsGraph G) {src ig : List α}
    (hsrc : ∀ s ∈ src, Node G s ∧ s ∈ ig) {P : α → Prop}
    (hP : ∀ x y, P x → Edge G x y → y ∉ ig → P y)
    (hPs : ∀ s ∈ src, ∀ u, Edge G s u → u ∉ ig → P u) :
    (∃ H, toposortReachable G src ig = .ok H ∧ ReachOK G src ig H ∧ (∀ x ∈ H, P x) ∧
      ∀ x ∈ H, ∃ v, (v ∈ src ∨ v ∈ H) ∧ Edge G v x) ∨
    (∃ e, toposortReachable G src ig = .error e ∧ CycleReport G ig P e) := by
  have h := toposortReachable_spec hG hsrc hP hPs
  cases hr : toposortReachable G src ig with
  | error e => rw [hr] at h; exact Or.inr ⟨e, rfl, h⟩
  | ok H =>
    rw [hr] at h
    refine Or.inl ⟨H, rfl, h.1, h.2, ?_⟩
    have h2 := toposortReachable_spec hG hsrc
      (P := fun x => x ∈ H ∧ ∃ v, (v ∈ src ∨ v ∈ H) ∧ Edge G v x)
      (fun x y hx hxy hy => ⟨h.1.step x hx.1 y hxy hy, x, Or.inr hx.1, hxy⟩)
      (fun s hs u hu hui => ⟨h.1.from_src s hs u hu hui, s, Or.inl hs, hu⟩)
    rw [hr] at h2
    intro x hx
    exact (h2.2 x hx).2

/-- One-direction condition for one node. -/
def OneDir (E : α → α → Prop) (l : List α) (u : α) : Prop :=
  ((∃ v, Before l v u ∧ E v u) ∧ ¬ ∃ v, Before l v u ∧ E u v) ∨
  ((∃ v, Before l v u ∧ E u v) ∧ ¬ ∃ v, Before l v u ∧ E v u)

/-- Invariant of `while H` in `order_graph`; `A` is the graph used next. -/
structure PhaseInv (A : Graph α) (s : α) (H vis result : List α) : Prop where
  head : result.head? = some s
  nodup : result.Nodup
  vis_eq : ∀ x, x ∈ vis ↔ x ∈ result
  node : ∀ x ∈ result, Node A x
  H_sub : ∀ x ∈ H, x ∈ result
  closed : ∀ x ∈ result, x ∉ H → ∀ y, Edge A x y ∨ Edge A y x → y ∈ result
  preds : ∀ x ∈ H, ∀ y, Edge A y x → y ∈ result
  onedir : ∀ u ∈ result, u ≠ s → OneDir (Edge A) result u
  noloop : ∀ u ∈ result, u ≠ s → ¬ Edge A u u
  conn : ∀ u ∈ result, Connected A s u

/-- Final condition. -/
structure OrderOK (A : Graph α) (s : α) (result : List α) : Prop where
  head : result.head? = some s
  nodup : result.Nodup
  node : ∀ x ∈ result, Node A x
  closed : ∀ x ∈ result, ∀ y, Edge A x y ∨ Edge A y x → y ∈ result
  onedir : ∀ u ∈ result, u ≠ s → OneDir (Edge A) result u
  noloop : ∀ u ∈ result, u ≠ s → ¬ Edge A u u
  conn : ∀ u ∈ result, Connected A s u

theorem connected_swap {A B : Graph α} (hAB : ∀ u v, Edge B u v ↔ Edge A v u) {s u : α}
    (h : Connected A s u) : Connected B s u := by
  unfold Connected at *
  refine Relation.ReflTransGen.mono ?_ _ _ h
  rintro a b (h | h)
  · exact Or.inr ((hAB b a).2 h)
  · exact Or.inl ((hAB a b).2 h)

theorem OneDir.swap {E F : α → α → Prop} (hEF : ∀ u v, F u v ↔ E v u) {l : List α} {u : α}
    (h : OneDir E l u) : OneDir F l u := by
  unfold OneDir at *
  simp only [hEF]
  exact h.symm

theorem length_le_of_nodes {A : Graph α} {l : List α} (h1 : l.Nodup) (h2 : ∀ x ∈ l, Node A x) :
    l.length ≤ A.length := by
  have : l.Subperm (A.map Prod.fst) := List.subperm_of_subset h1 h2
  simpa using this.length_le

theorem PhaseInv.next {A B : Graph α} (hAB : ∀ u v, Edge B u v ↔ Edge A v u)
    (hN : ∀ u, Node B u ↔ Node A u) {s : α} {H H' vis result : List α}
    (h : PhaseInv A s H vis result) (hH : ReachOK A H vis H')
    (hpred : ∀ x ∈ H', ∃ v, (v ∈ H ∨ v ∈ H') ∧ Edge A v x)
    (hconn : ∀ x ∈ H', Connected A s x) :
    PhaseInv B s H' (setUnion vis H') (result ++ H') := by
  have hfr : ∀ x ∈ H', x ∉ result := fun x hx hr => (hH.fresh x hx).1 ((h.vis_eq x).2 hr)
  have hndp : (result ++ H').Nodup := by
    rw [List.nodup_append]
    refine ⟨h.nodup, hH.nodup, ?_⟩
    rintro x hx y hy rfl
    exact hfr x hy hx
  have hin : ∀ y, y ∉ vis ∧ y ∈ H' ∨ y ∈ vis → y ∈ result ++ H' := by
    rintro y (⟨-, h1⟩ | h1)
    · exact List.mem_append_right _ h1
    · exact List.mem_append_left _ ((h.vis_eq y).1 h1)
  refine ⟨?_, hndp, ?_, ?_, fun x hx => List.mem_append_right _ hx, ?_, ?_, ?_, ?_, ?_⟩
  · rw [List.head?_append, h.head]; rfl
  · intro x; rw [mem_setUnion, List.mem_append, h.vis_eq]
  · intro x hx
    rw [hN]
    rcases List.mem_append.1 hx with hx | hx
    · exact h.node x hx
    · exact (hH.fresh x hx).2
  · intro x hx hxH' y hy
    have hx' := (List.mem_append.1 hx).resolve_right hxH'
    have hy' : Edge A x y ∨ Edge A y x := by
      rcases hy with hy | hy
      · exact Or.inr ((hAB x y).1 hy)
      · exact Or.inl ((hAB y x).1 hy)
    by_cases hxH : x ∈ H
    · rcases hy' with hy | hy
      · by_cases hyv : y ∈ vis
        · exact hin y (Or.inr hyv)
        · exact List.mem_append_right _ (hH.from_src x hxH y hy hyv)
      · exact List.mem_append_left _ (h.preds x hxH y hy)
    · exact List.mem_append_left _ (h.closed x hx' hxH y hy')
  · intro x hx y hy
    have hy' := (hAB y x).1 hy
    by_cases hyv : y ∈ vis
    · exact hin y (Or.inr hyv)
    · exact List.mem_append_right _ (hH.step x hx y hy' hyv)
  · intro u hu hus
    apply OneDir.swap hAB
    rcases List.mem_append.1 hu with hu | hu
    · have hno : ∀ v, Before (result ++ H') v u ↔ Before result v u := by
        intro v
        refine ⟨fun hb => ?_, before_append_left⟩
        rcases before_append_cases hb with hb | hb | hb
        · exact hb
        · exact absurd hu (hfr u hb.2)
        · exact absurd hu (hfr u (before_mem hb).2)
      have := h.onedir u hu hus
      unfold OneDir at this ⊢
      simpa only [hno] using this
    · left
      refine ⟨?_, ?_⟩
      · obtain ⟨v, hv, hvu⟩ := hpred u hu
        refine ⟨v, ?_, hvu⟩
        rcases hv with hv | hv
        · exact before_append_mem (h.H_sub v hv) hu
        · exact before_append_right (hH.sorted v hv u hu hvu)
      · rintro ⟨v, hb, huv⟩
        have hvr : ∀ v, v ∈ result → Edge A u v → False := by
          intro v hv huv
          by_cases hvH : v ∈ H
          · exact hfr u hu (h.preds v hvH u huv)
          · exact hfr u hu (h.closed v hv hvH u (Or.inr huv))
        rcases before_append_cases hb with hb | hb | hb
        · exact hvr v (before_mem hb).1 huv
        · exact hvr v hb.1 huv
        · exact before_asymm hH.nodup hb (hH.sorted u hu v (before_mem hb).1 huv)
  · intro u hu hus huu
    rw [hAB] at huu
    rcases List.mem_append.1 hu with hu | hu
    · exact h.noloop u hu hus huu
    · exact hH.noloop u hu huu
  · intro u hu
    rcases List.mem_append.1 hu with hu | hu
    · exact connected_swap hAB (h.conn u hu)
    · exact connected_swap hAB (hconn u hu)

/-- Cycle report in either orientation. -/
def CycleIn (A : Graph α) (s : α) (e : SolverErr α) : Prop :=
  ∃ c, e = .cycle c ∧ (ClosedChain (Edge A) c ∨ ClosedChain (fun a b => Edge A b a) c) ∧
    ∀ x ∈ c, Connected A s x

theorem CycleIn.swap {A B : Graph α} (hAB : ∀ u v, Edge B u v ↔ Edge A v u) {s : α}
    {e : SolverErr α} (h : CycleIn A s e) : CycleIn B s e := by
  obtain ⟨c, h1, h2, h3⟩ := h
  refine ⟨c, h1, ?_, fun x hx => connected_swap hAB (h3 x hx)⟩
  have e1 : Edge B = fun a b => Edge A b a := by funext a b; exact propext (hAB a b)
  have e2 : (fun a b => Edge B b a) = Edge A := by funext a b; exact propext (hAB b a)
  rw [e2, e1]; exact h2.symm

theorem OrderOK.swap {A B : Graph α} (hAB : ∀ u v, Edge B u v ↔ Edge A v u)
    (hN : ∀ u, Node B u ↔ Node A u) {s : α} {l : List α} (h : OrderOK A s l) : OrderOK B s l := by
  refine ⟨h.head, h.nodup, fun x hx => (hN x).2 (h.node x hx), ?_, ?_, ?_, ?_⟩
  · intro x hx y hy
    rw [hAB, hAB] at hy
    exact h.closed x hx y hy.symm
  · intro u hu hus; exact (h.onedir u hu hus).swap hAB
  · intro u hu hus; rw [hAB]; exact h.noloop u hu hus
  · intro u hu; exact connected_swap hAB (h.conn u hu)

theorem orderLoop_spec {s : α} : ∀ (n : Nat) (A B : Graph α) (H vis result : List α),
    IsGraph A → IsGraph B → (∀ u v, Edge B u v ↔ Edge A v u) → (∀ u, Node B u ↔ Node A u) →
    PhaseInv A s H vis result → A.length = B.length → (H ≠ [] → A.length + 1 ≤ n + result.length) →
    (∃ l, orderLoop n A B H vis result = .ok l ∧ OrderOK A s l) ∨
    (∃ e, orderLoop n A B H vis result = .error e ∧ CycleIn A s e) := by
  intro n
  induction n with
  | zero =>
    intro A B H vis result hA hB hAB hN h hlen hn
    cases H with
    | nil =>
      exact Or.inl ⟨result, by simp [orderLoop], h.head, h.nodup, h.node,
        fun x hx y hy => h.closed x hx (by simp) y hy, h.onedir, h.noloop, h.conn⟩
    | cons a H =>
      have := hn (by simp)
      have := length_le_of_nodes h.nodup h.node
      omega
  | succ n ih =>
    intro A B H vis result hA hB hAB hN h hlen hn
    cases H with
    | nil =>
      exact Or.inl ⟨result, by simp [orderLoop], h.head, h.nodup, h.node,
        fun x hx y hy => h.closed x hx (by simp) y hy, h.onedir, h.noloop, h.conn⟩
    | cons a H =>
      have hsrc : ∀ x ∈ a :: H, Node A x ∧ x ∈ vis := fun x hx =>
        ⟨h.node x (h.H_sub x hx), (h.vis_eq x).2 (h.H_sub x hx)⟩
      rcases toposortReachable_cases hA hsrc (P := fun x => Connected A s x)
        (fun x y hx hxy _ => Relation.ReflTransGen.tail hx (Or.inl hxy))
        (fun x hx u hu _ => Relation.ReflTransGen.tail (h.conn x (h.H_sub x hx)) (Or.inl hu)) with
        ⟨H', h1, h2, h3, h4⟩ | ⟨e, h1, c, rfl, h3, h4⟩
      · have hnext := h.next hAB hN h2 h4 h3
        have := ih B A H' _ _ hB hA (fun u v => (hAB v u).symm) (fun u => (hN u).symm) hnext
          hlen.symm (by
            intro hne
            have := List.length_pos_of_ne_nil hne
            rw [List.length_append]
            have := hn (by simp)
            omega)
        simp only [orderLoop, h1]
        rcases this with ⟨l, h5, h6⟩ | ⟨e, h5, h6⟩
        · exact Or.inl ⟨l, h5, h6.swap (fun u v => (hAB v u).symm) (fun u => (hN u).symm)⟩
        · exact Or.inr ⟨e, h5, h6.swap (fun u v => (hAB v u).symm)⟩
      · right
        exact ⟨.cycle c, by simp only [orderLoop, h1], c, rfl, Or.inl h3, fun x hx => (h4 x hx).2.2⟩

/-- The source is not both referencing and referenced. -/
def SourceOK (G : Graph α) (s : α) : Prop := (∀ v, ¬ Edge G v s) ∨ ∀ v, ¬ Edge G s v

theorem phaseInv_init {A : Graph α} {s : α} (hs : Node A s) (hp : ∀ y, ¬ Edge A y s) :
    PhaseInv A s [s] [s] [s] := by
  refine ⟨rfl, by simp, by simp, by simpa using hs, by simp, by simp, ?_, by simp, by simp, ?_⟩
  · intro x hx y hy
    simp only [List.mem_singleton] at hx
    subst hx; exact absurd hy (hp y)
  · intro u hu
    simp only [List.mem_singleton] at hu
    subst hu; exact Relation.ReflTransGen.refl

theorem orderGraph_spec {G : Graph α} (hG : IsGraph G) {s : α} (hs : Node G s)
    (hso : SourceOK G s) :
    (∃ l, orderGraph G s = .ok l ∧ OrderOK G s l) ∨
    (∃ e, orderGraph G s = .error e ∧ CycleIn G s e) := by
  obtain ⟨RG, h1, h2, h3, h4⟩ := reverseGraph_spec hG false
  have hE : ∀ u v, Edge RG u v ↔ Edge G v u := by intro u v; rw [h4]; simp
  have hN : ∀ u, Node RG u ↔ Node G u := by intro u; unfold Node; rw [h3]
  have hlen : G.length = RG.length := by
    have := congrArg List.length h3; simpa using this.symm
  simp only [orderGraph, h1, succs_of_node hs]
  by_cases ho : (nbr G s).isEmpty
  · rw [if_pos ho]
    have hout : ∀ v, ¬ Edge G s v := by
      intro v hv
      rw [edge_iff_nbr hG.keys_nodup] at hv
      rw [List.isEmpty_iff] at ho
      rw [ho] at hv; simp at hv
    have := orderLoop_spec (s := s) (G.length + 1) RG G [s] [s] [s] h2 hG
      (fun u v => (hE v u).symm) (fun u => (hN u).symm)
      (phaseInv_init ((hN s).2 hs) (fun y hy => hout y ((hE y s).1 hy))) hlen.symm
      (by intro _; simp; omega)
    rcases this with ⟨l, h5, h6⟩ | ⟨e, h5, h6⟩
    · exact Or.inl ⟨l, h5, h6.swap (fun u v => (hE v u).symm) (fun u => (hN u).symm)⟩
    · exact Or.inr ⟨e, h5, h6.swap (fun u v => (hE v u).symm)⟩
  · rw [if_neg ho]
    have hin : ∀ v, ¬ Edge G v s := by
      rcases hso with h | h
      · exact h
      · exfalso; apply ho
        rw [List.isEmpty_iff, List.eq_nil_iff_forall_not_mem]
        intro v hv
        exact h v ((edge_iff_nbr hG.keys_nodup).2 hv)
    exact orderLoop_spec (s := s) (G.length + 1) G RG [s] [s] [s] hG h2 hE hN
      (phaseInv_init hs hin) hlen (by intro _; simp)

theorem OrderOK.source_mem {A : Graph α} {s : α} {l : List α} (h : OrderOK A s l) : s ∈ l := by
  have := h.head
  cases l with
  | nil => simp at this
  | cons a l => simp at this; simp [this]

theorem OrderOK.mem_iff {A : Graph α} {s : α} {l : List α} (h : OrderOK A s l) (u : α) :
    u ∈ l ↔ Connected A s u := by
  refine ⟨h.conn u, fun hc => ?_⟩
  induction hc with
  | refl => exact h.source_mem
  | tail _ hb ih => exact h.closed _ ih _ hb

theorem exists_last {β : Type*} (C : β → Prop) {l : List β} (h : ∃ x ∈ l, C x) :
    ∃ l₁ x l₂, l = l₁ ++ x :: l₂ ∧ C x ∧ ∀ y ∈ l₂, ¬ C y := by
  classical
  induction l with
  | nil => simp at h
  | cons a l ih =>
    by_cases hl : ∃ x ∈ l, C x
    · obtain ⟨l₁, x, l₂, rfl, h2, h3⟩ := ih hl
      exact ⟨a :: l₁, x, l₂, rfl, h2, h3⟩
    · obtain ⟨x, hx, hC⟩ := h
      rcases List.mem_cons.1 hx with rfl | hx
      · exact ⟨[], x, l, rfl, hC, fun y hy hCy => hl ⟨y, hy, hCy⟩⟩
      · exact absurd ⟨x, hx, hC⟩ hl

theorem connected_of_reflTransGen {A : Graph α} {s u v : α} (h : Connected A s u)
    (h' : Relation.ReflTransGen (Edge A) u v) : Connected A s v := by
  unfold Connected at *
  exact h.trans (Relation.ReflTransGen.mono (fun a b hab => Or.inl hab) _ _ h')

/-- A successful order excludes cycles. -/
theorem OrderOK.acyclic {A : Graph α} {s : α} (hso : SourceOK A s) {l : List α} (h : OrderOK A s l)
    {u : α} (hu : Connected A s u) : ¬ OnCycle A u := by
  intro hcyc
  unfold OnCycle at hcyc
  let C : α → Prop := fun x => Relation.TransGen (Edge A) u x ∧ Relation.TransGen (Edge A) x u
  have hCl : ∀ x, C x → x ∈ l := fun x hx =>
    (h.mem_iff x).2 (connected_of_reflTransGen hu hx.1.to_reflTransGen)
  have hCs : ∀ x, C x → ∃ y, Edge A x y ∧ C y := by
    rintro x ⟨h1, h2⟩
    obtain ⟨y, h3, h4⟩ := Relation.TransGen.head'_iff.1 h2
    refine ⟨y, h3, h1.tail h3, ?_⟩
    exact Relation.TransGen.trans_right h4 hcyc
  have hCp : ∀ x, C x → ∃ y, Edge A y x ∧ C y := by
    rintro x ⟨h1, h2⟩
    obtain ⟨y, h3, h4⟩ := Relation.TransGen.tail'_iff.1 h1
    refine ⟨y, h4, ?_, Relation.TransGen.head h4 h2⟩
    exact Relation.TransGen.trans_left hcyc h3
  obtain ⟨l₁, x, l₂, hl, hx, hlast⟩ := exists_last C ⟨u, hCl u ⟨hcyc, hcyc⟩, hcyc, hcyc⟩
  obtain ⟨p, hp, hpC⟩ := hCp x hx
  obtain ⟨q, hq, hqC⟩ := hCs x hx
  have hxs : x ≠ s := by
    rintro rfl
    rcases hso with h | h
    · exact h p hp
    · exact h q hq
  have hloop := h.noloop x (hCl x hx) hxs
  have hbef : ∀ y, C y → y ≠ x → Before l y x := by
    intro y hy hne
    have := hCl y hy
    rw [hl] at this ⊢
    simp only [List.mem_append, List.mem_cons] at this
    rcases this with h5 | h5 | h5
    · exact before_append_mem h5 (by simp)
    · exact absurd h5 hne
    · exact absurd hy (hlast y h5)
  have hb1 := hbef p hpC (by rintro rfl; exact hloop hp)
  have hb2 := hbef q hqC (by rintro rfl; exact hloop hq)
  rcases h.onedir x (hCl x hx) hxs with ⟨-, h5⟩ | ⟨-, h5⟩
  · exact h5 ⟨q, hb2, hq⟩
  · exact h5 ⟨p, hb1, hp⟩

theorem isChain_trans {R : α → α → Prop} : ∀ (l : List α) (a b : α),
    List.IsChain R (a :: (l ++ [b])) → Relation.TransGen R a b := by
  intro l
  induction l with
  | nil => intro a b h; simp at h; exact Relation.TransGen.single h
  | cons c l ih =>
    intro a b h
    simp only [List.cons_append, List.isChain_cons_cons] at h
    exact Relation.TransGen.head h.1 (ih c b h.2)

theorem closedChain_onCycle {R : α → α → Prop} {c : List α} (h : ClosedChain R c) :
    ∃ x ∈ c, Relation.TransGen R x x := by
  cases c with
  | nil => exact absurd h (by simp [ClosedChain])
  | cons a c => exact ⟨a, by simp, isChain_trans c a a h⟩

theorem closedChain_rev_onCycle {A : Graph α} {c : List α}
    (h : ClosedChain (Edge A) c ∨ ClosedChain (fun a b => Edge A b a) c) :
    ∃ x ∈ c, OnCycle A x := by
  rcases h with h | h
  · exact closedChain_onCycle h
  · obtain ⟨x, hx, hc⟩ := closedChain_onCycle h
    refine ⟨x, hx, ?_⟩
    exact Relation.transGen_swap.1 hc

end
end Subsetter
