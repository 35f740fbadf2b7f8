import Verif.Proofs.Simplify

/- Simplification terminates: the fuel given by the size of the tree is always enough. -/
set_option linter.unusedSimpArgs false
namespace Subsetter

theorem sizes_eq_sum (cs : List Where) : Where.sizes cs = (cs.map Where.size).sum := by
  induction cs with
  | nil => rfl
  | cons c cs ih => rw [Where.sizes, ih]; rfl

theorem selSizes_eq_sum (cs : List Sel) : Sel.sizes cs = (cs.map Sel.size).sum := by
  induction cs with
  | nil => rfl
  | cons c cs ih => rw [Sel.sizes, ih]; rfl

theorem sizes_append (a b : List Where) : Where.sizes (a ++ b) = Where.sizes a + Where.sizes b := by
  simp [sizes_eq_sum]

theorem size_pos (w : Where) : 1 ≤ w.size := by
  cases w <;> simp [Where.size]

theorem sel_size (s : Sel) : s.size = 3 + (match s.where_ with | none => 0 | some w => w.size) := by
  obtain ⟨c, f, w, l, j, o, g⟩ := s
  cases w <;> simp [Sel.size]

theorem andParts_size (c : Where) : Where.sizes c.andParts ≤ c.size := by
  unfold Where.andParts; split <;> simp [Where.size, Where.sizes]

theorem orParts_size (c : Where) : Where.sizes c.orParts ≤ c.size := by
  unfold Where.orParts; split <;> simp [Where.size, Where.sizes]

theorem flat_size (p : Where → Bool) (f : Where → List Where)
    (hf : ∀ c, Where.sizes (f c) ≤ c.size) (cs : List Where) :
    Where.sizes ((cs.filter p).flatMap f) ≤ Where.sizes cs := by
  induction cs with
  | nil => simp [Where.sizes]
  | cons c cs ih =>
    rw [List.filter_cons, Where.sizes]
    split
    · rw [List.flatMap_cons, sizes_append]
      have := hf c; omega
    · omega

theorem andFinish_size (cs : List Where) : (andFinish cs).size ≤ 1 + Where.sizes cs := by
  have h := flat_size (fun c => !c.isTrue) _ andParts_size cs
  unfold andFinish
  revert h
  generalize (cs.filter fun c => !c.isTrue).flatMap Where.andParts = l
  intro h
  by_cases h' : l.any Where.isFalse = true
  · simp [h', Where.size]
  · simp only [h']
    rcases l with _ | ⟨a, _ | ⟨b, l⟩⟩
    · simp [Where.size]
    · simp only [Where.sizes] at h; simp; omega
    · simpa [Where.size] using h

theorem orFinish_size (cs : List Where) : (orFinish cs).size ≤ 1 + Where.sizes cs := by
  have h := flat_size (fun c => !c.isFalse) _ orParts_size cs
  unfold orFinish
  revert h
  generalize (cs.filter fun c => !c.isFalse).flatMap Where.orParts = l
  intro h
  by_cases h' : l.any Where.isTrue = true
  · simp [h', Where.size]
  · simp only [h']
    rcases l with _ | ⟨a, _ | ⟨b, l⟩⟩
    · simp [Where.size]
    · simp only [Where.sizes] at h; simp; omega
    · simpa [Where.size] using h

theorem randomSimplify_size (thr : Rat) (g : Nat) : (randomSimplify thr g).size = 1 := by
  unfold randomSimplify; split
  · rfl
  · split <;> rfl

theorem selFinish_size (s : Sel) (w : Where) : (selFinish s w).size ≤ 3 + w.size := by
  rw [sel_size]
  simp only [selFinish, Sel.where_mk]
  split
  · simp
  · next h => split at h <;> simp_all

theorem mergedSel_size (s0 : Sel) (ss : List Sel) (h : 2 ≤ ss.length) :
    (mergedSel s0 ss).size ≤ Sel.sizes ss := by
  have key : Where.sizes (ss.map fun s => s.where_.getD .true_) + 2 * ss.length ≤ Sel.sizes ss := by
    clear h
    induction ss with
    | nil => simp [Where.sizes, Sel.sizes]
    | cons s ss ih =>
      simp only [List.map_cons, Where.sizes, Sel.sizes, List.length_cons]
      rw [sel_size]
      cases s.where_ with
      | none => simp [Where.size]; omega
      | some w => simp; omega
  rw [sel_size]
  simp only [mergedSel, Sel.where_mk, Where.size]
  omega

theorem filter_sizes (p : Sel → Bool) (l : List Sel) : Sel.sizes (l.filter p) ≤ Sel.sizes l := by
  induction l with
  | nil => simp [Sel.sizes]
  | cons a l ih =>
    rw [List.filter_cons]
    split
    · simp only [Sel.sizes]; omega
    · simp only [Sel.sizes]; omega

/-- The outcome is a result no bigger than the input, or the index error. -/
def Bounded {α : Type} (size : α → Nat) (k : Nat) (x : Except SimpErr α) : Prop :=
  (∃ a, x = .ok a ∧ size a ≤ k) ∨ x = .error .index

theorem mapM_bounded {α : Type} {size : α → Nat} {f : α → Except SimpErr α} :
    ∀ {l : List α}, (∀ a ∈ l, Bounded size (size a) (f a)) →
      (∃ l', l.mapM f = .ok l' ∧ (l'.map size).sum ≤ (l.map size).sum) ∨
      l.mapM f = .error .index := by
  intro l
  induction l with
  | nil => intro _; exact Or.inl ⟨[], rfl, le_refl _⟩
  | cons a l ih =>
    intro h
    rw [List.mapM_cons]
    rcases h a (by simp) with ⟨b, hb, hsz⟩ | he
    · rcases ih (fun x hx => h x (by simp [hx])) with ⟨bs, hbs, hsz'⟩ | he
      · left
        refine ⟨b :: bs, by rw [hb, hbs]; rfl, ?_⟩
        simp only [List.map_cons, List.sum_cons]; omega
      · right; rw [hb, he]; rfl
    · right; rw [he]; rfl

theorem le_sum_of_mem {α : Type} {f : α → Nat} {l : List α} {a : α} (h : a ∈ l) :
    f a ≤ (l.map f).sum := by
  induction l with
  | nil => simp at h
  | cons b l ih =>
    simp only [List.map_cons, List.sum_cons]
    rcases List.mem_cons.1 h with rfl | h
    · omega
    · have := ih h; omega

theorem simp_total : ∀ n : Nat,
    (∀ w, w.size ≤ n → Bounded Where.size w.size (simpW n w)) ∧
    (∀ s, s.size ≤ n → Bounded Sel.size s.size (simpSel n s)) ∧
    (∀ st, st.size ≤ n → Bounded Stmt.size st.size (simpStmt n st)) := by
  intro n
  induction n with
  | zero =>
    refine ⟨fun w h => ?_, fun s h => ?_, fun st h => ?_⟩
    · have := size_pos w; omega
    · rw [sel_size] at h; omega
    · cases st <;> simp [Stmt.size] at h
  | succ n ih =>
    obtain ⟨ihW, ihS, ihT⟩ := ih
    refine ⟨fun w h => ?_, fun s h => ?_, fun st h => ?_⟩
    · cases w with
      | false_ => exact Or.inl ⟨_, rfl, le_refl _⟩
      | true_ => exact Or.inl ⟨_, rfl, le_refl _⟩
      | op o c v => exact Or.inl ⟨_, rfl, le_refl _⟩
      | inVals cs vs neg => exact Or.inl ⟨_, rfl, le_refl _⟩
      | sql s => exact Or.inl ⟨_, rfl, le_refl _⟩
      | random thr tag => exact Or.inl ⟨_, rfl, by rw [randomSimplify_size]; simp [Where.size]⟩
      | inStmt cs st neg =>
        simp only [Where.size] at h
        rcases ihT st (by omega) with ⟨st', h1, h2⟩ | h1
        · exact Or.inl ⟨.inStmt cs st' neg, by simp [simpW, h1], by simp [Where.size]; omega⟩
        · exact Or.inr (by simp [simpW, h1])
      | and cs =>
        simp only [Where.size, sizes_eq_sum] at h
        rcases mapM_bounded (l := cs) (f := simpW n) (size := Where.size)
          (fun a ha => ihW a (by have := le_sum_of_mem (f := Where.size) ha; omega)) with
          ⟨cs', h1, h2⟩ | h1
        · refine Or.inl ⟨andFinish cs', by simp [simpW, h1], ?_⟩
          have := andFinish_size cs'
          rw [sizes_eq_sum] at this
          simp only [Where.size, sizes_eq_sum]; omega
        · exact Or.inr (by simp [simpW, h1])
      | or cs =>
        simp only [Where.size, sizes_eq_sum] at h
        rcases mapM_bounded (l := cs) (f := simpW n) (size := Where.size)
          (fun a ha => ihW a (by have := le_sum_of_mem (f := Where.size) ha; omega)) with
          ⟨cs', h1, h2⟩ | h1
        · refine Or.inl ⟨orFinish cs', by simp [simpW, h1], ?_⟩
          have := orFinish_size cs'
          rw [sizes_eq_sum] at this
          simp only [Where.size, sizes_eq_sum]; omega
        · exact Or.inr (by simp [simpW, h1])
    · rw [simpSel]
      have hs := sel_size s
      cases hw : s.where_ with
      | none => exact Or.inl ⟨s, rfl, le_refl _⟩
      | some w =>
        rw [hw] at hs
        simp only at hs
        rcases ihW w (by omega) with ⟨w', h1, h2⟩ | h1
        · refine Or.inl ⟨selFinish s w', by simp [h1], ?_⟩
          have := selFinish_size s w'
          omega
        · exact Or.inr (by simp [h1])
    · cases st with
      | select s =>
        simp only [Stmt.size] at h
        rcases ihS s (by omega) with ⟨s', h1, h2⟩ | h1
        · exact Or.inl ⟨.select s', by simp [simpStmt, h1], by simp [Stmt.size]; omega⟩
        · exact Or.inr (by simp [simpStmt, h1])
      | union ss =>
        simp only [Stmt.size, selSizes_eq_sum] at h
        simp only [simpStmt]
        rcases mapM_bounded (l := ss) (f := simpSel n) (size := Sel.size)
          (fun a ha => ihS a (by have := le_sum_of_mem (f := Sel.size) ha; omega)) with
          ⟨all, h1, h2⟩ | h1
        · rw [h1]
          simp only
          have hk := filter_sizes (fun s => !(s.where_.getD .true_).isFalse) all
          revert hk
          generalize all.filter (fun s => !(s.where_.getD .true_).isFalse) = kept
          intro hk
          rw [selSizes_eq_sum, selSizes_eq_sum] at hk
          rcases kept with _ | ⟨s0, _ | ⟨s1, rest⟩⟩
          · rcases ss with _ | ⟨s, ss⟩
            · exact Or.inr rfl
            · simp only
              simp only [List.map_cons, List.sum_cons] at h
              rcases ihS s (by omega) with ⟨s', h3, h4⟩ | h3
              · refine Or.inl ⟨.select s', by simp [h3], ?_⟩
                simp only [Stmt.size, Sel.sizes]; omega
              · exact Or.inr (by simp [h3])
          · refine Or.inl ⟨.select s0, rfl, ?_⟩
            simp only [Stmt.size, selSizes_eq_sum]
            simp only [List.map_cons, List.sum_cons] at hk
            omega
          · simp only
            have hms := mergedSel_size s0 (s0 :: s1 :: rest) (by simp)
            rw [selSizes_eq_sum] at hms
            by_cases hc : canMerge s0 (s0 :: s1 :: rest) = true
            · rw [if_pos hc]
              rcases ihS (mergedSel s0 (s0 :: s1 :: rest)) (by omega) with ⟨s', h3, h4⟩ | h3
              · refine Or.inl ⟨.select s', by simp [h3], ?_⟩
                simp only [Stmt.size, selSizes_eq_sum]; omega
              · exact Or.inr (by simp [h3])
            · rw [if_neg hc]
              refine Or.inl ⟨_, rfl, ?_⟩
              simp only [Stmt.size, selSizes_eq_sum]; omega
        · exact Or.inr (by simp [h1])

/-! ### The index error only comes from empty unions -/

theorem noEmptyUnions_iff {cs : List Where} : Where.NoEmptyUnions cs ↔ ∀ c ∈ cs, c.NoEmptyUnion := by
  induction cs with
  | nil => simp [Where.NoEmptyUnions]
  | cons c cs ih => simp [Where.NoEmptyUnions, ih]

theorem selNoEmptyUnions_iff {cs : List Sel} : Sel.NoEmptyUnions cs ↔ ∀ c ∈ cs, c.NoEmptyUnion := by
  induction cs with
  | nil => simp [Sel.NoEmptyUnions]
  | cons c cs ih => simp [Sel.NoEmptyUnions, ih]

theorem sel_noEmptyUnion_iff {s : Sel} :
    s.NoEmptyUnion ↔ ∀ w, s.where_ = some w → w.NoEmptyUnion := by
  obtain ⟨c, f, w, l, j, o, g⟩ := s
  cases w <;> simp [Sel.NoEmptyUnion]

theorem andFinish_noEmptyUnion {cs : List Where} (h : ∀ c ∈ cs, c.NoEmptyUnion) :
    (andFinish cs).NoEmptyUnion := by
  have hl : ∀ c ∈ (cs.filter fun c => !c.isTrue).flatMap Where.andParts, c.NoEmptyUnion := by
    intro c hc
    obtain ⟨a, ha, hca⟩ := List.mem_flatMap.1 hc
    have ha' := h a (List.mem_filter.1 ha).1
    unfold Where.andParts at hca
    split at hca
    · simp only [Where.NoEmptyUnion, noEmptyUnions_iff] at ha'; exact ha' c hca
    · simp only [List.mem_singleton] at hca; exact hca ▸ ha'
  unfold andFinish
  revert hl
  generalize (cs.filter fun c => !c.isTrue).flatMap Where.andParts = l
  intro hl
  by_cases h : l.any Where.isFalse = true
  · simp [h, Where.NoEmptyUnion]
  · simp only [h]
    rcases l with _ | ⟨a, _ | ⟨b, l⟩⟩
    · simp [Where.NoEmptyUnion]
    · exact hl a (by simp)
    · simpa [Where.NoEmptyUnion, noEmptyUnions_iff] using hl

theorem orFinish_noEmptyUnion {cs : List Where} (h : ∀ c ∈ cs, c.NoEmptyUnion) :
    (orFinish cs).NoEmptyUnion := by
  have hl : ∀ c ∈ (cs.filter fun c => !c.isFalse).flatMap Where.orParts, c.NoEmptyUnion := by
    intro c hc
    obtain ⟨a, ha, hca⟩ := List.mem_flatMap.1 hc
    have ha' := h a (List.mem_filter.1 ha).1
    unfold Where.orParts at hca
    split at hca
    · simp only [Where.NoEmptyUnion, noEmptyUnions_iff] at ha'; exact ha' c hca
    · simp only [List.mem_singleton] at hca; exact hca ▸ ha'
  unfold orFinish
  revert hl
  generalize (cs.filter fun c => !c.isFalse).flatMap Where.orParts = l
  intro hl
  by_cases h : l.any Where.isTrue = true
  · simp [h, Where.NoEmptyUnion]
  · simp only [h]
    rcases l with _ | ⟨a, _ | ⟨b, l⟩⟩
    · simp [Where.NoEmptyUnion]
    · exact hl a (by simp)
    · simpa [Where.NoEmptyUnion, noEmptyUnions_iff] using hl

theorem mapM_error {ε α β : Type} {f : α → Except ε β} {l : List α} {e : ε}
    (h : l.mapM f = .error e) : ∃ a ∈ l, f a = .error e := by
  induction l with
  | nil => cases h
  | cons a l ih =>
    rw [List.mapM_cons] at h
    cases ha : f a with
    | error e' => rw [ha] at h; cases h; exact ⟨a, by simp, ha⟩
    | ok b =>
      rw [ha] at h
      cases hl : l.mapM f with
      | error e' =>
        rw [hl] at h; cases h
        obtain ⟨x, hx, h⟩ := ih hl
        exact ⟨x, by simp [hx], h⟩
      | ok bs => rw [hl] at h; cases h

/-- No index error and the result contains no empty union either. -/
theorem simp_noIndex : ∀ n : Nat,
    (∀ w, w.NoEmptyUnion → simpW n w ≠ .error .index ∧
      ∀ w', simpW n w = .ok w' → w'.NoEmptyUnion) ∧
    (∀ s, s.NoEmptyUnion → simpSel n s ≠ .error .index ∧
      ∀ s', simpSel n s = .ok s' → s'.NoEmptyUnion) ∧
    (∀ st, st.NoEmptyUnion → simpStmt n st ≠ .error .index ∧
      ∀ st', simpStmt n st = .ok st' → st'.NoEmptyUnion) := by
  intro n
  induction n with
  | zero => refine ⟨?_, ?_, ?_⟩ <;> intro a _ <;> simp [simpW, simpSel, simpStmt]
  | succ n ih =>
    obtain ⟨ihW, ihS, ihT⟩ := ih
    have hmap : ∀ cs : List Where, (∀ c ∈ cs, c.NoEmptyUnion) →
        cs.mapM (simpW n) ≠ .error .index ∧
        ∀ cs', cs.mapM (simpW n) = .ok cs' → ∀ c ∈ cs', c.NoEmptyUnion := by
      intro cs hcs
      refine ⟨fun h => ?_, fun cs' h c hc => ?_⟩
      · obtain ⟨a, ha, h⟩ := mapM_error h; exact (ihW a (hcs a ha)).1 h
      · obtain ⟨a, ha, h⟩ := forall₂_exists_right (mapM_ok_iff.1 h) hc
        exact (ihW a (hcs a ha)).2 c h
    refine ⟨fun w hw => ?_, fun s hs => ?_, fun st hst => ?_⟩
    · cases w with
      | false_ => simp [simpW, Where.NoEmptyUnion]
      | true_ => simp [simpW, Where.NoEmptyUnion]
      | op o c v => simp [simpW, Where.NoEmptyUnion]
      | inVals cs vs neg => simp [simpW, Where.NoEmptyUnion]
      | sql s => simp [simpW, Where.NoEmptyUnion]
      | random thr tag =>
        refine ⟨by simp [simpW], fun w' h => ?_⟩
        simp only [simpW, Except.ok.injEq] at h
        subst h
        unfold randomSimplify
        split
        · simp [Where.NoEmptyUnion]
        · split <;> simp [Where.NoEmptyUnion]
      | inStmt cs st neg =>
        simp only [Where.NoEmptyUnion] at hw
        obtain ⟨h1, h2⟩ := ihT st hw
        simp only [simpW]
        cases hst : simpStmt n st with
        | error e =>
          refine ⟨fun h => ?_, fun w' h => by cases h⟩
          simp only [Except.error.injEq] at h; subst h; exact h1 hst
        | ok st' =>
          refine ⟨by simp, fun w' h => ?_⟩
          cases h
          simpa [Where.NoEmptyUnion] using h2 st' hst
      | and cs =>
        simp only [Where.NoEmptyUnion, noEmptyUnions_iff] at hw
        obtain ⟨h1, h2⟩ := hmap cs hw
        simp only [simpW]
        cases hm : cs.mapM (simpW n) with
        | error e =>
          refine ⟨fun h => ?_, fun w' h => by cases h⟩
          simp only [Except.error.injEq] at h; subst h; exact h1 hm
        | ok cs' =>
          refine ⟨by simp, fun w' h => ?_⟩
          cases h
          exact andFinish_noEmptyUnion (h2 cs' hm)
      | or cs =>
        simp only [Where.NoEmptyUnion, noEmptyUnions_iff] at hw
        obtain ⟨h1, h2⟩ := hmap cs hw
        simp only [simpW]
        cases hm : cs.mapM (simpW n) with
        | error e =>
          refine ⟨fun h => ?_, fun w' h => by cases h⟩
          simp only [Except.error.injEq] at h; subst h; exact h1 hm
        | ok cs' =>
          refine ⟨by simp, fun w' h => ?_⟩
          cases h
          exact orFinish_noEmptyUnion (h2 cs' hm)
    · rw [simpSel]
      cases hw : s.where_ with
      | none => refine ⟨by simp, fun s' h => ?_⟩; cases h; exact hs
      | some w =>
        obtain ⟨h1, h2⟩ := ihW w (sel_noEmptyUnion_iff.1 hs w hw)
        simp only
        cases hw' : simpW n w with
        | error e =>
          refine ⟨fun h => ?_, fun w' h => by cases h⟩
          simp only [Except.error.injEq] at h; subst h; exact h1 hw'
        | ok w' =>
          refine ⟨by simp, fun s' h => ?_⟩
          cases h
          rw [sel_noEmptyUnion_iff]
          intro w'' hw''
          simp only [selFinish, Sel.where_mk] at hw''
          split at hw''
          · cases hw''
          · cases hw''; exact h2 _ hw'
    · cases st with
      | select s =>
        simp only [Stmt.NoEmptyUnion] at hst
        obtain ⟨h1, h2⟩ := ihS s hst
        simp only [simpStmt]
        cases hs : simpSel n s with
        | error e =>
          refine ⟨fun h => ?_, fun w' h => by cases h⟩
          simp only [Except.error.injEq] at h; subst h; exact h1 hs
        | ok s' =>
          refine ⟨by simp, fun st' h => ?_⟩
          cases h
          simpa [Stmt.NoEmptyUnion] using h2 s' hs
      | union ss =>
        simp only [Stmt.NoEmptyUnion, selNoEmptyUnions_iff] at hst
        obtain ⟨hne, hss⟩ := hst
        simp only [simpStmt]
        cases hm : ss.mapM (simpSel n) with
        | error e =>
          refine ⟨fun h => ?_, fun w' h => by cases h⟩
          simp only [Except.error.injEq] at h; subst h
          obtain ⟨a, ha, h⟩ := mapM_error hm
          exact (ihS a (hss a ha)).1 h
        | ok all =>
          simp only
          have hall : ∀ s ∈ all, s.NoEmptyUnion := by
            intro s hs
            obtain ⟨a, ha, h⟩ := forall₂_exists_right (mapM_ok_iff.1 hm) hs
            exact (ihS a (hss a ha)).2 s h
          have hk : ∀ s ∈ all.filter (fun s => !(s.where_.getD .true_).isFalse), s.NoEmptyUnion :=
            fun s hs => hall s (List.mem_filter.1 hs).1
          revert hk
          generalize all.filter (fun s => !(s.where_.getD .true_).isFalse) = kept
          intro hk
          rcases kept with _ | ⟨s0, _ | ⟨s1, rest⟩⟩
          · rcases ss with _ | ⟨s, ss⟩
            · exact absurd rfl hne
            · simp only
              obtain ⟨h1, h2⟩ := ihS s (hss s (by simp))
              cases hs : simpSel n s with
              | error e =>
                refine ⟨fun h => ?_, fun w' h => by cases h⟩
                simp only [Except.error.injEq] at h; subst h; exact h1 hs
              | ok s' =>
                refine ⟨by simp, fun st' h => ?_⟩
                cases h
                simpa [Stmt.NoEmptyUnion] using h2 s' hs
          · refine ⟨by simp, fun st' h => ?_⟩
            cases h
            simpa [Stmt.NoEmptyUnion] using hk s0 (by simp)
          · simp only
            by_cases hc : canMerge s0 (s0 :: s1 :: rest) = true
            · rw [if_pos hc]
              have hms : (mergedSel s0 (s0 :: s1 :: rest)).NoEmptyUnion := by
                simp only [mergedSel, Sel.NoEmptyUnion, Where.NoEmptyUnion, noEmptyUnions_iff,
                  List.mem_map]
                rintro c ⟨s, hs, rfl⟩
                cases hw : s.where_ with
                | none => simp [Where.NoEmptyUnion]
                | some w => exact sel_noEmptyUnion_iff.1 (hk s hs) w hw
              obtain ⟨h1, h2⟩ := ihS _ hms
              cases hs : simpSel n (mergedSel s0 (s0 :: s1 :: rest)) with
              | error e =>
                refine ⟨fun h => ?_, fun w' h => by cases h⟩
                simp only [Except.error.injEq] at h; subst h; exact h1 hs
              | ok s' =>
                refine ⟨by simp, fun st' h => ?_⟩
                cases h
                simpa [Stmt.NoEmptyUnion] using h2 s' hs
            · rw [if_neg hc]
              refine ⟨by simp, fun st' h => ?_⟩
              cases h
              simp only [Stmt.NoEmptyUnion, selNoEmptyUnions_iff]
              exact ⟨by simp, hk⟩

end Subsetter
