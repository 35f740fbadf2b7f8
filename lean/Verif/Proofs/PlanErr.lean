import Verif.Proofs.PlanLoop

/- Errors of the planner are the documented ones and are justified. -/
set_option linter.unusedSimpArgs false
namespace Subsetter
open Spec Props

theorem checkIgnore_iff {ign : List Key} : ∀ {ts : List TableMeta},
    (checkIgnore ign ts = .ok () ∧ ∀ t ∈ ts, t.key ∉ ign → ∀ fk ∈ t.foreignKeys, fk.dst ∉ ign) ∨
    (∃ t ∈ ts, ∃ fk ∈ t.foreignKeys, t.key ∉ ign ∧ fk.dst ∈ ign ∧
      checkIgnore ign ts = .error (.ignoredFk t.key fk.dst)) := by
  intro ts
  induction ts with
  | nil => exact .inl ⟨rfl, by simp⟩
  | cons t ts ih =>
    rw [checkIgnore]
    have step : (t.key ∉ ign → ∀ fk ∈ t.foreignKeys, fk.dst ∉ ign) →
        (checkIgnore ign ts = .ok () ∧
          ∀ u ∈ t :: ts, u.key ∉ ign → ∀ fk ∈ u.foreignKeys, fk.dst ∉ ign) ∨
        (∃ u ∈ t :: ts, ∃ fk ∈ u.foreignKeys, u.key ∉ ign ∧ fk.dst ∈ ign ∧
          checkIgnore ign ts = .error (.ignoredFk u.key fk.dst)) := by
      intro h0
      rcases ih with ⟨h1, h2⟩ | ⟨u, hu, fk, h1⟩
      · refine .inl ⟨h1, fun u hu => ?_⟩
        rcases List.mem_cons.1 hu with rfl | hu
        · exact h0
        · exact h2 u hu
      · exact .inr ⟨u, List.mem_cons_of_mem _ hu, fk, h1⟩
    by_cases hk : t.key ∈ ign
    · rw [if_pos hk]; exact step fun h => absurd hk h
    · rw [if_neg hk]
      cases hf : firstFk (fun fk => decide (fk.dst ∈ ign)) t with
      | none =>
        refine step fun _ fk hfk => ?_
        have := List.find?_eq_none.1 hf fk hfk
        simpa using this
      | some fk =>
        have h1 := List.find?_some hf
        simp only [decide_eq_true_eq] at h1
        exact .inr ⟨t, by simp, fk, List.mem_of_find?_eq_some hf, hk, h1, rfl⟩

theorem getRev {T : Tables} (hT : TablesOK T) {k : Key} {t : TableMeta}
    (h : dget (addRev (revOf T) T) k = some t) :
    ∃ t₀, (k, t₀) ∈ T ∧ t = { t₀ with revForeignKeys := revOf T k } := by
  rw [addRev_get, Option.map_eq_some_iff] at h
  obtain ⟨t₀, h1, rfl⟩ := h
  have h2 := hT.get.1 h1
  refine ⟨t₀, h2, ?_⟩
  rw [hT.no_rev k t₀ h2]; rfl

theorem solveOrder_error {T : Tables} (hT : TablesOK T) {targets : List Str} {pass ign : List Key}
    (hne : [] ∉ targets) {e : PlanErr} (h : solveOrder T targets pass ign = .error e) :
    (∃ s ∈ targets, e = .unselectedTarget s ∧
      ∀ k, (dget T k).isSome → k.str = s → k ∈ pass ∨ k ∈ ign) ∨
    (∃ c, e = .cycle c ∧ ∃ k, k.str ∈ c ∧ Relation.TransGen (Ref T) k k ∧ k ∉ pass ∧ k ∉ ign) := by
  unfold solveOrder at h
  simp only at h
  cases hf : targets.find? (fun t => (dget (planGraph T targets pass ign) t).isNone) with
  | some s =>
    rw [hf] at h
    cases h
    left
    have h1 := List.find?_some hf
    refine ⟨s, List.mem_of_find?_eq_some hf, rfl, fun k hk hs => ?_⟩
    by_contra hno
    rw [not_or] at hno
    have hn : Node (planGraph T targets pass ign) s :=
      (planGraph_node hT).2 (.inr ⟨k, hk, hno.1, hno.2, hs.symm⟩)
    unfold Node at hn
    rw [← dget_isSome_iff] at hn
    cases hd : dget (planGraph T targets pass ign) s <;> simp_all
  | none =>
    rw [hf] at h
    simp only at h
    have ht : ∀ s ∈ targets, Node (planGraph T targets pass ign) s := by
      intro s hs
      have := List.find?_eq_none.1 hf s hs
      unfold Node
      rw [← dget_isSome_iff]
      cases h : dget (planGraph T targets pass ign) s <;> simp_all
    have hG := planGraph_isGraph hT ht
    have hs : Node (planGraph T targets pass ign) [] := (planGraph_node hT).2 (.inl rfl)
    rcases c05_order_no_internal_error hG hs with ⟨l, h1, -⟩ | ⟨c, h1, h2⟩
    · rw [show sourceNode = [] from rfl, h1] at h; cases h
    · rw [show sourceNode = [] from rfl, h1] at h
      cases h
      right
      refine ⟨c, rfl, ?_⟩
      obtain ⟨x, hx, hc⟩ := closedChain_rev_onCycle h2
      have hdot : ∀ k, (dget T k).isSome → '.' ∉ k.1 := fun k hk => found_nodot hT hk
      have hstep : ∀ {a b}, Relation.TransGen (Edge (planGraph T targets pass ign)) a b →
          a = [] ∨ ∃ k k', a = k.str ∧ b = k'.str ∧ Relation.TransGen (Ref T) k k' ∧
            (k ∉ pass ∧ k ∉ ign) ∧ (dget T k).isSome ∧ (dget T k').isSome := by
        intro a b hab
        induction hab with
        | single h =>
          rcases (planGraph_edge hT).1 h with ⟨h, -⟩ | ⟨k, k', h1, h2, h3, h4, -, h5⟩
          · exact .inl h
          · exact .inr ⟨k, k', h1, h2, .single h3, h4, ref_isSome hT h3, h5⟩
        | tail _ h ih =>
          rcases ih with ih | ⟨k, k', h1, h2, h3, h4, h5, h6⟩
          · exact .inl ih
          · rcases (planGraph_edge hT).1 h with ⟨h, -⟩ | ⟨k2, k3, g1, g2, g3, -, -, g5⟩
            · rw [h] at h2; exact absurd h2.symm (str_ne_nil k')
            · rw [h2] at g1
              have := str_inj (hdot _ h6) (hdot _ (ref_isSome hT g3)) g1
              subst this
              exact .inr ⟨k, k3, h1, g2, h3.tail g3, h4, h5, g5⟩
      rcases hstep hc with h | ⟨k, k', h1, h2, h3, h4, h5, h6⟩
      · exfalso
        subst h
        obtain ⟨b, -, hb⟩ := Relation.TransGen.tail'_iff.1 hc
        rcases (planGraph_edge hT).1 hb with ⟨-, h⟩ | ⟨_, k', _, h, _⟩
        · exact hne h
        · exact str_ne_nil k' h.symm
      · rw [h1] at h2
        have := str_inj (hdot _ h5) (hdot _ h6) h2
        subst this
        exact ⟨k, h1 ▸ hx, h3, h4⟩

theorem planTables_error {cfg : PlannerConfig} {ign pass : List Key} {T : Tables} {e : PlanErr}
    (hT : TablesOK T) (hne : [] ∉ dkeys cfg.targets)
    (hcl : ∀ a fk b, HasFk T a fk b → (dget T b).isSome)
    (h : planTables cfg ign pass T = .error e) : Cause cfg ign pass T (Ref T) e := by
  unfold planTables at h
  have hci := checkIgnore_iff (ign := ign) (ts := T.map Prod.snd)
  by_cases hinc : cfg.includeDependencies = true ∧ checkIgnore ign (T.map Prod.snd) ≠ .ok ()
  · rcases hci with ⟨h1, -⟩ | ⟨t, ht, fk, h1, h2, h3, h4⟩
    · exact absurd h1 hinc.2
    · rw [if_pos hinc.1, h4] at h
      cases h
      obtain ⟨⟨k, t'⟩, hk, he⟩ := List.mem_map.1 ht
      have he : t' = t := he
      subst he
      have hkey : t'.key = k := hT.key_eq k t' hk
      exact ⟨hinc.1, ⟨fk, t', by rw [hkey]; exact hk, h1, rfl⟩, h2, h3⟩
  · have h0 : (if cfg.includeDependencies then checkIgnore ign (T.map Prod.snd) else .ok ()) =
        (.ok () : Except PlanErr Unit) := by
      by_cases hi : cfg.includeDependencies = true
      · rw [if_pos hi]; by_contra hc; exact hinc ⟨hi, hc⟩
      · rw [if_neg hi]
    rw [h0] at h
    simp only at h
    cases h1 : checkPassthrough T pass pass with
    | error e' =>
      rw [h1] at h
      cases h
      obtain ⟨k, hk, d, rfl, h2, h3⟩ := checkPassthrough_error h1
      exact ⟨hk, h2, h3⟩
    | ok found =>
      rw [h1] at h
      simp only at h
      obtain ⟨hfound, hffk⟩ := checkPassthrough_ok h1
      have hfp : ∀ k, (dget T k).isSome → (k ∈ found ↔ k ∈ pass) := by
        intro k hk; rw [hfound, List.mem_filter]; simp [hk]
      cases h2 : solveOrder T (dkeys cfg.targets) found ign with
      | error e' =>
        rw [h2] at h
        cases h
        rcases solveOrder_error hT hne h2 with ⟨s, hs, rfl, hk⟩ | ⟨c, rfl, k, h3, h4, h5, h6⟩
        · refine ⟨hs, fun k hks hkk => ?_⟩
          rcases hk k hks hkk with h | h
          · exact .inl ((hfp k hks).1 h)
          · exact .inr h
        · refine ⟨k, h3, h4, fun hp => h5 ((hfp k ?_).2 hp), h6⟩
          obtain ⟨b, hb, -⟩ := Relation.TransGen.head'_iff.1 h4
          exact ref_isSome hT hb
      | ok order =>
        rw [h2] at h
        simp only at h
        obtain ⟨ord, rfl, hord⟩ := solveOrder_facts hT hne h2
        rw [computeReverseKeys_spec, if_pos hcl] at h
        simp only at h
        cases h4 : planLoop (addRev (revOf T) T) cfg (ord.map Key.str) []
            (found.foldl (fun q k => dset q k.str (passthroughQuery k)) []) with
        | ok q => rw [h4] at h; cases h
        | error e' =>
          rw [h4] at h
          cases h
          obtain ⟨pre, k, post, t, he, ht, hpt⟩ := planLoop_error h4
            (fun k hk => found_nodot hT (hord.avail k hk).1)
            (fun k hk => by
              rw [addRev_get]
              obtain ⟨t, ht⟩ := Option.isSome_iff_exists.1 (hord.avail k hk).1
              rw [ht]; rfl)
            (by simpa using hord.nodup)
          simp only [List.nil_append] at hpt
          obtain ⟨t₀, ht₀, hteq⟩ := getRev hT ht
          have hkey : t.key = k := by rw [hteq]; exact hT.key_eq k t₀ ht₀
          have hkin : k ∈ ord := by rw [he]; simp
          have hF : fksTo t (pre ++ [k]) ≠ [] → ∃ v ∈ pre, Ref T k v := by
            intro hne'
            obtain ⟨fk, hfk⟩ := List.exists_mem_of_ne_nil _ hne'
            unfold fksTo at hfk
            obtain ⟨g1, g2⟩ := List.mem_filter.1 hfk
            simp only [decide_eq_true_eq] at g2
            rw [hteq] at g1
            have hr : Ref T k fk.dst := ⟨fk, t₀, ht₀, g1, rfl⟩
            rcases List.mem_append.1 g2 with g2 | g2
            · exact ⟨_, g2, hr⟩
            · simp only [List.mem_singleton] at g2
              rw [g2] at hr; exact absurd hr (hord.noself k hkin)
          have hF' : (∃ v ∈ pre, Ref T k v) → fksTo t (pre ++ [k]) ≠ [] := by
            rintro ⟨v, hv, fk, t₁, g1, g2, g3⟩
            have e1 := hT.get.2 g1
            rw [hT.get.2 ht₀] at e1; cases e1
            refine List.ne_nil_of_mem (a := fk) (List.mem_filter.2 ⟨by rw [hteq]; exact g2, ?_⟩)
            simp only [decide_eq_true_eq]
            rw [show fk.dst = v from g3]; simp [hv]
          have hRr : revsTo t (pre ++ [k]) ≠ [] → ∃ v ∈ pre, Ref T v k := by
            intro hne'
            obtain ⟨fk, hfk⟩ := List.exists_mem_of_ne_nil _ hne'
            unfold revsTo at hfk
            obtain ⟨g1, g2⟩ := List.mem_filter.1 hfk
            simp only [decide_eq_true_eq] at g2
            rw [hteq] at g1
            obtain ⟨a, fk', g3, rfl⟩ := (mem_revOf hT).1 g1
            have hr : Ref T a k := ⟨fk', g3⟩
            rcases List.mem_append.1 g2 with g2 | g2
            · exact ⟨a, g2, hr⟩
            · simp only [List.mem_singleton] at g2
              have : a = k := g2
              subst this; exact absurd hr (hord.noself a hkin)
          have hRr' : (∃ v ∈ pre, Ref T v k) → revsTo t (pre ++ [k]) ≠ [] := by
            rintro ⟨v, hv, fk, g⟩
            refine List.ne_nil_of_mem (List.mem_filter.2 ⟨?_, ?_⟩) (a := ⟨fk.dstColumns, v.1, v.2, fk.columns⟩)
            · rw [hteq]; exact (mem_revOf hT).2 ⟨v, fk, g, rfl⟩
            · simp only [decide_eq_true_eq]
              exact List.mem_append.2 (.inl hv)
          have htg : dget cfg.targets k.str ≠ none ↔ k.str ∈ dkeys cfg.targets := by
            rw [Ne, dget_none_iff]; simp [dkeys]
          have hd := hord.dir pre k post he
          have hres := planTable_error hpt
            (by
              rcases hd with ⟨-, h⟩ | ⟨-, -, h⟩
              · left; by_contra hc; exact h (hF hc)
              · right; by_contra hc; exact h (hRr hc))
            (by
              intro hnone
              rcases hd with ⟨h | h, -⟩ | ⟨h, -⟩
              · exact absurd hnone (htg.2 h)
              · exact .inr (hRr' h)
              · exact .inl (hF' h))
            (by
              intro hsome
              have := htg.1 hsome
              rcases hd with ⟨-, h⟩ | ⟨-, h, -⟩
              · by_contra hc; exact h (hF hc)
              · exact absurd this h)
            (by
              intro v hv
              rw [addRev_get]
              have : v ∈ ord := by
                rw [he]
                rcases List.mem_append.1 hv with hv | hv
                · simp [hv]
                · simp only [List.mem_singleton] at hv; simp [hv]
              obtain ⟨t, ht⟩ := Option.isSome_iff_exists.1 (hord.avail v this).1
              rw [ht]; rfl)
          rw [hkey] at hres
          rcases hres with ⟨c, h1, h2, rfl⟩ | ⟨h1, h2, rfl⟩
          · refine ⟨t₀, ht₀, ?_, c, h1, rfl⟩
            rw [hteq] at h2; exact h2
          · obtain ⟨v, -, hv⟩ := hRr h2
            exact ⟨h1, v, hv⟩

end Subsetter
