import Verif.Proofs.CanPlan
import Verif.Proofs.PlanRefs
import Verif.Spec.Looser

/- Samples of configurations that differ in the options of targets and in constraints. -/
namespace Subsetter
open Spec Props

/-- How the tables of a plan come about. -/
theorem planInternal_keys {cfg : PlannerConfig} {T : Tables} (hI : Input cfg T) {p : Plan} (h : planInternal cfg T = .ok p) :
    ∃ ign pass T₁ found order, parseSet cfg.ignore = .ok ign ∧ parseSet cfg.passthrough = .ok pass ∧
      rewriteFks cfg T = .ok T₁ ∧ checkPassthrough T₁ pass pass = .ok found ∧
      solveOrder T₁ (dkeys cfg.targets) found ign = .ok order ∧
      p.queries.map Prod.fst = found.map Key.str ++ order ∧ p.passthrough = found.map Key.str := by
  unfold planInternal at h
  cases h1 : parseSet cfg.ignore with
  | error e => rw [h1] at h; cases h
  | ok ign =>
    rw [h1] at h
    rcases parseSet_cases cfg.passthrough with ⟨pass, h2, hnd, -⟩ | ⟨h2, -⟩
    swap
    · rw [h2] at h; cases h
    rw [h2] at h
    dsimp only at h
    cases h3 : rewriteFks cfg T with
    | error e => rw [h3] at h; cases h
    | ok T₁ =>
      rw [h3] at h
      dsimp only at h
      obtain ⟨hT, -⟩ := rewriteFks_ok hI.tables hI.extra h3
      unfold planTables at h
      generalize hi : (if cfg.includeDependencies = true then checkIgnore ign (T₁.map Prod.snd) else .ok ()) = ri at h
      cases ri with
      | error e => cases h
      | ok u =>
        cases u
        dsimp only at h
        cases h4 : checkPassthrough T₁ pass pass with
        | error e => rw [h4] at h; cases h
        | ok found =>
          rw [h4] at h
          dsimp only at h
          obtain ⟨hf, -⟩ := checkPassthrough_ok h4
          cases h5 : solveOrder T₁ (dkeys cfg.targets) found ign with
          | error e => rw [h5] at h; cases h
          | ok order =>
            rw [h5] at h
            dsimp only at h
            refine ⟨ign, pass, T₁, found, order, rfl, h2, rfl, h4, h5, ?_⟩
            obtain ⟨ord, rfl, hord⟩ := solveOrder_facts hT hI.named h5
            cases h6 : computeReverseKeys T₁ with
            | none => rw [h6] at h; cases h
            | some T₂ =>
              rw [h6] at h
              dsimp only at h
              have hfsome : ∀ k ∈ found, (dget T₁ k).isSome := by
                intro k hk; rw [hf] at hk; exact (List.mem_filter.1 hk).2
              have hfnd : found.Nodup := by rw [hf]; exact hnd.filter _
              have hnd' : (found ++ ord).Nodup := by
                refine List.nodup_append.2 ⟨hfnd, hord.nodup, ?_⟩
                rintro a ha b hb rfl
                exact (hord.avail a hb).2.1 ha
              have hndq := map_str_nodup hT (l := found ++ ord) (by
                intro k hk
                rcases List.mem_append.1 hk with hk | hk
                · exact hfsome k hk
                · exact (hord.avail k hk).1) hnd'
              rw [foldl_dset_new passthroughQuery found [] (by simpa using map_str_nodup hT hfsome hfnd)] at h
              simp only [List.nil_append] at h
              cases h7 : planLoop T₂ cfg (ord.map Key.str) [] (found.map fun k => (k.str, passthroughQuery k)) with
              | error e => rw [h7] at h; cases h
              | ok Q =>
                rw [h7] at h
                cases h
                obtain ⟨h8, -, -⟩ := planLoop_ok h7 (fun k hk => found_nodot hT (hord.avail k hk).1)
                  (by simpa using hord.nodup) (by rw [List.map_map]; simpa [Function.comp_def] using hndq)
                exact ⟨by rw [h8]; simp [Function.comp_def], rfl⟩

/-- The tables of a plan and their order do not depend on options of targets and on constraints. -/
theorem planInternal_keys_same {cfg : PlannerConfig} {targets : Dict Str TargetConfig} {cs : Dict Str (List ColumnConstraint)}
    (hk : dkeys targets = dkeys cfg.targets) {T : Tables} (hI : Input cfg T) {p p' : Plan} (h : planInternal cfg T = .ok p)
    (h' : planInternal { cfg with targets := targets, tableConstraints := cs } T = .ok p') :
    p'.queries.map Prod.fst = p.queries.map Prod.fst ∧ p'.passthrough = p.passthrough := by
  have hI' : Input { cfg with targets := targets, tableConstraints := cs } T := ⟨hI.tables, hI.extra, by
    show [] ∉ dkeys targets
    rw [hk]; exact hI.named⟩
  obtain ⟨ign, pass, T₁, found, order, h1, h2, h3, h4, h5, h6, h7⟩ := planInternal_keys hI h
  obtain ⟨ign', pass', T₁', found', order', h1', h2', h3', h4', h5', h6', h7'⟩ := planInternal_keys hI' h'
  have e1 : ign' = ign := by
    have : parseSet cfg.ignore = .ok ign' := h1'
    rw [h1] at this; cases this; rfl
  subst e1
  have e2 : pass' = pass := by
    have : parseSet cfg.passthrough = .ok pass' := h2'
    rw [h2] at this; cases this; rfl
  subst e2
  have e3 : T₁' = T₁ := by
    have : rewriteFks cfg T = .ok T₁' := h3'
    rw [h3] at this; cases this; rfl
  subst e3
  rw [h4] at h4'; cases h4'
  have e5 : order' = order := by
    have : solveOrder T₁' (dkeys targets) found ign' = .ok order' := h5'
    rw [hk, h5] at this; cases this; rfl
  subst e5
  exact ⟨by rw [h6, h6'], by rw [h7, h7']⟩

theorem map_str_inj {l l' : List Key} (h : ∀ k ∈ l, '.' ∉ k.1) (h' : ∀ k ∈ l', '.' ∉ k.1) (e : l.map Key.str = l'.map Key.str) :
    l = l' := by
  induction l generalizing l' with
  | nil => cases l' <;> simp_all
  | cons a l ih =>
    cases l' with
    | nil => simp at e
    | cons b l' =>
      simp only [List.map_cons, List.cons.injEq] at e
      rw [str_inj (h a (by simp)) (h' b (by simp)) e.1, ih (fun k hk => h k (by simp [hk])) (fun k hk => h' k (by simp [hk])) e.2]

section
variable {cfg : PlannerConfig} {targets : Dict Str TargetConfig} {cs : Dict Str (List ColumnConstraint)}
  (hkeys : dkeys targets = dkeys cfg.targets) {T : Tables} (hI : Input cfg T) {p p' : Plan} (h : planInternal cfg T = .ok p)
  (h' : planInternal { cfg with targets := targets, tableConstraints := cs } T = .ok p')
  {E E' : Engine} {Ts Ts' : Tables} {src src' S S' : Key → List Row} (hpk : PkOK Ts src) (hpk' : PkOK Ts' src')
  (hS : IsSample E Ts src p S) (hS' : IsSample E' Ts' src' p' S')
include hkeys hI h h' hpk hpk' hS hS'

theorem looser_subset {k : Key} (hk : ∃ q, Planned p k q)
    (hl : ∀ a, Relation.ReflTransGen (Feeds cfg T p) a k →
      Looser cfg { cfg with targets := targets, tableConstraints := cs } E E' src src' a) :
    ∀ r ∈ S k, r ∈ S' k := by
  have hI' : Input { cfg with targets := targets, tableConstraints := cs } T := ⟨hI.tables, hI.extra, by
    show [] ∉ dkeys targets
    rw [hkeys]; exact hI.named⟩
  obtain ⟨hq, hps⟩ := planInternal_keys_same hkeys hI h h'
  obtain ⟨ign, pass, T₁, T₂, found, ord, hp⟩ := planning hI h
  obtain ⟨ign', pass', T₁', T₂', found', ord', hp'⟩ := planning hI' h'
  have hfk : ∀ a fk b, HasFk T₁ a fk b ↔ HasFk T₁' a fk b := fun a fk b => (hp.used a fk b).trans (hp'.used a fk b).symm
  have hfound : found' = found := by
    refine map_str_inj (fun k hk => hp'.nodot (List.mem_append.2 (.inl hk))) (fun k hk => hp.nodot (List.mem_append.2 (.inl hk))) ?_
    rw [← hp.shape.passthrough, ← hp'.shape.passthrough, hps]
  subst hfound
  have hord : ord' = ord := by
    refine map_str_inj (fun k hk => hp'.nodot (List.mem_append.2 (.inr hk))) (fun k hk => hp.nodot (List.mem_append.2 (.inr hk))) ?_
    have h1 := hp.shape.keys
    have h2 := hp'.shape.keys
    rw [hq, h1, List.map_append, List.map_append] at h2
    exact (List.append_cancel_left h2).symm
  subst hord
  rcases List.mem_append.1 (hp.planned_iff.1 hk) with hk | hk
  · rw [hp.shape.rows_pass hp.ok hS hk, hp'.shape.rows_pass hp'.ok hS' hk]
    exact (hl k .refl).source
  -- induction along the order
  suffices hmain : ∀ n pre k post, pre.length ≤ n → ord' = pre ++ k :: post →
      (∀ a, Relation.ReflTransGen (Feeds cfg T p) a k →
        Looser cfg { cfg with targets := targets, tableConstraints := cs } E E' src src' a) → ∀ r ∈ S k, r ∈ S' k by
    obtain ⟨pre, post, he⟩ := List.append_of_mem hk
    exact hmain pre.length pre k post le_rfl he hl
  clear hl
  intro n
  induction n using Nat.strong_induction_on with
  | _ n ih =>
    intro pre k post hn he hl
    have hsub : ∀ a ∈ pre, (Ref T₁ a k ∨ Ref T₁ k a) → ∀ r ∈ S a, r ∈ S' a := by
      intro a ha hr
      obtain ⟨pre₀, post₀, he₀⟩ := List.append_of_mem ha
      have hlt : pre₀.length < n := by
        have : pre.length = pre₀.length + (post₀.length + 1) := by rw [he₀]; simp
        omega
      have hdot : '.' ∉ a.1 := hp.nodot (List.mem_append.2 (.inr (by rw [he]; simp [ha])))
      have hfeed : Feeds cfg T p a k := by
        refine ⟨(hp.earlier_iff he hdot).2 ha, ?_⟩
        rcases hr with hr | hr
        · exact .inl (hp.ref_iff.1 hr)
        · exact .inr (hp.ref_iff.1 hr)
      exact ih pre₀.length hlt pre₀ a (post₀ ++ k :: post) le_rfl (by rw [he, he₀]; simp)
        fun b hb => hl b (hb.tail hfeed)
    have hself := hl k .refl
    have href : ∀ a b, Ref T₁ a b ↔ Ref T₁' a b := by intro a b; unfold Ref; simp only [hfk]
    have hback : ∀ r, RelatedBack T₁ S pre k r → RelatedBack T₁' S' pre k r := by
      rintro r ⟨a, ha, fk, hf, c, hc, hr⟩
      exact ⟨a, ha, fk, (hfk _ _ _).1 hf, c, hsub a ha (.inl ⟨fk, hf⟩) c hc, hr⟩
    have hfwd : ∀ r, RelatedFwd T₁ S pre k r → RelatedFwd T₁' S' pre k r := by
      intro r hr fk b hf hb
      have hf := (hfk _ _ _).2 hf
      obtain ⟨m, hm, hrm⟩ := hr fk b hf hb
      exact ⟨m, hsub b hb (.inr ⟨fk, hf⟩) m hm, hrm⟩
    have hsrc := hself.source
    have htgt : ∀ x, dget cfg.targets k.str = some x → ∃ x', dget targets k.str = some x' := by
      intro x hx
      have h1 : (dget targets k.str).isSome := by
        rw [dget_isSome_iff]
        show k.str ∈ dkeys targets
        rw [hkeys]
        exact dget_isSome_iff.1 (by rw [hx]; rfl)
      exact Option.isSome_iff_exists.1 h1
    have hnt : k.str ∉ dkeys cfg.targets → ∀ x', dget targets k.str ≠ some x' := by
      intro hn x' hx
      refine hn ?_
      rw [← hkeys]
      exact dget_isSome_iff.1 (by rw [hx]; rfl)
    have hc' := hp'.shape.rows_cases hp'.ok hpk' hS' he
    have hc := hp.shape.rows_cases hp.ok hpk hS he
    simp only [← href] at hc'
    intro r hr
    rcases hc with ⟨g1, g2, g3⟩ | ⟨g1, g2, g3, g4, g5⟩ | ⟨g1, x, g2, g3, g4⟩ | ⟨g1, x, g2, g3, g4, g5, g6⟩
    · -- forward
      rcases hc' with ⟨-, -, e⟩ | ⟨e, -⟩ | ⟨e, -⟩ | ⟨e, -⟩
      · rw [g3] at hr
        obtain ⟨hr1, hr2⟩ := List.mem_filter.1 hr
        simp only [decide_eq_true_eq] at hr2
        rw [e, List.mem_filter]
        simp only [decide_eq_true_eq]
        exact ⟨hsrc r hr1, hfwd r hr2.1, hself.constraints r hr2.2⟩
      all_goals exact absurd g1 e
    · -- backward
      rcases hc' with ⟨e, -⟩ | ⟨-, -, -, -, e⟩ | ⟨-, x', e, -⟩ | ⟨-, x', e, -⟩
      · exact absurd e g1
      · rw [g5] at hr
        obtain ⟨hr1, hr2⟩ := List.mem_filter.1 hr
        simp only [decide_eq_true_eq] at hr2
        rw [e, List.mem_filter]
        simp only [decide_eq_true_eq]
        exact ⟨hsrc r hr1, hback r hr2⟩
      · exact absurd e (hnt g3 x')
      · exact absurd e (hnt g3 x')
    · -- target
      obtain ⟨x', hx'⟩ := htgt x g2
      obtain ⟨t1, t2, t3⟩ := hself.target x x' g2 hx'
      rw [g4] at hr
      have hr' := t1 r hr
      have hks : k.str ∈ dkeys targets := dget_isSome_iff.1 (by rw [hx']; rfl)
      rcases hc' with ⟨-, e, -⟩ | ⟨-, -, e, -⟩ | ⟨-, x'', e, -, e'⟩ | ⟨-, x'', e, -, -, -, ⟨-, -, e'⟩ | ⟨-, e'⟩⟩
      · exact absurd hks e
      · exact absurd hks e
      · have e : dget targets k.str = some x'' := e
        rw [hx'] at e; cases e
        rw [e']; exact hr'
      · rw [e']; exact PlanShape.targetRows_subset hr'
      · have e : dget targets k.str = some x'' := e
        rw [hx'] at e; cases e
        exact (e' r).2 (.inr hr')
    · -- target that is referenced
      obtain ⟨x', hx'⟩ := htgt x g2
      obtain ⟨t1, t2, t3⟩ := hself.target x x' g2 hx'
      have hks : k.str ∈ dkeys targets := dget_isSome_iff.1 (by rw [hx']; rfl)
      have hall : x'.all = true → targetRows E' src' k x' = src' k := by
        intro ha
        rcases t3 ha with hn | hn
        · exact PlanShape.targetRows_all ha hn
        · rw [g3] at hn; cases hn
      have hrs : r ∈ src k := by
        rcases g6 with ⟨-, -, g6⟩ | ⟨-, g6⟩
        · rw [← g6]; exact hr
        · rcases (g6 r).1 hr with g | g
          · exact g.1
          · exact PlanShape.targetRows_subset g
      rcases hc' with ⟨-, e, -⟩ | ⟨-, -, e, -⟩ | ⟨-, x'', e, e'', e'⟩ | ⟨-, x'', e, ea, -, -, ⟨-, -, e'⟩ | ⟨el, e'⟩⟩
      · exact absurd hks e
      · exact absurd hks e
      · have e : dget targets k.str = some x'' := e
        rw [hx'] at e; cases e
        rcases e'' with e'' | e''
        · rw [e', hall e'']; exact hsrc r hrs
        · exact absurd g5 e''
      · rw [e']; exact hsrc r hrs
      · have e : dget targets k.str = some x'' := e
        rw [hx'] at e; cases e
        rcases g6 with ⟨u1, u2, -⟩ | ⟨-, g6⟩
        · exfalso
          obtain ⟨v1, v2⟩ := t2 ⟨u1, .inr u2⟩
          rcases el with el | ⟨pc, el, el'⟩
          · exact el v1
          · rcases v2 with v2 | v2
            · rw [ea] at v2; cases v2
            · exact absurd (v2 pc el) (not_lt.2 el')
        · rcases (g6 r).1 hr with g | g
          · exact (e' r).2 (.inl ⟨hsrc r g.1, hback r g.2⟩)
          · exact (e' r).2 (.inr (t1 r g))
end

end Subsetter
