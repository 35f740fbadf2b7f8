import Verif.Proofs.PlanRefs
import Verif.Proofs.RunFacts
import Verif.Spec.Resample

/- Samples of sources that lack rows which were not sampled. -/
namespace Subsetter
open Spec Props

theorem filter_between {α : Type} {P : α → Bool} {l m : List α} (h1 : (l.filter P).Sublist m) (h2 : m.Sublist l) :
    m.filter P = l.filter P :=
  (h2.filter P).antisymm (by have := h1.filter P; rwa [List.filter_filter, show (fun a => P a && P a) = P from funext fun a => Bool.and_self _] at this)

theorem row_as_columns {r : Row} {cols : List Str} (h : r.map Prod.fst = cols) (hnd : cols.Nodup) :
    (cols.map fun c => (c, r.get c)) = r := by
  subst h
  rw [List.map_map]
  conv_rhs => rw [← List.map_id r]
  refine List.map_congr_left fun e he => ?_
  obtain ⟨c, v⟩ := e
  have := dget_of_mem hnd he
  simp only [Function.comp, Row.get, this, Option.getD_some, id]

theorem Spec.SameMeaning.meets {E E' : Engine} (h : SameMeaning E E') {cs : List ColumnConstraint} {r : Row} :
    MeetsConstraints E' cs r ↔ MeetsConstraints E cs r := by
  unfold MeetsConstraints
  rw [h.op]

/-- Without a percentage the rows chosen do not depend on their position. -/
theorem targetRows_filter {E E' : Engine} (hE : SameMeaning E E') {src : Key → List Row} {k : Key} {x : TargetConfig}
    (hx : x.all = true ∨ x.percent = none) : open Classical in
    ((src k).zipIdx.filter fun p => decide (x.all = true ∨ TargetAccepts E' k x p.2 p.1)).map Prod.fst =
      (src k).filter fun r => decide (x.all = true ∨ TargetAccepts E k x 0 r) := by
  classical
  have h1 : ∀ i r, (x.all = true ∨ TargetAccepts E' k x i r) ↔ (x.all = true ∨ TargetAccepts E k x 0 r) := by
    intro i r
    rcases hx with hx | hx
    · simp [hx]
    · refine or_congr Iff.rfl ⟨fun h => ⟨fun p hp => ?_, ?_, ?_, h.in_⟩, fun h => ⟨fun p hp => ?_, ?_, ?_, h.in_⟩⟩
      · rw [hx] at hp; cases hp
      · rw [← hE.sql]; exact h.sql
      · rw [← hE.op]; exact h.like
      · rw [hx] at hp; cases hp
      · rw [hE.sql]; exact h.sql
      · rw [hE.op]; exact h.like
  simp only [h1]
  have h2 : ∀ (l : List Row) n (P : Row → Bool), ((l.zipIdx n).filter fun p => P p.1).map Prod.fst = l.filter P := by
    intro l
    induction l with
    | nil => intro n P; rfl
    | cons a l ih =>
      intro n P
      rw [List.zipIdx_cons, List.filter_cons, List.filter_cons]
      dsimp only
      split
      · rw [List.map_cons, ih]
      · exact ih _ _
  exact h2 (src k) 0 fun r => decide (x.all = true ∨ TargetAccepts E k x 0 r)

section
variable {cfg : PlannerConfig} {T : Tables} (hI : Input cfg T) {p : Plan} (h : planInternal cfg T = .ok p)
  {E E' : Engine} (hE : SameMeaning E E') {Ts Ts' : Tables} {src src' S S' : Key → List Row} (hpk : PkOK Ts src) (hpk' : PkOK Ts' src')
  (hS : IsSample E Ts src p S) (hS' : IsSample E' Ts' src' p S')
include hI h hE hpk hpk' hS hS'

omit hE hpk' hS' in
/-- Where nothing is drawn, sampled rows come in the order of the source. -/
theorem sample_sublist (hx : ∀ n x, dget cfg.targets n = some x → NoDraw x) {k : Key} (hk : ∃ q, Planned p k q) :
    (S k).Sublist (src k) := by
  classical
  obtain ⟨ign, pass, T₁, T₂, found, ord, hp⟩ := planning hI h
  rcases List.mem_append.1 (hp.planned_iff.1 hk) with hk | hk
  · rw [hp.shape.rows_pass hp.ok hS hk]
  obtain ⟨pre, post, he⟩ := List.append_of_mem hk
  rcases hp.shape.rows_cases hp.ok hpk hS he with ⟨-, -, e⟩ | ⟨-, -, -, -, e⟩ | ⟨-, x, e1, -, e⟩ | ⟨-, x, e1, e2, -, -, e⟩
  · rw [e]; exact List.filter_sublist
  · rw [e]; exact List.filter_sublist
  · obtain ⟨n1, n2⟩ := hx _ x e1
    unfold targetRows at e
    simp only [n1] at e
    rw [targetRows_filter ⟨rfl, rfl⟩ n2] at e
    rw [e]; exact List.filter_sublist
  · obtain ⟨n1, n2⟩ := hx _ x e1
    rcases e with ⟨-, -, e⟩ | ⟨e | ⟨pc, e, -⟩, -⟩
    · rw [e]
    · exact absurd n1 e
    · rw [n2.resolve_left (by rw [e2]; simp)] at e; cases e

/-- Rows that were not sampled can be left out. -/
theorem between_same (hx : ∀ n x, dget cfg.targets n = some x → NoDraw x) (hb : Between p S src src') {k : Key}
    (hk : ∃ q, Planned p k q) : S' k = S k := by
  classical
  obtain ⟨ign, pass, T₁, T₂, found, ord, hp⟩ := planning hI h
  have hb' : ∀ k ∈ found ++ ord, (S k).Sublist (src' k) ∧ (src' k).Sublist (src k) := by
    intro k hk
    obtain ⟨q, hq⟩ := hp.planned_iff.2 hk
    exact hb k q hq
  rcases List.mem_append.1 (hp.planned_iff.1 hk) with hk | hk
  · have hbk := hb' k (List.mem_append.2 (.inl hk))
    have e := hp.shape.rows_pass hp.ok hS hk
    rw [hp.shape.rows_pass hp.ok hS' hk, e]
    exact hbk.2.antisymm (by rw [← e]; exact hbk.1)
  suffices hmain : ∀ n pre k post, pre.length ≤ n → ord = pre ++ k :: post → S' k = S k by
    obtain ⟨pre, post, he⟩ := List.append_of_mem hk
    exact hmain pre.length pre k post le_rfl he
  intro n
  induction n using Nat.strong_induction_on with
  | _ n ih =>
    intro pre k post hn he
    have hsub : ∀ a ∈ pre, S' a = S a := by
      intro a ha
      obtain ⟨pre₀, post₀, he₀⟩ := List.append_of_mem ha
      have hlt : pre₀.length < n := by
        have : pre.length = pre₀.length + (post₀.length + 1) := by rw [he₀]; simp
        omega
      exact ih pre₀.length hlt pre₀ a (post₀ ++ k :: post) le_rfl (by rw [he, he₀]; simp)
    have hbk := hb' k (List.mem_append.2 (.inr (by rw [he]; simp)))
    have hback : ∀ r, RelatedBack T₁ S' pre k r ↔ RelatedBack T₁ S pre k r := by
      intro r
      constructor
      · rintro ⟨a, ha, fk, hf, c, hc, hr⟩
        exact ⟨a, ha, fk, hf, c, by rw [← hsub a ha]; exact hc, hr⟩
      · rintro ⟨a, ha, fk, hf, c, hc, hr⟩
        exact ⟨a, ha, fk, hf, c, by rw [hsub a ha]; exact hc, hr⟩
    have hfwd : ∀ r, RelatedFwd T₁ S' pre k r ↔ RelatedFwd T₁ S pre k r := by
      intro r
      constructor
      · intro hr fk b hf hb
        obtain ⟨m, hm, hrm⟩ := hr fk b hf hb
        exact ⟨m, by rw [← hsub b hb]; exact hm, hrm⟩
      · intro hr fk b hf hb
        obtain ⟨m, hm, hrm⟩ := hr fk b hf hb
        exact ⟨m, by rw [hsub b hb]; exact hm, hrm⟩
    have hc' := hp.shape.rows_cases hp.ok hpk' hS' he
    have hc := hp.shape.rows_cases hp.ok hpk hS he
    simp only [hback, hfwd, hE.meets] at hc'
    have hnt : ∀ x, dget cfg.targets k.str = some x → k.str ∈ dkeys cfg.targets := fun x e =>
      dget_isSome_iff.1 (by rw [e]; rfl)
    rcases hc with ⟨g1, g2, g3⟩ | ⟨g1, g2, g3, g4, g5⟩ | ⟨g1, x, g2, g3, g4⟩ | ⟨g1, x, g2, g3, g4, g5, g6⟩
    · rcases hc' with ⟨-, -, e⟩ | ⟨e, -⟩ | ⟨e, -⟩ | ⟨e, -⟩
      · rw [e, g3]; exact filter_between (by rw [← g3]; exact hbk.1) hbk.2
      all_goals exact absurd g1 e
    · rcases hc' with ⟨e, -⟩ | ⟨-, -, -, -, e⟩ | ⟨-, x', e, -⟩ | ⟨-, x', e, -⟩
      · exact absurd e g1
      · rw [e, g5]; exact filter_between (by rw [← g5]; exact hbk.1) hbk.2
      all_goals exact absurd (hnt _ e) g3
    · obtain ⟨n1, n2⟩ := hx _ x g2
      rcases hc' with ⟨e, -⟩ | ⟨-, -, e, -⟩ | ⟨-, x', e, -, e'⟩ | ⟨-, x', e, ea, -, eb, ec⟩
      · exact absurd e g1
      · exact absurd (hnt _ g2) e
      · rw [g2] at e; cases e
        have g4' := g4
        unfold targetRows at g4' e'
        simp only [n1] at g4' e'
        rw [targetRows_filter ⟨rfl, rfl⟩ n2] at g4'
        rw [targetRows_filter hE n2] at e'
        rw [e', g4']
        exact filter_between (by rw [← g4']; exact hbk.1) hbk.2
      · rw [g2] at e; cases e
        rcases g3 with g3 | g3
        · rw [g3] at ea; cases ea
        · exact absurd eb g3
    · obtain ⟨n1, n2⟩ := hx _ x g2
      have n2 : x.percent = none := n2.resolve_left (by rw [g3]; simp)
      rcases hc' with ⟨e, -⟩ | ⟨-, -, e, -⟩ | ⟨-, x', e, e'', e'⟩ | ⟨-, x', e, ea, -, eb, ec⟩
      · exact absurd e g1
      · exact absurd (hnt _ g2) e
      · rw [g2] at e; cases e
        rcases e'' with e'' | e''
        · rw [g3] at e''; cases e''
        · exact absurd g5 e''
      · rw [g2] at e; cases e
        rcases g6 with ⟨-, -, g6⟩ | ⟨g6 | ⟨pc, g6, -⟩, -⟩
        · rcases ec with ⟨-, -, ec⟩ | ⟨ec | ⟨pc, ec, -⟩, -⟩
          · rw [ec, g6]
            exact hbk.2.antisymm (by rw [← g6]; exact hbk.1)
          · exact absurd n1 ec
          · rw [n2] at ec; cases ec
        · exact absurd n1 g6
        · rw [n2] at g6; cases g6

/-- The sample of a sample. -/
theorem resample_perm (hx : ∀ k x, dget cfg.targets (k.1 ++ '.' :: k.2) = some x → DrawsAgain cfg T p k x)
    (hb : ∀ k q, Planned p k q → (src' k).Perm (S k)) {k : Key} (hk : ∃ q, Planned p k q) : (S' k).Perm (S k) := by
  classical
  obtain ⟨ign, pass, T₁, T₂, found, ord, hp⟩ := planning hI h
  have hb' : ∀ k ∈ found ++ ord, (src' k).Perm (S k) := by
    intro k hk
    obtain ⟨q, hq⟩ := hp.planned_iff.2 hk
    exact hb k q hq
  rcases List.mem_append.1 (hp.planned_iff.1 hk) with hk | hk
  · rw [hp.shape.rows_pass hp.ok hS' hk]
    exact hb' k (List.mem_append.2 (.inl hk))
  suffices hmain : ∀ n pre k post, pre.length ≤ n → ord = pre ++ k :: post → (S' k).Perm (S k) by
    obtain ⟨pre, post, he⟩ := List.append_of_mem hk
    exact hmain pre.length pre k post le_rfl he
  intro n
  induction n using Nat.strong_induction_on with
  | _ n ih =>
    intro pre k post hn he
    have hsub : ∀ a ∈ pre, (S' a).Perm (S a) := by
      intro a ha
      obtain ⟨pre₀, post₀, he₀⟩ := List.append_of_mem ha
      have hlt : pre₀.length < n := by
        have : pre.length = pre₀.length + (post₀.length + 1) := by rw [he₀]; simp
        omega
      exact ih pre₀.length hlt pre₀ a (post₀ ++ k :: post) le_rfl (by rw [he, he₀]; simp)
    have hbk := hb' k (List.mem_append.2 (.inr (by rw [he]; simp)))
    have hback : ∀ r, RelatedBack T₁ S' pre k r ↔ RelatedBack T₁ S pre k r := by
      intro r
      constructor
      · rintro ⟨a, ha, fk, hf, c, hc, hr⟩
        exact ⟨a, ha, fk, hf, c, (hsub a ha).mem_iff.1 hc, hr⟩
      · rintro ⟨a, ha, fk, hf, c, hc, hr⟩
        exact ⟨a, ha, fk, hf, c, (hsub a ha).mem_iff.2 hc, hr⟩
    have hfwd : ∀ r, RelatedFwd T₁ S' pre k r ↔ RelatedFwd T₁ S pre k r := by
      intro r
      constructor
      · intro hr fk b hf hb
        obtain ⟨m, hm, hrm⟩ := hr fk b hf hb
        exact ⟨m, (hsub b hb).mem_iff.1 hm, hrm⟩
      · intro hr fk b hf hb
        obtain ⟨m, hm, hrm⟩ := hr fk b hf hb
        exact ⟨m, (hsub b hb).mem_iff.2 hm, hrm⟩
    have hc' := hp.shape.rows_cases hp.ok hpk' hS' he
    have hc := hp.shape.rows_cases hp.ok hpk hS he
    simp only [hback, hfwd, hE.meets] at hc'
    have hnt : ∀ x, dget cfg.targets k.str = some x → k.str ∈ dkeys cfg.targets := fun x e =>
      dget_isSome_iff.1 (by rw [e]; rfl)
    have hfil : ∀ {P : Row → Bool}, S k = (src k).filter P → ((src' k).filter P).Perm (S k) := by
      intro P e
      have h1 := hbk.filter P
      have h2 : (S k).filter P = S k := List.filter_eq_self.2 fun r hr => by rw [e] at hr; exact (List.mem_filter.1 hr).2
      rwa [h2] at h1
    rcases hc with ⟨g1, g2, g3⟩ | ⟨g1, g2, g3, g4, g5⟩ | ⟨g1, x, g2, g3, g4⟩ | ⟨g1, x, g2, g3, g4, g5, g6⟩
    · rcases hc' with ⟨-, -, e⟩ | ⟨e, -⟩ | ⟨e, -⟩ | ⟨e, -⟩
      · rw [e]; exact hfil g3
      all_goals exact absurd g1 e
    · rcases hc' with ⟨e, -⟩ | ⟨-, -, -, -, e⟩ | ⟨-, x', e, -⟩ | ⟨-, x', e, -⟩
      · exact absurd e g1
      · rw [e]; exact hfil g5
      all_goals exact absurd (hnt _ e) g3
    · obtain ⟨n2, -⟩ := hx k x g2
      rcases hc' with ⟨e, -⟩ | ⟨-, -, e, -⟩ | ⟨-, x', e, -, e'⟩ | ⟨-, x', e, ea, -, eb, ec⟩
      · exact absurd e g1
      · exact absurd (hnt _ g2) e
      · rw [g2] at e; cases e
        have g4' := g4
        unfold targetRows at g4' e'
        dsimp only at g4' e'
        rw [targetRows_filter ⟨rfl, rfl⟩ n2] at g4'
        rw [targetRows_filter hE n2] at e'
        cases hn : x.amount with
        | none =>
          simp only [hn] at g4' e'
          rw [e']
          exact hfil g4'
        | some m =>
          simp only [hn] at g4' e'
          have hin : ∀ r ∈ S k, decide (x.all = true ∨ TargetAccepts E k x 0 r) = true := by
            intro r hr
            rw [g4'] at hr
            exact (List.mem_filter.1 ((E.shuffle_perm _ _ _).mem_iff.1 (List.mem_of_mem_take hr))).2
          have h1 := hbk.filter fun r => decide (x.all = true ∨ TargetAccepts E k x 0 r)
          rw [List.filter_eq_self.2 hin] at h1
          have h2 := (E'.shuffle_perm ⟨k.1, k.2, false⟩ 0 ((src' k).filter fun r => decide (x.all = true ∨ TargetAccepts E k x 0 r))).trans h1
          rw [e', List.take_of_length_le]
          · exact h2
          · rw [h2.length_eq, g4']
            exact List.length_take_le _ _
      · rw [g2] at e; cases e
        rcases g3 with g3 | g3
        · rw [g3] at ea; cases ea
        · exact absurd eb g3
    · obtain ⟨n2, n1⟩ := hx k x g2
      have n2 : x.percent = none := n2.resolve_left (by rw [g3]; simp)
      have n1 : x.amount = none := by
        rcases n1 with n1 | n1 | n1
        · exact n1
        · rw [g3] at n1; cases n1
        · obtain ⟨v, hv, hr⟩ := g5
          exact absurd ⟨(hp.earlier_iff he (hp.nodot (List.mem_append.2 (.inr (by rw [he]; simp [hv]))))).2 hv, .inl (hp.ref_iff.1 hr)⟩ (n1 v)
      rcases hc' with ⟨e, -⟩ | ⟨-, -, e, -⟩ | ⟨-, x', e, e'', e'⟩ | ⟨-, x', e, ea, -, eb, ec⟩
      · exact absurd e g1
      · exact absurd (hnt _ g2) e
      · rw [g2] at e; cases e
        rcases e'' with e'' | e''
        · rw [g3] at e''; cases e''
        · exact absurd g5 e''
      · rw [g2] at e; cases e
        rcases ec with ⟨-, -, ec⟩ | ⟨ec | ⟨pc, ec, -⟩, -⟩
        · rw [ec]; exact hbk
        · exact absurd n1 ec
        · rw [n2] at ec; cases ec
end

end Subsetter
