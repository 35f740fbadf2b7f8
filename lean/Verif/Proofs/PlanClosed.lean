import Verif.Proofs.PlanErr
import Verif.Proofs.PlanTop

/- Planned tables are closed under references, and circles are among passthrough tables only. -/
namespace Subsetter
open Spec

/-- Relations along a list in which every element has only outgoing or only incoming edges to earlier ones have no
circles. -/
theorem no_circle_along {α : Type} {R : α → α → Prop} {l : List α} (hself : ∀ k ∈ l, ¬ R k k)
    (hdir : ∀ pre k post, l = pre ++ k :: post → (¬ ∃ v ∈ pre, R k v) ∨ ¬ ∃ v ∈ pre, R v k) (x : α) :
    ¬ Relation.TransGen (fun a b => R a b ∧ a ∈ l ∧ b ∈ l) x x := by
  suffices h : ∀ pre post, l = pre ++ post → ¬ Relation.TransGen (fun a b => R a b ∧ a ∈ pre ∧ b ∈ pre) x x from
    h l [] (by simp)
  intro pre
  induction pre using List.reverseRecOn with
  | nil =>
    intro post _ h
    obtain ⟨c, -, -, h, -⟩ := Relation.TransGen.tail'_iff.1 h
    cases h
  | append_singleton pre k ih =>
    intro post hl h
    have hl' : l = pre ++ k :: post := by rw [hl]; simp
    have hk := hself k (by rw [hl']; simp)
    have hmem : ∀ a, a ∈ pre ++ [k] → a ≠ k → a ∈ pre := by
      intro a ha hne
      rcases List.mem_append.1 ha with h | h
      · exact h
      · exact absurd (List.mem_singleton.1 h) hne
    refine ih (k :: post) hl' ?_
    rcases hdir pre k post hl' with hd | hd
    · -- no edge leaves `k`
      have hsrc : ∀ a b, (R a b ∧ a ∈ pre ++ [k] ∧ b ∈ pre ++ [k]) → a ≠ k := by
        rintro a b ⟨h1, h2, h3⟩ rfl
        rcases List.mem_append.1 h3 with h4 | h4
        · exact hd ⟨b, h4, h1⟩
        · rw [List.mem_singleton.1 h4] at h1; exact hk h1
      have hx : x ≠ k := by
        obtain ⟨c, h1, -⟩ := Relation.TransGen.head'_iff.1 h
        exact hsrc _ _ h1
      have : ∀ a, Relation.TransGen (fun a b => R a b ∧ a ∈ pre ++ [k] ∧ b ∈ pre ++ [k]) a x →
          a ≠ k ∧ Relation.TransGen (fun a b => R a b ∧ a ∈ pre ∧ b ∈ pre) a x := by
        intro a ha
        induction ha using Relation.TransGen.head_induction_on with
        | single h1 => exact ⟨hsrc _ _ h1, .single ⟨h1.1, hmem _ h1.2.1 (hsrc _ _ h1), hmem _ h1.2.2 hx⟩⟩
        | head h1 _ ih =>
          exact ⟨hsrc _ _ h1, .head ⟨h1.1, hmem _ h1.2.1 (hsrc _ _ h1), hmem _ h1.2.2 ih.1⟩ ih.2⟩
      exact (this x h).2
    · have hdst : ∀ a b, (R a b ∧ a ∈ pre ++ [k] ∧ b ∈ pre ++ [k]) → b ≠ k := by
        rintro a b ⟨h1, h2, h3⟩ rfl
        rcases List.mem_append.1 h2 with h4 | h4
        · exact hd ⟨a, h4, h1⟩
        · rw [List.mem_singleton.1 h4] at h1; exact hk h1
      have hx : x ≠ k := by
        obtain ⟨c, -, h1⟩ := Relation.TransGen.tail'_iff.1 h
        exact hdst _ _ h1
      have : ∀ a, Relation.TransGen (fun a b => R a b ∧ a ∈ pre ++ [k] ∧ b ∈ pre ++ [k]) x a →
          a ≠ k ∧ Relation.TransGen (fun a b => R a b ∧ a ∈ pre ∧ b ∈ pre) x a := by
        intro a ha
        induction ha with
        | single h1 => exact ⟨hdst _ _ h1, .single ⟨h1.1, hmem _ h1.2.1 hx, hmem _ h1.2.2 (hdst _ _ h1)⟩⟩
        | tail _ h1 ih => exact ⟨hdst _ _ h1, ih.2.tail ⟨h1.1, hmem _ h1.2.1 ih.1, hmem _ h1.2.2 (hdst _ _ h1)⟩⟩
      exact (this x h).2

variable {cfg : PlannerConfig} {T T₁ T₂ : Tables} {p : Plan} {ign pass found ord : List Key}

/-- References of planned tables lead to planned or to ignored tables. -/
theorem Planning.refs_planned (hp : Planning cfg T p ign pass T₁ T₂ found ord) {a b : Key} {fk : ForeignKey}
    (ha : a ∈ found ++ ord) (hu : UsedFk cfg T a fk b) :
    b ∈ found ++ ord ∨ (cfg.includeDependencies = false ∧ b ∈ ign ∧ a ∉ found) := by
  have hf := (hp.used a fk b).2 hu
  have hb := hp.shape.closed a fk b hf
  obtain ⟨t, ht, hfk, hd⟩ := hf
  have hget := hp.ok.get.2 ht
  by_cases hfa : a ∈ found
  · left
    have := hp.shape.found_fks a t hfa hget fk hfk
    exact List.mem_append.2 (.inl (hp.mem_found.2 ⟨by rw [← hd]; exact this, hb⟩))
  · have hao : a ∈ ord := (List.mem_append.1 ha).resolve_left hfa
    by_cases hbf : b ∈ found
    · exact .inl (List.mem_append.2 (.inl hbf))
    · by_cases hbi : b ∈ ign
      · right
        refine ⟨?_, hbi, hfa⟩
        cases hdep : cfg.includeDependencies with
        | false => rfl
        | true =>
          exfalso
          have hc := hp.shape.ignoreCheck hdep
          rcases checkIgnore_iff (ign := ign) (ts := T₁.map Prod.snd) with ⟨-, g⟩ | ⟨t', -, fk', -, -, -, g⟩
          · have hk : t.key = a := hp.ok.key_eq a t ht
            refine g t (List.mem_map.2 ⟨_, ht, rfl⟩) ?_ fk hfk ?_
            · rw [hk]; exact (hp.shape.order.avail a hao).2.2
            · rw [show fk.dst = b from hd]; exact hbi
          · rw [hc] at g; cases g
      · exact .inl (List.mem_append.2 (.inr (hp.shape.order.closed a hao b hb hbf hbi
          (.inl ⟨fk, t, ht, hfk, hd⟩))))

/-- Planned tables that refer to each other in a circle are passed through. -/
theorem Planning.circle_found (hp : Planning cfg T p ign pass T₁ T₂ found ord) {k : Key}
    (h : Relation.TransGen (fun a b => UsedRef cfg T a b ∧ a ∈ found ++ ord ∧ b ∈ found ++ ord) k k) : k ∈ found := by
  have hnd := List.nodup_append.1 hp.shape.nodup
  have hfound : ∀ a b, a ∈ found → UsedRef cfg T a b → b ∈ found := by
    rintro a b ha hab
    obtain ⟨fk, hf⟩ := hp.ref_iff.2 hab
    have hb := hp.shape.closed a fk b hf
    obtain ⟨t, ht, hfk, hd⟩ := hf
    exact hp.mem_found.2 ⟨by rw [← hd]; exact hp.shape.found_fks a t ha (hp.ok.get.2 ht) fk hfk, hb⟩
  by_contra hk
  have hpath : ∀ y, Relation.TransGen (fun a b => UsedRef cfg T a b ∧ a ∈ found ++ ord ∧ b ∈ found ++ ord) k y →
      y ∈ found ∨ (y ∈ ord ∧ Relation.TransGen (fun a b => Ref T₁ a b ∧ a ∈ ord ∧ b ∈ ord) k y) := by
    intro y hy
    induction hy with
    | single h1 =>
      have hko : k ∈ ord := (List.mem_append.1 h1.2.1).resolve_left hk
      rcases List.mem_append.1 h1.2.2 with h2 | h2
      · exact .inl h2
      · exact .inr ⟨h2, .single ⟨hp.ref_iff.2 h1.1, hko, h2⟩⟩
    | tail _ h1 ih =>
      rcases ih with h2 | ⟨h2, h3⟩
      · exact .inl (hfound _ _ h2 h1.1)
      · rcases List.mem_append.1 h1.2.2 with h4 | h4
        · exact .inl h4
        · exact .inr ⟨h4, h3.tail ⟨hp.ref_iff.2 h1.1, h2, h4⟩⟩
  rcases hpath k h with h1 | ⟨-, h1⟩
  · exact hk h1
  · refine no_circle_along (R := Ref T₁) hp.shape.order.noself (fun pre k post he => ?_) k h1
    rcases hp.shape.order.dir pre k post he with ⟨-, h2⟩ | ⟨-, -, h2⟩
    · exact .inl h2
    · exact .inr h2

end Subsetter
