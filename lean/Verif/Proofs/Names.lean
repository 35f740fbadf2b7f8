import Verif.Model.Metadata

/- Qualified table names: rendering and parsing. -/
namespace Subsetter

theorem splitDot_render : ∀ {s : Str} {a b : Str}, splitDot s = some (a, b) → render a b = s
  | [], a, b, h => by simp [splitDot] at h
  | c :: cs, a, b, h => by
    by_cases hc : c = '.'
    · subst hc
      simp only [splitDot, if_true, Option.some.injEq, Prod.mk.injEq] at h
      obtain ⟨rfl, rfl⟩ := h
      rfl
    · simp only [splitDot, if_neg hc] at h
      cases hs : splitDot cs with
      | none => rw [hs] at h; simp at h
      | some p =>
        obtain ⟨a', b'⟩ := p
        rw [hs] at h
        simp only [Option.some.injEq, Prod.mk.injEq] at h
        obtain ⟨rfl, rfl⟩ := h
        have := splitDot_render hs
        simp only [render, List.cons_append] at this ⊢
        rw [this]

theorem parse_str {s : Str} {k : Key} (h : parseTableName s = some k) : k.str = s :=
  splitDot_render h

theorem parse_inj {s s' : Str} {k : Key} (h : parseTableName s = some k)
    (h' : parseTableName s' = some k) : s = s' := by
  rw [← parse_str h, ← parse_str h']

theorem splitDot_of_nodot : ∀ (a b : Str), '.' ∉ a → splitDot (a ++ '.' :: b) = some (a, b)
  | [], b, _ => by simp [splitDot]
  | c :: cs, b, h => by
    simp only [List.mem_cons, not_or] at h
    simp only [List.cons_append, splitDot, if_neg (Ne.symm h.1), splitDot_of_nodot cs b h.2]

theorem splitDot_fst_nodot : ∀ {s a b : Str}, splitDot s = some (a, b) → '.' ∉ a
  | [], a, b, h => by simp [splitDot] at h
  | c :: cs, a, b, h => by
    by_cases hc : c = '.'
    · subst hc
      simp only [splitDot, if_true, Option.some.injEq, Prod.mk.injEq] at h
      simp [← h.1]
    · simp only [splitDot, if_neg hc] at h
      cases hs : splitDot cs with
      | none => rw [hs] at h; simp at h
      | some p =>
        obtain ⟨a', b'⟩ := p
        rw [hs] at h
        simp only [Option.some.injEq, Prod.mk.injEq] at h
        obtain ⟨rfl, rfl⟩ := h
        simp only [List.mem_cons, not_or]
        exact ⟨Ne.symm hc, splitDot_fst_nodot hs⟩

theorem parse_of_nodot {k : Key} (h : '.' ∉ k.1) : parseTableName k.str = some k :=
  splitDot_of_nodot k.1 k.2 h

theorem parse_fst_nodot {s : Str} {k : Key} (h : parseTableName s = some k) : '.' ∉ k.1 :=
  splitDot_fst_nodot h

theorem str_inj {k k' : Key} (h : '.' ∉ k.1) (h' : '.' ∉ k'.1) (e : k.str = k'.str) : k = k' := by
  have := parse_of_nodot h
  rw [e, parse_of_nodot h'] at this
  exact (Option.some.inj this).symm

theorem str_ne_nil (k : Key) : k.str ≠ [] := by simp [Key.str, render]

end Subsetter
