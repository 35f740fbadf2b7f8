import Verif.Model.Search
import Verif.Proofs.PyDict
import Mathlib.Logic.Relation
import Mathlib.Data.List.Perm.Subperm
import Mathlib.Data.List.Nodup

/-
Property C45: the search over a plan.
-/
namespace Subsetter.Props
open Subsetter

/-- Object `a` holds a reference to the model, list or dict `b`. -/
def Holds (heap : Heap) (a b : Nat) : Prop :=
  (∃ fs, dget heap a = some (.model fs) ∧ b ∈ fs ∨ dget heap a = some (.list fs) ∧ b ∈ fs ∨
    dget heap a = some (.dict fs) ∧ b ∈ fs) ∧ ∃ o, dget heap b = some o

/-- The object is a model. -/
def IsModel (heap : Heap) (a : Nat) : Prop := ∃ fs, dget heap a = some (.model fs)

theorem holds_iff {heap : Heap} {a b : Nat} :
    Holds heap a b ↔ (∃ o, dget heap a = some o ∧ b ∈ o.children) ∧ (dget heap b).isSome := by
  unfold Holds
  rw [Option.isSome_iff_exists]
  refine and_congr_left fun _ => ?_
  constructor
  · rintro ⟨fs, ⟨h, h'⟩ | ⟨h, h'⟩ | ⟨h, h'⟩⟩ <;> exact ⟨_, h, h'⟩
  · rintro ⟨o, h, h'⟩
    cases o with
    | model fs => exact ⟨fs, .inl ⟨h, h'⟩⟩
    | list fs => exact ⟨fs, .inr (.inl ⟨h, h'⟩)⟩
    | dict fs => exact ⟨fs, .inr (.inr ⟨h, h'⟩)⟩

/-- What is known of the visited set and the stack. -/
structure SearchInv (heap : Heap) (vis stack : List Nat) : Prop where
  vis_nodup : vis.Nodup
  stack_nodup : stack.Nodup
  sub : ∀ x ∈ stack, x ∈ vis
  known : ∀ x ∈ vis, (dget heap x).isSome

theorem pushAll {heap : Heap} : ∀ (cs : List Nat) {vis stack : List Nat}, SearchInv heap vis stack →
    ∃ new, cs.foldl (pushObj heap) (vis, stack) = (vis ++ new, new.reverse ++ stack) ∧
      SearchInv heap (vis ++ new) (new.reverse ++ stack) ∧ (∀ x ∈ new, x ∉ vis ∧ x ∈ cs) ∧
      ∀ c ∈ cs, (dget heap c).isSome → c ∈ vis ++ new
  | [], vis, stack, h => ⟨[], by simp, by simpa using h, by simp, by simp⟩
  | c :: cs, vis, stack, h => by
    rw [List.foldl_cons]
    by_cases hc : (dget heap c).isSome ∧ c ∉ vis
    · have hstep : pushObj heap (vis, stack) c = (vis ++ [c], c :: stack) := by
        unfold pushObj setAdd
        rw [if_pos hc.1, if_neg hc.2, if_neg hc.2]
      have h' : SearchInv heap (vis ++ [c]) (c :: stack) := by
        refine ⟨?_, ?_, ?_, ?_⟩
        · rw [List.nodup_append]
          refine ⟨h.vis_nodup, by simp, fun a ha b hb => ?_⟩
          simp only [List.mem_singleton] at hb
          subst hb
          exact fun e => hc.2 (e ▸ ha)
        · exact List.nodup_cons.2 ⟨fun hm => hc.2 (h.sub c hm), h.stack_nodup⟩
        · intro x hx
          rcases List.mem_cons.1 hx with rfl | hx
          · simp
          · simp [h.sub x hx]
        · intro x hx
          rcases List.mem_append.1 hx with hx | hx
          · exact h.known x hx
          · simp only [List.mem_singleton] at hx; subst hx; exact hc.1
      obtain ⟨new, h1, h2, h3, h4⟩ := pushAll cs h'
      refine ⟨c :: new, ?_, ?_, ?_, ?_⟩
      · rw [hstep, h1]; simp
      · simpa using h2
      · intro x hx
        rcases List.mem_cons.1 hx with rfl | hx
        · exact ⟨hc.2, by simp⟩
        · obtain ⟨g1, g2⟩ := h3 x hx
          exact ⟨fun hm => g1 (by simp [hm]), by simp [g2]⟩
      · intro x hx hs
        rcases List.mem_cons.1 hx with rfl | hx
        · simp
        · simpa using h4 x hx hs
    · have hstep : pushObj heap (vis, stack) c = (vis, stack) := by
        unfold pushObj
        split
        · rename_i h1
          rw [if_pos]
          by_contra h2
          exact hc ⟨h1, h2⟩
        · rfl
      obtain ⟨new, h1, h2, h3, h4⟩ := pushAll cs h
      refine ⟨new, by rw [hstep, h1], h2, fun x hx => ⟨(h3 x hx).1, by simp [(h3 x hx).2]⟩, ?_⟩
      intro x hx hs
      rcases List.mem_cons.1 hx with rfl | hx
      · have : x ∈ vis := by
          by_contra h5
          exact hc ⟨hs, h5⟩
        simp [this]
      · exact h4 x hx hs

theorem searchLoop_ok {heap : Heap} : ∀ (n : Nat) (vis stack : List Nat),
    SearchInv heap vis stack → heap.length + stack.length ≤ n + vis.length →
    (∀ x ∈ vis, x ∉ stack → ∀ c, Holds heap x c → c ∈ vis) →
    ∃ (ys V : List Nat), searchLoop heap n (vis, stack) = .ok ys ∧ (∀ x ∈ vis, x ∈ V) ∧
      (∀ x ∈ V, ∀ c, Holds heap x c → c ∈ V) ∧
      (∀ x ∈ V, x ∈ vis ∨ ∃ s ∈ stack, Relation.ReflTransGen (Holds heap) s x) ∧ ys.Nodup ∧
      ∀ x, x ∈ ys ↔ IsModel heap x ∧ x ∈ V ∧ (x ∉ vis ∨ x ∈ stack) := by
  intro n
  induction n with
  | zero =>
    intro vis stack hinv hlen hcl
    have hle : vis.length ≤ heap.length := by
      have : vis.length ≤ (dkeys heap).length :=
        (List.subperm_of_subset hinv.vis_nodup fun x hx => dget_isSome_iff.1 (hinv.known x hx)).length_le
      simpa [dkeys] using this
    cases stack with
    | nil =>
      refine ⟨[], vis, rfl, fun x hx => hx, fun x hx c hc => hcl x hx (by simp) c hc, fun x hx => .inl hx,
        List.nodup_nil, fun x => ?_⟩
      constructor
      · intro h; cases h
      · rintro ⟨-, h1, h2 | h2⟩
        · exact absurd h1 h2
        · cases h2
    | cons s stack =>
      simp only [List.length_cons] at hlen
      omega
  | succ n ih =>
    intro vis stack hinv hlen hcl
    cases stack with
    | nil =>
      refine ⟨[], vis, rfl, fun x hx => hx, fun x hx c hc => hcl x hx (by simp) c hc, fun x hx => .inl hx,
        List.nodup_nil, fun x => ?_⟩
      constructor
      · intro h; cases h
      · rintro ⟨-, h1, h2 | h2⟩
        · exact absurd h1 h2
        · cases h2
    | cons s stack =>
      obtain ⟨o, ho⟩ := Option.isSome_iff_exists.1 (hinv.known s (hinv.sub s (by simp)))
      have hs := List.nodup_cons.1 hinv.stack_nodup
      have hinv' : SearchInv heap vis stack :=
        ⟨hinv.vis_nodup, hs.2, fun x hx => hinv.sub x (by simp [hx]), hinv.known⟩
      obtain ⟨new, h1, h2, h3, h4⟩ := pushAll o.children hinv'
      have hsv : s ∈ vis := hinv.sub s (by simp)
      have hholds : ∀ c, Holds heap s c → c ∈ vis ++ new := by
        intro c hc
        obtain ⟨⟨o', g1, g2⟩, g3⟩ := holds_iff.1 hc
        rw [ho] at g1
        cases g1
        exact h4 c g2 g3
      obtain ⟨ys, V, g1, g2, g3, g4, g5, g6⟩ := ih (vis ++ new) (new.reverse ++ stack) h2 (by
          simp only [List.length_append, List.length_reverse, List.length_cons] at hlen ⊢
          omega) (by
          intro x hx hns c hc
          rcases List.mem_append.1 hx with hx | hx
          · by_cases e : x = s
            · subst e; exact hholds c hc
            · refine List.mem_append.2 (.inl (hcl x hx (fun hm => ?_) c hc))
              rcases List.mem_cons.1 hm with hm | hm
              · exact e hm
              · exact hns (by simp [hm])
          · exact absurd (by simp [hx]) hns)
      have hsn : s ∉ new := fun h => (h3 s h).1 hsv
      have hsys : s ∉ ys := by
        intro hm
        obtain ⟨-, -, h | h⟩ := (g6 s).1 hm
        · exact h (by simp [hsv])
        · simp only [List.mem_append, List.mem_reverse] at h
          rcases h with h | h
          · exact hsn h
          · exact hs.1 h
      refine ⟨if o.isModel then s :: ys else ys, V, ?_, fun x hx => g2 x (by simp [hx]), g3, ?_, ?_, ?_⟩
      · rw [searchLoop, ho]
        dsimp only
        rw [h1, g1]
      · intro x hx
        rcases g4 x hx with h | ⟨s', h, h'⟩
        · rcases List.mem_append.1 h with h | h
          · exact .inl h
          · refine .inr ⟨s, by simp, .single ?_⟩
            exact holds_iff.2 ⟨⟨o, ho, (h3 x h).2⟩, h2.known x (by simp [h])⟩
        · simp only [List.mem_append, List.mem_reverse] at h
          rcases h with h | h
          · refine .inr ⟨s, by simp, .head ?_ h'⟩
            exact holds_iff.2 ⟨⟨o, ho, (h3 s' h).2⟩, h2.known s' (by simp [h])⟩
          · exact .inr ⟨s', by simp [h], h'⟩
      · split
        · exact List.nodup_cons.2 ⟨hsys, g5⟩
        · exact g5
      · intro x
        by_cases e : x = s
        · subst e
          have hV : x ∈ V := g2 x (by simp [hsv])
          split
          · rename_i hm
            refine ⟨fun _ => ⟨?_, hV, .inr (by simp)⟩, fun _ => by simp⟩
            cases o with
            | model fs => exact ⟨fs, ho⟩
            | list fs => cases hm
            | dict fs => cases hm
          · rename_i hm
            refine ⟨fun h => absurd h hsys, ?_⟩
            rintro ⟨⟨fs, h⟩, -⟩
            rw [ho] at h
            cases h
            exact absurd rfl hm
        · have hmem : x ∈ (if o.isModel then s :: ys else ys) ↔ x ∈ ys := by
            split
            · simp [e]
            · rfl
          rw [hmem, g6 x]
          refine and_congr_right fun _ => and_congr_right fun _ => ?_
          simp only [List.mem_append, List.mem_reverse, List.mem_cons, e, false_or, not_or]
          constructor
          · rintro (⟨h, -⟩ | h | h)
            · exact .inl h
            · exact .inl (h3 x h).1
            · exact .inr h
          · rintro (h | h)
            · by_cases hn : x ∈ new
              · exact .inr (.inl hn)
              · exact .inl ⟨h, hn⟩
            · exact .inr (.inr h)

/-- C45. The search terminates and yields every model reachable from the root exactly once, whatever the objects
share and even if they form cycles. -/
theorem c45_search (heap : Heap) (root : Nat) :
    ∃ ys, search heap root = .ok ys ∧ ys.Nodup ∧
      ∀ x, x ∈ ys ↔ IsModel heap x ∧ Relation.ReflTransGen (Holds heap) root x := by
  unfold search
  by_cases hr : (dget heap root).isSome
  · have hstep : pushObj heap ([], []) root = ([root], [root]) := by
      unfold pushObj setAdd
      rw [if_pos hr]
      rfl
    rw [hstep]
    obtain ⟨ys, V, h1, h2, h3, h4, h5, h6⟩ := searchLoop_ok heap.length [root] [root]
      ⟨by simp, by simp, by simp, by simpa using hr⟩ (Nat.le_refl _) (by
        intro x hx hn
        exact absurd hx hn)
    refine ⟨ys, h1, h5, fun x => ?_⟩
    rw [h6 x]
    refine and_congr_right fun hmod => ?_
    clear hmod
    constructor
    · rintro ⟨hV, -⟩
      rcases h4 x hV with h | ⟨s, h, h'⟩
      · simp only [List.mem_singleton] at h; subst h; exact .refl
      · simp only [List.mem_singleton] at h; subst h; exact h'
    · intro h
      refine ⟨?_, ?_⟩
      · induction h with
        | refl => exact h2 root (by simp)
        | tail _ hc ih => exact h3 _ ih _ hc
      · by_cases e : x ∈ [root]
        · exact .inr e
        · exact .inl e
  · have hstep : pushObj heap ([], []) root = ([], []) := by
      unfold pushObj
      rw [if_neg hr]
    rw [hstep]
    refine ⟨[], by cases heap.length <;> rfl, List.nodup_nil, fun x => ?_⟩
    refine ⟨fun h => (by cases h), ?_⟩
    rintro ⟨⟨fs, h⟩, hreach⟩
    rcases Relation.ReflTransGen.cases_head hreach with rfl | ⟨c, hc, -⟩
    · rw [h] at hr; exact absurd rfl hr
    · obtain ⟨⟨o, ho, -⟩, -⟩ := holds_iff.1 hc
      rw [ho] at hr
      exact absurd rfl hr

/-- A model with a list of two models and a dict with one of them; the last one refers back. -/
example : search [(0, .model [1, 7]), (1, .list [2, 3]), (2, .model [4]), (3, .model [0]), (4, .dict [3, 2])] 0 =
    .ok [0, 3, 2] := by decide

end Subsetter.Props
