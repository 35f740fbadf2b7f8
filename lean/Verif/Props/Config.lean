import Verif.Proofs.Config
import Verif.Proofs.PlanGraph

/-
Property C44: combination of configuration files.
-/
namespace Subsetter.Props
open Subsetter Spec

theorem replaces_cons {d : Items} {k : Str} {p : List Str} :
    Replaces (.map d) (k :: p) ↔ ∃ v, dget d k = some v ∧ Replaces v p ∨ dget d k = some v ∧ ¬ IsMap v ∧ p ≠ [] := by
  constructor
  · rintro ⟨q, v, h1, h2, h3, h4⟩
    cases q with
    | nil => rw [valueAt_nil] at h3; cases h3; exact absurd ⟨d, rfl⟩ h4
    | cons k' q =>
      obtain ⟨rfl, h1'⟩ := List.cons_prefix_cons.1 h1
      rw [valueAt_map] at h3
      cases hd : dget d k' with
      | none => rw [hd] at h3; cases h3
      | some w =>
        rw [hd] at h3
        exact ⟨w, .inl ⟨rfl, q, v, h1', fun e => h2 (by rw [e]), h3, h4⟩⟩
  · rintro ⟨v, ⟨h1, q, w, h2, h3, h4, h5⟩ | ⟨h1, h2, h3⟩⟩
    · exact ⟨k :: q, w, List.cons_prefix_cons.2 ⟨rfl, h2⟩, fun e => h3 (by cases e; rfl), by rw [valueAt_map, h1]; exact h4, h5⟩
    · exact ⟨[k], v, by simp, fun e => h3 (by cases e; rfl), by rw [valueAt_map, h1]; exact valueAt_nil v, h2⟩

theorem replaces_not_map {y : Yaml} (h : ¬ IsMap y) {k : Str} {p : List Str} : Replaces y (k :: p) :=
  ⟨[], y, by simp, by simp, valueAt_nil y, h⟩

/-- C44. What the merged document holds at every path: the value of the later file if it has one (merged with that
of the earlier file where both are mappings), nothing if the later file replaces a mapping above, and what the
earlier file holds if the later one is silent. -/
theorem c44_merge_at {a b : Yaml} (hb : KeysOnce b) (p : List Str) :
    (∀ v, valueAt b p = some v → ¬ IsMap v → valueAt (dictMerge a b) p = some v) ∧
    (∀ v, valueAt b p = some v → IsMap v → ∃ w, valueAt (dictMerge a b) p = some w ∧ IsMap w ∧
      ∀ k, (valueAt w [k]).isSome ↔ (valueAt v [k]).isSome ∨ (valueAt a (p ++ [k])).isSome) ∧
    (valueAt b p = none → Replaces b p → valueAt (dictMerge a b) p = none) ∧
    (Silent b p → valueAt (dictMerge a b) p = valueAt a p) := by
  induction p generalizing a b with
  | nil =>
    simp only [valueAt_nil]
    refine ⟨?_, ?_, (fun h => by cases h), ?_⟩
    · rintro v h hv
      cases h
      rw [merge_not_map hv]
    · rintro v h ⟨r, rfl⟩
      cases h
      cases a with
      | leaf s =>
        rw [merge_into_not_map (by rintro ⟨d, e⟩; cases e)]
        exact ⟨_, rfl, ⟨r, rfl⟩, fun k => by simp [valueAt]⟩
      | seq l =>
        rw [merge_into_not_map (by rintro ⟨d, e⟩; cases e)]
        exact ⟨_, rfl, ⟨r, rfl⟩, fun k => by simp [valueAt]⟩
      | map l =>
        rw [merge_map]
        refine ⟨_, rfl, ⟨_, rfl⟩, fun k => ?_⟩
        rw [List.nil_append, valueAt_map, valueAt_map, valueAt_map, mergeItems_get (keysOnce_map hb)]
        cases h1 : dget r k <;> cases h2 : dget l k <;> simp [valueAt_nil]
    · rintro ⟨h, -⟩
      rw [valueAt_nil] at h
      cases h
  | cons k p ih =>
    by_cases hbm : IsMap b
    · obtain ⟨r, rfl⟩ := hbm
      by_cases ham : IsMap a
      · obtain ⟨l, rfl⟩ := ham
        rw [merge_map]
        simp only [List.cons_append, valueAt_map, mergeItems_get (keysOnce_map hb)]
        cases hr : dget r k with
        | none =>
          refine ⟨(fun v h => by cases h), (fun v h => by cases h), fun _ h => ?_, fun _ => rfl⟩
          obtain ⟨v, ⟨h, -⟩ | ⟨h, -⟩⟩ := replaces_cons.1 h
          · rw [hr] at h; cases h
          · rw [hr] at h; cases h
        | some v =>
          have hv := keysOnce_get hb hr
          have hrep : Replaces (.map r) (k :: p) ↔ Replaces v p := by
            rw [replaces_cons, hr]
            constructor
            · rintro ⟨w, ⟨h, h'⟩ | ⟨h, h', h''⟩⟩
              · cases h; exact h'
              · cases h
                cases p with
                | nil => exact absurd rfl h''
                | cons k' p => exact replaces_not_map h'
            · exact fun h => ⟨v, .inl ⟨rfl, h⟩⟩
          have hsil : Silent (.map r) (k :: p) ↔ Silent v p := by
            unfold Silent
            rw [hrep, valueAt_map, hr]
            rfl
          rw [hrep, hsil]
          cases hl : dget l k with
          | some old => exact ih hv
          | none =>
            refine ⟨fun w h _ => h, fun w h hw => ⟨w, h, hw, fun k => by simp⟩, fun h _ => h, fun h => ?_⟩
            exact h.1
      · rw [merge_into_not_map ham]
        refine ⟨fun v h _ => h, fun v h hv => ⟨v, h, hv, fun k' => ?_⟩, fun h _ => h, fun h => ?_⟩
        · rw [List.cons_append, valueAt_not_map ham]; simp
        · rw [valueAt_not_map ham]; exact h.1
    · rw [merge_not_map hbm, valueAt_not_map hbm]
      refine ⟨(fun v h => by cases h), (fun v h => by cases h), fun _ _ => rfl, fun h => ?_⟩
      exact absurd (replaces_not_map hbm) h.2

/-- C44. A file merged over a document that already contains it changes nothing; in particular a file merged with
itself. -/
theorem c44_repeat (a b : Yaml) (hb : KeysOnce b) : dictMerge (dictMerge a b) b = dictMerge a b := by
  have main : ∀ n, ∀ b : Yaml, sizeOf b ≤ n → KeysOnce b →
      dictMerge b b = b ∧ ∀ a, dictMerge (dictMerge a b) b = dictMerge a b := by
    intro n
    induction n with
    | zero => intro b hn _; cases b <;> simp at hn
    | succ n ih =>
      intro b hn hb
      by_cases hbm : IsMap b
      · obtain ⟨r, rfl⟩ := hbm
        have hnd := keysOnce_map hb
        have hit : ∀ x ∈ r, dictMerge x.2 x.2 = x.2 ∧ ∀ a, dictMerge (dictMerge a x.2) x.2 = dictMerge a x.2 := by
          rintro ⟨k, v⟩ hx
          refine ih v ?_ (keysOnce_get hb (dget_of_mem hnd hx))
          have h1 := List.sizeOf_lt_of_mem hx
          simp only [Yaml.map.sizeOf_spec, Prod.mk.sizeOf_spec] at hn h1
          omega
        have hself : dictMerge (.map r) (.map r) = .map r := by
          rw [merge_map, mergeItems_absorb fun x hx => ⟨x.2, dget_of_mem hnd hx, (hit x hx).1⟩]
        refine ⟨hself, fun a => ?_⟩
        by_cases ham : IsMap a
        · obtain ⟨l, rfl⟩ := ham
          rw [merge_map, merge_map, mergeItems_absorb]
          rintro ⟨k, v⟩ hx
          rw [mergeItems_get hnd, dget_of_mem hnd hx]
          cases hl : dget l k with
          | none => exact ⟨v, rfl, (hit _ hx).1⟩
          | some old => exact ⟨_, rfl, (hit _ hx).2 old⟩
        · rw [merge_into_not_map ham, hself]
      · exact ⟨merge_not_map hbm, fun a => by rw [merge_not_map hbm, merge_not_map hbm]⟩
  exact (main (sizeOf b) b (le_refl _) hb).2 a

theorem c44_idempotent (a : Yaml) (ha : KeysOnce a) : dictMerge a a = a := by
  have := c44_repeat (.leaf .null) a ha
  rw [merge_into_not_map (a := .leaf .null) (by rintro ⟨d, e⟩; cases e)] at this
  exact this

theorem mergeItems_nil_left : ∀ {r l : Items}, (dkeys (l ++ r)).Nodup → mergeItems l r = l ++ r
  | [], l, _ => by rw [mergeItems]; simp
  | (k, v) :: r, l, h => by
    have hk : dget l k = none := by
      rw [dget_none_iff]
      intro hm
      unfold dkeys at h
      rw [List.map_append, List.nodup_append] at h
      exact h.2.2 _ hm _ (by simp) rfl
    have : mergeItem l (k, v) = l ++ [(k, v)] := by
      rw [mergeItem, hk]
      exact dset_new (dget_none_iff.1 hk)
    rw [mergeItems, this, mergeItems_nil_left (by simpa using h)]
    simp

/-- C44. A single file is taken as it is. -/
theorem c44_single_file {f : Yaml} (hf : KeysOnce f) : mergeFiles [f] = f := by
  unfold mergeFiles
  rw [List.foldl_cons, List.foldl_nil]
  by_cases h : IsMap f
  · obtain ⟨d, rfl⟩ := h
    rw [merge_map, mergeItems_nil_left (by simpa using keysOnce_map hf), List.nil_append]
  · exact merge_not_map h

/-- C44. The last file that gives a setting decides, as long as the files after it are silent about it. -/
theorem c44_last_mention_wins {before after : List Yaml} {b : Yaml} (hb : KeysOnce b)
    (hafter : ∀ f ∈ after, KeysOnce f) {p : List Str} {v : Yaml} (hv : valueAt b p = some v) (hleaf : ¬ IsMap v)
    (hsilent : ∀ f ∈ after, Silent f p) : valueAt (mergeFiles (before ++ b :: after)) p = some v := by
  unfold mergeFiles
  rw [List.foldl_append, List.foldl_cons]
  have h0 := (c44_merge_at (a := before.foldl dictMerge (.map [])) hb p).1 v hv hleaf
  revert h0
  generalize dictMerge (before.foldl dictMerge (.map [])) b = c
  intro h0
  induction after generalizing c with
  | nil => exact h0
  | cons f after ih =>
    rw [List.foldl_cons]
    refine ih (fun g hg => hafter g (by simp [hg])) (fun g hg => hsilent g (by simp [hg])) _ ?_
    rw [(c44_merge_at (hafter f (by simp)) p).2.2.2 (hsilent f (by simp))]
    exact h0

/-! ### Examples -/

def yxStr (s : Str) : Yaml := .leaf (.str s)
/-- A base configuration. -/
def yxBase : Yaml := .map [(str! "source", .map [(str! "host", yxStr (str! "a")), (str! "port", .leaf (.int 1))]),
  (str! "planner", .map [(str! "select", .seq [yxStr (str! "s.*")])])]
/-- A file that changes the host and the selection. -/
def yxLocal : Yaml := .map [(str! "source", .map [(str! "host", yxStr (str! "b"))]),
  (str! "planner", .map [(str! "select", .seq [yxStr (str! "t.*")])])]

example : mergeFiles [yxBase, yxLocal] = .map
    [(str! "source", .map [(str! "host", yxStr (str! "b")), (str! "port", .leaf (.int 1))]),
     (str! "planner", .map [(str! "select", .seq [yxStr (str! "t.*")])])] := rfl

theorem yxLocal_once : KeysOnce yxLocal := by
  intro p d h
  match p, h with
  | [], h => rw [valueAt_nil] at h; cases h; decide
  | k :: p, h =>
    unfold yxLocal at h
    rw [valueAt_map] at h
    simp only [dget] at h
    split at h
    · match p, h with
      | [], h => rw [Option.bind_some, valueAt_nil] at h; cases h; decide
      | k :: p, h =>
        rw [Option.bind_some, valueAt_map] at h
        simp only [dget] at h
        split at h
        · match p, h with
          | [], h => cases h
          | k :: p, h => cases h
        · cases h
    · split at h
      · match p, h with
        | [], h => rw [Option.bind_some, valueAt_nil] at h; cases h; decide
        | k :: p, h =>
          rw [Option.bind_some, valueAt_map] at h
          simp only [dget] at h
          split at h
          · match p, h with
            | [], h => cases h
            | k :: p, h => cases h
          · cases h
      · cases h

/-- The theorems applied to the example: the port is kept, the host and the selection are replaced. -/
example : valueAt (dictMerge yxBase yxLocal) [str! "source", str! "port"] = some (.leaf (.int 1)) ∧
    valueAt (dictMerge yxBase yxLocal) [str! "source", str! "host"] = some (yxStr (str! "b")) :=
  ⟨(c44_merge_at yxLocal_once _).2.2.2 ⟨rfl, by
      rintro ⟨q, v, h1, h2, h3, h4⟩
      obtain ⟨t, ht⟩ := h1
      match q, h2, h3, ht with
      | [], _, h3, _ => rw [valueAt_nil] at h3; cases h3; exact h4 ⟨_, rfl⟩
      | [a], _, h3, ht => cases ht; cases h3; exact h4 ⟨_, rfl⟩
      | [a, b], h2, _, ht => cases ht; exact h2 rfl
      | a :: b :: c :: q, _, _, ht => cases ht⟩,
   (c44_merge_at yxLocal_once _).1 _ rfl (by rintro ⟨d, h⟩; cases h)⟩

/-- The hypothesis that later files are silent matters: an empty file is loaded as `None`, which replaces everything
read so far, and an empty section removes the section. -/
theorem c44_empty_file_discards (f g : Yaml) :
    mergeFiles [f, .leaf .null, g] = g ∧
    valueAt (mergeFiles [yxBase, .map [(str! "planner", .leaf .null)]]) [str! "planner", str! "select"] = none := by
  refine ⟨?_, rfl⟩
  unfold mergeFiles
  rw [List.foldl_cons, List.foldl_cons, List.foldl_cons, List.foldl_nil]
  rw [merge_not_map (b := .leaf .null) (by rintro ⟨d, h⟩; cases h), merge_into_not_map (by rintro ⟨d, h⟩; cases h)]

/-- Lists are replaced, not joined. -/
theorem c44_lists_replaced (a b : List Yaml) : dictMerge (.seq a) (.seq b) = .seq b :=
  merge_not_map (by rintro ⟨d, h⟩; cases h)

end Subsetter.Props
