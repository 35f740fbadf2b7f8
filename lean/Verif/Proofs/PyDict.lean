import Verif.Model.Py

/- Lemmas about dicts and sets. -/
namespace Subsetter

section
variable {κ : Type u} {ν : Type v} [DecidableEq κ]

@[simp] theorem dget_nil (x : κ) : dget ([] : Dict κ ν) x = none := rfl

theorem dget_cons (k : κ) (v : ν) (t : Dict κ ν) (x : κ) :
    dget ((k, v) :: t) x = if k = x then some v else dget t x := rfl

theorem dget_dset (d : Dict κ ν) (k : κ) (v : ν) (x : κ) :
    dget (dset d k v) x = if k = x then some v else dget d x := by
  induction d with
  | nil => simp [dset, dget]
  | cons p t ih =>
    obtain ⟨k', v'⟩ := p
    simp only [dset]
    split
    · next h => subst h; simp only [dget_cons]; split <;> rfl
    · next h =>
      simp only [dget_cons, ih]
      split
      · next h2 => subst h2; rw [if_neg (fun h3 => h h3.symm)]
      · rfl

@[simp] theorem dget_dset_self (d : Dict κ ν) (k : κ) (v : ν) : dget (dset d k v) k = some v := by
  simp [dget_dset]

theorem dget_dset_ne (d : Dict κ ν) {k x : κ} (v : ν) (h : k ≠ x) :
    dget (dset d k v) x = dget d x := by
  simp [dget_dset, h]

theorem dget_some_mem {d : Dict κ ν} {k : κ} {v : ν} (h : dget d k = some v) : (k, v) ∈ d := by
  induction d with
  | nil => simp at h
  | cons p t ih =>
    obtain ⟨k', v'⟩ := p
    rw [dget_cons] at h
    split at h
    · next h2 => subst h2; cases h; simp
    · exact List.mem_cons_of_mem _ (ih h)

theorem dget_of_mem {d : Dict κ ν} (hd : (d.map Prod.fst).Nodup) {k : κ} {v : ν}
    (h : (k, v) ∈ d) : dget d k = some v := by
  induction d with
  | nil => simp at h
  | cons p t ih =>
    obtain ⟨k', v'⟩ := p
    simp only [List.map_cons, List.nodup_cons] at hd
    rw [dget_cons]
    rcases List.mem_cons.1 h with h | h
    · cases h; simp
    · rw [if_neg, ih hd.2 h]
      rintro rfl
      exact hd.1 (List.mem_map_of_mem (f := Prod.fst) h)

theorem dget_isSome_iff {d : Dict κ ν} {k : κ} : (dget d k).isSome ↔ k ∈ d.map Prod.fst := by
  induction d with
  | nil => simp
  | cons p t ih =>
    obtain ⟨k', v'⟩ := p
    rw [dget_cons]
    split
    · next h => subst h; simp
    · next h =>
      rw [ih]
      simp only [List.map_cons, List.mem_cons]
      exact ⟨Or.inr, fun h' => h'.resolve_left fun h'' => h h''.symm⟩

theorem dget_none_iff {d : Dict κ ν} {k : κ} : dget d k = none ↔ k ∉ d.map Prod.fst := by
  rw [← dget_isSome_iff]; cases dget d k <;> simp

theorem mem_keys_iff {d : Dict κ ν} {k : κ} : k ∈ d.map Prod.fst ↔ ∃ v, dget d k = some v := by
  rw [← dget_isSome_iff, Option.isSome_iff_exists]

theorem dset_keys (d : Dict κ ν) (k : κ) (v : ν) :
    (dset d k v).map Prod.fst
      = if k ∈ d.map Prod.fst then d.map Prod.fst else d.map Prod.fst ++ [k] := by
  induction d with
  | nil => simp [dset]
  | cons p t ih =>
    obtain ⟨k', v'⟩ := p
    simp only [dset]
    split
    · next h => subst h; simp
    · next h =>
      simp only [List.map_cons, ih, List.mem_cons, List.cons_append]
      by_cases h2 : k ∈ t.map Prod.fst
      · simp [h2]
      · simp [h2, Ne.symm h]

theorem dset_nodup {d : Dict κ ν} (hd : (d.map Prod.fst).Nodup) (k : κ) (v : ν) :
    ((dset d k v).map Prod.fst).Nodup := by
  rw [dset_keys]
  split
  · exact hd
  · next h =>
    rw [List.nodup_append]
    refine ⟨hd, by simp, ?_⟩
    intro a ha b hb hab
    simp only [List.mem_singleton] at hb
    exact h (hb ▸ hab ▸ ha)

theorem mem_dset_keys {d : Dict κ ν} {k : κ} {v : ν} {x : κ} :
    x ∈ (dset d k v).map Prod.fst ↔ x = k ∨ x ∈ d.map Prod.fst := by
  rw [dset_keys]
  split
  · next h => exact ⟨Or.inr, fun h' => h'.elim (fun e => e ▸ h) id⟩
  · simp [or_comm]

@[simp] theorem mem_setAdd {s : List κ} {x y : κ} : y ∈ setAdd s x ↔ y ∈ s ∨ y = x := by
  unfold setAdd; split
  · next h => exact ⟨Or.inl, fun h' => h'.elim id (fun e => e ▸ h)⟩
  · simp

theorem setAdd_nodup {s : List κ} (h : s.Nodup) (x : κ) : (setAdd s x).Nodup := by
  unfold setAdd; split
  · exact h
  · next hx =>
    rw [List.nodup_append]
    refine ⟨h, by simp, ?_⟩
    intro a ha b hb hab
    simp only [List.mem_singleton] at hb
    exact hx (hb ▸ hab ▸ ha)

@[simp] theorem mem_setUnion {s xs : List κ} {y : κ} : y ∈ setUnion s xs ↔ y ∈ s ∨ y ∈ xs := by
  unfold setUnion
  induction xs generalizing s with
  | nil => simp
  | cons x xs ih => simp only [List.foldl_cons, ih, mem_setAdd, List.mem_cons, or_assoc]

theorem setUnion_nodup {s : List κ} (h : s.Nodup) (xs : List κ) : (setUnion s xs).Nodup := by
  unfold setUnion
  induction xs generalizing s with
  | nil => exact h
  | cons x xs ih => exact ih (setAdd_nodup h x)

@[simp] theorem mem_toSet {xs : List κ} {y : κ} : y ∈ toSet xs ↔ y ∈ xs := by
  simp [toSet]

theorem toSet_nodup (xs : List κ) : (toSet xs).Nodup := setUnion_nodup List.nodup_nil xs

theorem setUnion_of_nodup {s xs : List κ} (hx : xs.Nodup) (hd : ∀ x ∈ xs, x ∉ s) :
    setUnion s xs = s ++ xs := by
  unfold setUnion
  induction xs generalizing s with
  | nil => simp
  | cons x xs ih =>
    simp only [List.foldl_cons]
    have h1 : setAdd s x = s ++ [x] := by
      unfold setAdd; rw [if_neg (hd x (by simp))]
    rw [h1, ih (List.nodup_cons.1 hx).2]
    · simp
    · intro y hy hmem
      rcases List.mem_append.1 hmem with h | h
      · exact hd y (List.mem_cons_of_mem _ hy) h
      · simp only [List.mem_singleton] at h
        exact (List.nodup_cons.1 hx).1 (h ▸ hy)
end

end Subsetter
