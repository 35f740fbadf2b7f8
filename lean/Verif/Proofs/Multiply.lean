import Verif.Spec.Multiply
import Verif.Proofs.PyDict
import Mathlib.Data.List.Infix
import Mathlib.Data.List.Nodup

/- `_get_multiplied_columns`: the closure loop. -/
namespace Subsetter
open Spec

theorem metaOf_ok {T : Tables} {n : Str} {t : TableMeta} : metaOf T n = .ok t ↔ TableOf T n t := by
  unfold metaOf TableOf
  cases parseTableName n with
  | none => simp
  | some k =>
    cases h : dget T k with
    | none => simp [h]
    | some t' => simp [h]

theorem setUnion_prefix {κ : Type _} [DecidableEq κ] (s xs : List κ) : s <+: setUnion s xs := by
  induction xs generalizing s with
  | nil => exact List.prefix_rfl
  | cons x xs ih =>
    refine List.IsPrefix.trans ?_ (ih (setAdd s x))
    unfold setAdd
    split
    · exact List.prefix_rfl
    · exact List.prefix_append ..

theorem setUnion_suffix {κ : Type _} [DecidableEq κ] (s xs : List κ) :
    ∃ suf, setUnion s xs = s ++ suf ∧ ∀ x ∈ suf, x ∉ s := by
  induction xs generalizing s with
  | nil => exact ⟨[], by simp [setUnion], by simp⟩
  | cons x xs ih =>
    obtain ⟨suf, h1, h2⟩ := ih (setAdd s x)
    have h1 : setUnion s (x :: xs) = setAdd s x ++ suf := h1
    unfold setAdd at h1 h2
    split at h1
    · rename_i hx
      rw [if_pos hx] at h2
      exact ⟨suf, h1, h2⟩
    · rename_i hx
      rw [if_neg hx] at h2
      refine ⟨x :: suf, by rw [h1]; simp, ?_⟩
      intro y hy
      rcases List.mem_cons.1 hy with rfl | hy
      · exact hx
      · exact fun h => h2 y hy (List.mem_append.2 (.inl h))

/-- The set stored for a table, empty if there is none. -/
def getSet (res : Dict Str (List Str)) (n : Str) : List Str := (dget res n).getD []

theorem mem_fkHit {res : Dict Str (List Str)} {fk : ForeignKey} {c : Str} :
    c ∈ fkHit res fk ↔ c ∈ fk.columns ∧ c ∈ getSet res fk.dst.str := by
  simp [fkHit, getSet]

theorem getSet_dset (res : Dict Str (List Str)) (n : Str) (v : List Str) (m : Str) :
    getSet (dset res n v) m = if n = m then v else getSet res m := by
  unfold getSet
  rw [dget_dset]
  split <;> rfl

section
variable {n : Str}

theorem multFks_ne {m : Str} (h : n ≠ m) : ∀ (fks : List ForeignKey) (res : Dict Str (List Str)),
    dget (multFks n fks res) m = dget res m
  | [], res => rfl
  | fk :: fks, res => by
    rw [multFks, multFks_ne h fks, dget_dset_ne _ _ h]

theorem multFks_isSome {fks : List ForeignKey} {res : Dict Str (List Str)} (h : (dget res n).isSome) :
    (dget (multFks n fks res) n).isSome := by
  induction fks generalizing res with
  | nil => exact h
  | cons fk fks ih => rw [multFks]; exact ih (by rw [dget_dset, if_pos rfl]; rfl)

theorem multFks_prefix : ∀ (fks : List ForeignKey) (res : Dict Str (List Str)),
    getSet res n <+: getSet (multFks n fks res) n
  | [], res => List.prefix_rfl
  | fk :: fks, res => by
    rw [multFks]
    refine List.IsPrefix.trans ?_ (multFks_prefix fks _)
    rw [getSet_dset, if_pos rfl]
    exact setUnion_prefix _ _

theorem multFks_suffix : ∀ (fks : List ForeignKey) (res : Dict Str (List Str)),
    ∃ suf, getSet (multFks n fks res) n = getSet res n ++ suf ∧ ∀ x ∈ suf, x ∉ getSet res n
  | [], res => ⟨[], by simp [multFks], by simp⟩
  | fk :: fks, res => by
    rw [multFks]
    obtain ⟨suf, h1, h2⟩ := multFks_suffix fks
      (dset res n (setUnion ((dget res n).getD []) (fkHit res fk)))
    obtain ⟨suf', h3, h4⟩ := setUnion_suffix ((dget res n).getD []) (fkHit res fk)
    rw [getSet_dset, if_pos rfl] at h1 h2
    rw [h1, h3]
    refine ⟨suf' ++ suf, by rw [List.append_assoc]; rfl, ?_⟩
    intro x hx
    rcases List.mem_append.1 hx with h | h
    · exact h4 x h
    · exact fun h' => h2 x h (mem_setUnion.2 (.inl h'))

theorem multFks_hit : ∀ {fks : List ForeignKey} {res : Dict Str (List Str)} {fk : ForeignKey} {c : Str},
    fk ∈ fks → c ∈ fk.columns → c ∈ getSet res fk.dst.str → c ∈ getSet (multFks n fks res) n
  | fk' :: fks, res, fk, c, hfk, hc, hd => by
    rw [multFks]
    rcases List.mem_cons.1 hfk with rfl | hfk
    · refine (multFks_prefix fks _).subset ?_
      rw [getSet_dset, if_pos rfl, mem_setUnion]
      exact .inr (mem_fkHit.2 ⟨hc, hd⟩)
    · refine multFks_hit hfk hc ?_
      rw [getSet_dset]
      split
      · rename_i e
        rw [← e] at hd
        rw [mem_setUnion]
        exact .inl hd
      · exact hd

theorem multFks_mem {P : Str → Str → Prop} {all : List ForeignKey}
    (hP : ∀ fk ∈ all, ∀ c ∈ fk.columns, P fk.dst.str c → P n c) :
    ∀ {fks : List ForeignKey} {res : Dict Str (List Str)}, (∀ fk ∈ fks, fk ∈ all) →
    (∀ m c, c ∈ getSet res m → P m c) → ∀ {c : Str}, c ∈ getSet (multFks n fks res) n →
      P n c ∧ (c ∈ getSet res n ∨ ∃ fk ∈ all, c ∈ fk.columns)
  | [], res, _, hres, c, hc => ⟨hres n c hc, .inl hc⟩
  | fk :: fks, res, hsub, hres, c, hc => by
    rw [multFks] at hc
    have := multFks_mem hP (fks := fks) (fun x hx => hsub x (.tail _ hx)) (res := dset res n
      (setUnion ((dget res n).getD []) (fkHit res fk))) (by
        intro m c hc
        rw [getSet_dset] at hc
        split at hc
        · rename_i e
          subst e
          rcases mem_setUnion.1 hc with h | h
          · exact hres _ _ h
          · obtain ⟨h1, h2⟩ := mem_fkHit.1 h
            exact hP fk (hsub _ (.head _)) c h1 (hres _ _ h2)
        · exact hres _ _ hc) hc
    refine ⟨this.1, ?_⟩
    rcases this.2 with h | h
    · rw [getSet_dset, if_pos rfl] at h
      rcases mem_setUnion.1 h with h | h
      · exact .inl h
      · exact .inr ⟨fk, hsub _ (.head _), (mem_fkHit.1 h).1⟩
    · exact .inr h
end

section
variable {T : Tables} {cfg : MultConfig} {ignore names : List Str}

/-- Loop invariant. -/
structure MultInv (T : Tables) (cfg : MultConfig) (ignore names : List Str)
    (res : Dict Str (List Str)) : Prop where
  keys : ∀ n, (dget res n).isSome ↔ n ∈ names ∧ n ∉ ignore
  sound : ∀ n c, c ∈ getSet res n → MultCol T cfg ignore names n c

theorem multFks_inv {res : Dict Str (List Str)} (h : MultInv T cfg ignore names res) {n : Str}
    {t : TableMeta} (ht : TableOf T n t) (hn : (dget res n).isSome) :
    MultInv T cfg ignore names (multFks n t.foreignKeys res) := by
  refine ⟨fun m => ?_, fun m c hc => ?_⟩
  · by_cases e : n = m
    · subst e
      rw [iff_true_left (multFks_isSome hn)]
      exact (h.keys n).1 hn
    · rw [multFks_ne e]; exact h.keys m
  · by_cases e : n = m
    · subst e
      obtain ⟨h1, h2⟩ := (h.keys n).1 hn
      exact (multFks_mem (P := MultCol T cfg ignore names) (all := t.foreignKeys)
        (fun fk hfk c hc hd => .fk h1 h2 ht hfk hc hd) (fun _ h => h) h.sound hc).1
    · unfold getSet at hc
      rw [multFks_ne e] at hc
      exact h.sound m c hc

/-- What one pass does. -/
theorem multPass_spec : ∀ {todo : List Str} {res : Dict Str (List Str)} {ch : Bool},
    (∀ n ∈ todo, n ∈ names) → MultInv T cfg ignore names res →
    (∃ res' ch', multPass T ignore todo res ch = .ok (res', ch') ∧ MultInv T cfg ignore names res' ∧
      (∀ n, getSet res n <+: getSet res' n) ∧
      (ch' = true → ch = true ∨ ∃ n ∈ todo, ∃ t, TableOf T n t ∧ ∃ fk ∈ t.foreignKeys,
        ∃ c ∈ fk.columns, c ∉ getSet res n ∧ c ∈ getSet res' n) ∧
      (ch' = false → ch = false ∧ (∀ n, getSet res' n = getSet res n) ∧
        ∀ n ∈ todo, ∃ t, TableOf T n t ∧ ∀ fk ∈ t.foreignKeys, ∀ c ∈ fk.columns,
          c ∈ getSet res fk.dst.str → n ∉ ignore ∧ c ∈ getSet res n)) ∨
    (∃ e, multPass T ignore todo res ch = .error e ∧ (e = .badName ∨ e = .keyError ∨
      (e = .passthroughFk ∧ Blocked T cfg ignore names)))
  | [], res, ch, _, hinv => by
    refine .inl ⟨res, ch, rfl, hinv, fun _ => List.prefix_rfl, fun h => .inl h, fun h =>
      ⟨h, fun _ => rfl, ?_⟩⟩
    intro n hn; cases hn
  | n :: todo, res, ch, hsub, hinv => by
    have hsub' : ∀ m ∈ todo, m ∈ names := fun m hm => hsub m (.tail _ hm)
    have hnn := hsub n (.head _)
    rw [multPass]
    cases hm : metaOf T n with
    | error e =>
      right
      refine ⟨e, rfl, ?_⟩
      unfold metaOf at hm
      split at hm
      · cases hm; exact .inl rfl
      · split at hm
        · cases hm; exact .inr (.inl rfl)
        · cases hm
    | ok t =>
      have ht := metaOf_ok.1 hm
      simp only
      cases hg : dget res n with
      | none =>
        have hign : n ∈ ignore := by
          by_contra hni
          have := (hinv.keys n).2 ⟨hnn, hni⟩
          rw [hg] at this; cases this
        simp only
        by_cases hhit : (t.foreignKeys.any fun fk => !(fkHit res fk).isEmpty) = true
        · right
          rw [hhit]
          refine ⟨.passthroughFk, by simp [hign], .inr (.inr ⟨rfl, ?_⟩)⟩
          obtain ⟨fk, h1, h2⟩ := List.any_eq_true.1 hhit
          cases hl : fkHit res fk with
          | nil => rw [hl] at h2; cases h2
          | cons c cs =>
            obtain ⟨h3, h4⟩ := mem_fkHit.1 (show c ∈ fkHit res fk by rw [hl]; exact .head _)
            exact ⟨n, t, fk, c, hnn, hign, ht, h1, h3, hinv.sound _ _ h4⟩
        · have hhit := Bool.eq_false_iff.2 hhit
          rw [hhit]
          simp only [Bool.false_and, Bool.or_false, Bool.false_eq_true, if_false]
          rcases multPass_spec (ch := ch) hsub' hinv with ⟨res', ch', h1, h2, h3, h4, h5⟩ | h
          · refine .inl ⟨res', ch', h1, h2, h3, ?_, ?_⟩
            · intro hc
              rcases h4 hc with h | ⟨m, hm, h⟩
              · exact .inl h
              · exact .inr ⟨m, .tail _ hm, h⟩
            · intro hc
              obtain ⟨h6, h7, h8⟩ := h5 hc
              refine ⟨h6, h7, ?_⟩
              intro m hm
              rcases List.mem_cons.1 hm with rfl | hm
              · refine ⟨t, ht, fun fk hfk c hc hd => ?_⟩
                have := List.any_eq_false.1 hhit fk hfk
                have h9 : c ∈ fkHit res fk := mem_fkHit.2 ⟨hc, hd⟩
                cases hl : fkHit res fk with
                | nil => rw [hl] at h9; cases h9
                | cons => rw [hl] at this; simp at this
              · exact h8 m hm
          · exact .inr h
      | some cols =>
        have hsome : (dget res n).isSome := by rw [hg]; rfl
        have hni := ((hinv.keys n).1 hsome).2
        have hinv' := multFks_inv hinv ht hsome
        have hcols : cols = getSet res n := by unfold getSet; rw [hg]; rfl
        simp only [hni, decide_false, Bool.and_false, Bool.false_eq_true, if_false]
        have hpre := multFks_prefix (n := n) t.foreignKeys res
        have hpre' : ∀ m, getSet res m <+: getSet (multFks n t.foreignKeys res) m := fun m => by
          by_cases e : n = m
          · subst e; exact hpre
          · unfold getSet; rw [multFks_ne e]
        rcases multPass_spec (ch := ch || decide (cols.length <
            ((dget (multFks n t.foreignKeys res) n).getD []).length)) hsub' hinv' with
          ⟨res', ch', h1, h2, h3, h4, h5⟩ | h
        · refine .inl ⟨res', ch', h1, h2, fun m => (hpre' m).trans (h3 m), ?_, ?_⟩
          · intro hc
            rcases h4 hc with h | ⟨m, hm, t', ht', fk, hfk, c, hc1, hc2, hc3⟩
            · rw [Bool.or_eq_true] at h
              rcases h with h | h
              · exact .inl h
              · right
                have hlt := of_decide_eq_true h
                change cols.length < (getSet (multFks n t.foreignKeys res) n).length at hlt
                rw [hcols] at hlt
                have : ∃ c ∈ getSet (multFks n t.foreignKeys res) n, c ∉ getSet res n := by
                  obtain ⟨suf, hs, hs'⟩ := multFks_suffix (n := n) t.foreignKeys res
                  cases suf with
                  | nil => rw [hs, List.append_nil] at hlt; omega
                  | cons c cs => exact ⟨c, by rw [hs]; simp, hs' c (.head _)⟩
                obtain ⟨c, hc1, hc2⟩ := this
                rcases (multFks_mem (P := fun _ _ => True) (all := t.foreignKeys)
                  (fun _ _ _ _ _ => trivial) (fun _ h => h) (fun _ _ _ => trivial) hc1).2 with h | h
                · exact absurd h hc2
                · obtain ⟨fk, hfk, hcf⟩ := h
                  exact ⟨n, .head _, t, ht, fk, hfk, c, hcf, hc2, (h3 n).subset hc1⟩
            · exact .inr ⟨m, .tail _ hm, t', ht', fk, hfk, c, hc1,
                fun h => hc2 ((hpre' m).subset h), hc3⟩
          · intro hc
            obtain ⟨h6, h7, h8⟩ := h5 hc
            rw [Bool.or_eq_false_iff] at h6
            have hle := of_decide_eq_false h6.2
            change ¬ cols.length < (getSet (multFks n t.foreignKeys res) n).length at hle
            have hsame : ∀ m, getSet (multFks n t.foreignKeys res) m = getSet res m := fun m => by
              by_cases e : n = m
              · subst e
                exact (hpre.eq_of_length_le (by rw [← hcols]; omega)).symm
              · unfold getSet; rw [multFks_ne e]
            refine ⟨h6.1, fun m => (h7 m).trans (hsame m), ?_⟩
            intro m hm
            rcases List.mem_cons.1 hm with rfl | hm
            · refine ⟨t, ht, fun fk hfk c hc hd => ⟨hni, ?_⟩⟩
              rw [← hsame]
              exact multFks_hit hfk hc hd
            · obtain ⟨t', ht', h9⟩ := h8 m hm
              refine ⟨t', ht', fun fk hfk c hc hd => ?_⟩
              rw [← hsame] at hd ⊢
              exact h9 fk hfk c hc hd
        · exact .inr h

/-! ### Termination -/

/-- Number of foreign key columns that are not yet in the set of their table. -/
def missing (T : Tables) (res : Dict Str (List Str)) : List Str → Nat
  | [] => 0
  | n :: ns =>
    (match metaOf T n with
      | .error _ => 0
      | .ok t => ((t.foreignKeys.flatMap ForeignKey.columns).filter fun c =>
          decide (c ∉ getSet res n)).length) + missing T res ns

theorem missing_lt_fuel (res : Dict Str (List Str)) : ∀ ns, missing T res ns < multFuel T ns
  | [] => by simp [missing, multFuel]
  | n :: ns => by
    have ih := missing_lt_fuel res ns
    unfold missing multFuel
    cases metaOf T n with
    | error e => simpa using ih
    | ok t =>
      have := List.length_filter_le (fun c => decide (c ∉ getSet res n))
        (t.foreignKeys.flatMap ForeignKey.columns)
      simp only
      omega

theorem length_filter_mono {α : Type _} {p q : α → Bool} {l : List α} (h : ∀ x ∈ l, q x = true → p x = true) :
    (l.filter q).length ≤ (l.filter p).length := by
  induction l with
  | nil => simp
  | cons a l ih =>
    have ih := ih fun x hx => h x (.tail _ hx)
    have ha := h a (.head _)
    simp only [List.filter_cons]
    cases hq : q a <;> cases hp : p a <;> simp_all
    omega

theorem length_filter_lt {α : Type _} {p q : α → Bool} {l : List α} (h : ∀ x ∈ l, q x = true → p x = true)
    {a : α} (ha : a ∈ l) (hp : p a = true) (hq : q a = false) :
    (l.filter q).length < (l.filter p).length := by
  induction l with
  | nil => cases ha
  | cons b l ih =>
    have hm := length_filter_mono (l := l) fun x hx => h x (.tail _ hx)
    have hb := h b (.head _)
    rcases List.mem_cons.1 ha with rfl | ha
    · simp only [List.filter_cons, hp, hq]
      simp; omega
    · have ih := ih (fun x hx => h x (.tail _ hx)) ha
      simp only [List.filter_cons]
      cases hq : q b <;> cases hp : p b <;> simp_all
      omega

theorem missing_le {res res' : Dict Str (List Str)} (h : ∀ n, getSet res n <+: getSet res' n) :
    ∀ ns, missing T res' ns ≤ missing T res ns
  | [] => Nat.le_refl _
  | n :: ns => by
    have ih := missing_le h ns
    unfold missing
    cases metaOf T n with
    | error e => simpa using ih
    | ok t =>
      have := length_filter_mono (l := t.foreignKeys.flatMap ForeignKey.columns)
        (p := fun c => decide (c ∉ getSet res n)) (q := fun c => decide (c ∉ getSet res' n))
        (by simp only [decide_eq_true_eq]; exact fun c _ hc h' => hc ((h n).subset h'))
      simp only
      omega

theorem missing_lt {res res' : Dict Str (List Str)} (h : ∀ n, getSet res n <+: getSet res' n) {n : Str}
    {t : TableMeta} (ht : TableOf T n t) {fk : ForeignKey} (hfk : fk ∈ t.foreignKeys) {c : Str}
    (hc : c ∈ fk.columns) (h1 : c ∉ getSet res n) (h2 : c ∈ getSet res' n) :
    ∀ {ns : List Str}, n ∈ ns → missing T res' ns < missing T res ns
  | m :: ns, hn => by
    have hle := missing_le (T := T) h ns
    have hle' : ∀ t : TableMeta, _ := fun t : TableMeta =>
      length_filter_mono (l := t.foreignKeys.flatMap ForeignKey.columns)
        (p := fun c => decide (c ∉ getSet res m)) (q := fun c => decide (c ∉ getSet res' m))
        (by simp only [decide_eq_true_eq]; exact fun c _ hc h' => hc ((h m).subset h'))
    unfold missing
    rcases List.mem_cons.1 hn with rfl | hn
    · rw [metaOf_ok.2 ht]
      have := length_filter_lt (l := t.foreignKeys.flatMap ForeignKey.columns)
        (p := fun c => decide (c ∉ getSet res n)) (q := fun c => decide (c ∉ getSet res' n))
        (by simp only [decide_eq_true_eq]; exact fun c _ hc h' => hc ((h n).subset h'))
        (List.mem_flatMap.2 ⟨fk, hfk, hc⟩) (by simpa using h1) (by simpa using h2)
      simp only
      omega
    · have ih := missing_lt h ht hfk hc h1 h2 hn
      cases metaOf T m with
      | error e => simpa using ih
      | ok t' =>
        have := hle' t'
        simp only
        omega

/-- What the loop computes. -/
theorem multLoop_spec : ∀ {fuel : Nat} {res : Dict Str (List Str)}, MultInv T cfg ignore names res →
    missing T res names < fuel →
    (∃ res', multLoop T ignore names fuel res = .ok res' ∧ MultInv T cfg ignore names res' ∧
      (∀ n, getSet res n <+: getSet res' n) ∧
      ∀ n ∈ names, ∃ t, TableOf T n t ∧ ∀ fk ∈ t.foreignKeys, ∀ c ∈ fk.columns,
          c ∈ getSet res' fk.dst.str → n ∉ ignore ∧ c ∈ getSet res' n) ∨
    (∃ e, multLoop T ignore names fuel res = .error e ∧ (e = .badName ∨ e = .keyError ∨
      (e = .passthroughFk ∧ Blocked T cfg ignore names)))
  | 0, res, _, hf => absurd hf (Nat.not_lt_zero _)
  | fuel + 1, res, hinv, hf => by
    rw [multLoop]
    rcases multPass_spec (ch := false) (fun _ h => h) hinv with
      ⟨res', ch', h1, h2, h3, h4, h5⟩ | ⟨e, h1, h2⟩
    · rw [h1]
      cases ch' with
      | true =>
        simp only [if_true]
        rcases h4 rfl with h | ⟨n, hn, t, ht, fk, hfk, c, hc, h6, h7⟩
        · cases h
        · have := missing_lt h3 ht hfk hc h6 h7 hn
          rcases multLoop_spec (fuel := fuel) h2 (by omega) with ⟨r, h8, h9, h10, h11⟩ | h
          · exact .inl ⟨r, h8, h9, fun n => (h3 n).trans (h10 n), h11⟩
          · exact .inr h
      | false =>
        obtain ⟨-, h6, h7⟩ := h5 rfl
        refine .inl ⟨res', by simp, h2, h3, fun n hn => ?_⟩
        obtain ⟨t, ht, h8⟩ := h7 n hn
        refine ⟨t, ht, fun fk hfk c hc hd => ?_⟩
        rw [h6] at hd ⊢
        exact h8 fk hfk c hc hd
    · rw [h1]; exact .inr ⟨e, rfl, h2⟩

theorem directColumns_mem {n : Str} {t : TableMeta} {c : Str} :
    c ∈ directColumns cfg n t ↔ (∃ cs, dget cfg.extraColumns n = some cs ∧ c ∈ cs) ∨
      (c ∈ t.primaryKey ∧ ∀ cs, dget cfg.ignorePk n = some cs → c ∉ cs) := by
  simp only [directColumns, mem_setUnion, mem_toSet, List.mem_filter, decide_eq_true_eq]
  cases dget cfg.extraColumns n <;> cases dget cfg.ignorePk n <;> simp

/-- What the first loop computes. -/
theorem multInit_spec : ∀ {todo : List Str} {res : Dict Str (List Str)},
    (∀ n ∈ todo, n ∈ names) → (∀ n c, c ∈ getSet res n → MultCol T cfg ignore names n c) →
    (∃ res', multInit T cfg ignore todo res = .ok res' ∧
      (∀ n, (dget res' n).isSome ↔ (dget res n).isSome ∨ (n ∈ todo ∧ n ∉ ignore)) ∧
      (∀ n c, c ∈ getSet res' n → MultCol T cfg ignore names n c) ∧
      (∀ n, n ∉ todo → getSet res' n = getSet res n) ∧
      ∀ n ∈ todo, n ∉ ignore → ∃ t, TableOf T n t ∧ getSet res' n = directColumns cfg n t) ∨
    (∃ e, multInit T cfg ignore todo res = .error e ∧ (e = .badName ∨ e = .keyError))
  | [], res, _, hs => .inl ⟨res, rfl, by simp, hs, fun _ _ => rfl, by simp⟩
  | n :: todo, res, hsub, hs => by
    have hsub' : ∀ m ∈ todo, m ∈ names := fun m hm => hsub m (.tail _ hm)
    rw [multInit]
    by_cases hi : n ∈ ignore
    · rw [if_pos hi]
      rcases multInit_spec hsub' hs with ⟨res', h1, h2, h3, h4, h5⟩ | h
      · refine .inl ⟨res', h1, fun m => ?_, h3, fun m hm => h4 m fun h => hm (.tail _ h), ?_⟩
        · rw [h2]
          constructor
          · rintro (h | ⟨h, h'⟩)
            · exact .inl h
            · exact .inr ⟨.tail _ h, h'⟩
          · rintro (h | ⟨h, h'⟩)
            · exact .inl h
            · rcases List.mem_cons.1 h with rfl | h
              · exact absurd hi h'
              · exact .inr ⟨h, h'⟩
        · intro m hm hmi
          rcases List.mem_cons.1 hm with rfl | hm
          · exact absurd hi hmi
          · exact h5 m hm hmi
      · exact .inr h
    · rw [if_neg hi]
      cases hm : metaOf T n with
      | error e =>
        right
        refine ⟨e, rfl, ?_⟩
        unfold metaOf at hm
        split at hm
        · cases hm; exact .inl rfl
        · split at hm
          · cases hm; exact .inr rfl
          · cases hm
      | ok t =>
        have ht := metaOf_ok.1 hm
        have hdir : ∀ c ∈ directColumns cfg n t, MultCol T cfg ignore names n c := by
          intro c hc
          rcases directColumns_mem.1 hc with ⟨cs, h1, h2⟩ | ⟨h1, h2⟩
          · exact .extra (hsub n (.head _)) hi h1 h2
          · exact .pk (hsub n (.head _)) hi ht h1 h2
        simp only
        rcases multInit_spec (res := dset res n (directColumns cfg n t)) hsub' (by
          intro m c hc
          rw [getSet_dset] at hc
          split at hc
          · rename_i e; subst e; exact hdir c hc
          · exact hs m c hc) with ⟨res', h1, h2, h3, h4, h5⟩ | h
        · refine .inl ⟨res', h1, fun m => ?_, h3, fun m hm => ?_, ?_⟩
          · rw [h2, dget_dset]
            by_cases e : n = m
            · subst e; simp [hi]
            · rw [if_neg e]
              constructor
              · rintro (h | ⟨h, h'⟩)
                · exact .inl h
                · exact .inr ⟨.tail _ h, h'⟩
              · rintro (h | ⟨h, h'⟩)
                · exact .inl h
                · rcases List.mem_cons.1 h with rfl | h
                  · exact absurd rfl e
                  · exact .inr ⟨h, h'⟩
          · rw [h4 m fun h => hm (.tail _ h), getSet_dset, if_neg (show ¬ n = m from fun e => hm (by rw [e]; exact .head _))]
          · intro m hm hmi
            by_cases hmt : m ∈ todo
            · exact h5 m hmt hmi
            · rcases List.mem_cons.1 hm with rfl | hm
              · exact ⟨t, ht, by rw [h4 m hmt, getSet_dset, if_pos rfl]⟩
              · exact absurd hm hmt
        · exact .inr h

theorem multCheck_cases {res : Dict Str (List Str)} : ∀ {todo : List Str},
    (multCheck T res todo = .ok () ∧ ∀ n ∈ todo, ∃ t, TableOf T n t ∧ ∀ c ∈ getSet res n,
      c ∈ t.columns ∧ c ∈ t.intColumns) ∨
    (∃ e, multCheck T res todo = .error e ∧ (e = .badName ∨ e = .keyError ∨ ∃ n c t, e = .notIntegral n c ∧
      n ∈ todo ∧ TableOf T n t ∧ c ∈ getSet res n ∧ c ∈ t.columns ∧ c ∉ t.intColumns))
  | [] => .inl ⟨rfl, by simp⟩
  | n :: todo => by
    rw [multCheck]
    cases hm : metaOf T n with
    | error e =>
      right
      refine ⟨e, rfl, ?_⟩
      unfold metaOf at hm
      split at hm
      · cases hm; exact .inl rfl
      · split at hm
        · cases hm; exact .inr (.inl rfl)
        · cases hm
    | ok t =>
      have ht := metaOf_ok.1 hm
      simp only
      cases hf : ((dget res n).getD []).find? fun c => decide (c ∉ t.columns) || decide (c ∉ t.intColumns) with
      | some c =>
        right
        have h1 := List.mem_of_find?_eq_some hf
        have h2 := List.find?_some hf
        simp only
        split
        · rename_i hc
          refine ⟨_, rfl, .inr (.inr ⟨n, c, t, rfl, .head _, ht, h1, hc, ?_⟩)⟩
          simpa [hc] using h2
        · exact ⟨_, rfl, .inr (.inl rfl)⟩
      | none =>
        simp only
        rw [List.find?_eq_none] at hf
        rcases multCheck_cases (res := res) (todo := todo) with ⟨h1, h2⟩ | ⟨e, h1, h2⟩
        · refine .inl ⟨h1, fun m hm => ?_⟩
          rcases List.mem_cons.1 hm with rfl | hm
          · refine ⟨t, ht, fun c hc => ?_⟩
            have := hf c hc
            simp only [Bool.or_eq_true, decide_eq_true_eq, not_or, not_not] at this
            exact this
          · exact h2 m hm
        · refine .inr ⟨e, h1, ?_⟩
          rcases h2 with h2 | h2 | ⟨m, c, t', h2, h3, h4⟩
          · exact .inl h2
          · exact .inr (.inl h2)
          · exact .inr (.inr ⟨m, c, t', h2, .tail _ h3, h4⟩)

/-- The multiplied columns are exactly the specified ones. -/
theorem multipliedColumns_spec (hm : 1 < cfg.multiplier) {pass : List Str} :
    (∃ res, multipliedColumns T cfg pass names = .ok res ∧
      (∀ n, (dget res n).isSome ↔ n ∈ names ∧ n ∉ pass ++ cfg.ignoreTables) ∧
      (∀ n c, c ∈ getSet res n ↔ MultCol T cfg (pass ++ cfg.ignoreTables) names n c) ∧
      ¬ Blocked T cfg (pass ++ cfg.ignoreTables) names ∧
      ∀ n ∈ names, ∃ t, TableOf T n t ∧ ∀ c ∈ getSet res n, c ∈ t.columns ∧ c ∈ t.intColumns) ∨
    (∃ e, multipliedColumns T cfg pass names = .error e ∧ (e = .badName ∨ e = .keyError ∨
      (e = .passthroughFk ∧ Blocked T cfg (pass ++ cfg.ignoreTables) names) ∨
      ∃ n c t, e = .notIntegral n c ∧ n ∈ names ∧ TableOf T n t ∧
        MultCol T cfg (pass ++ cfg.ignoreTables) names n c ∧ c ∈ t.columns ∧ c ∉ t.intColumns)) := by
  unfold multipliedColumns
  rw [if_neg (by omega)]
  dsimp only
  rcases multInit_spec (T := T) (cfg := cfg) (ignore := pass ++ cfg.ignoreTables) (names := names)
    (todo := names) (res := []) (fun _ h => h) (by intro n c h; cases h) with
    ⟨res, h1, h2, h3, -, h5⟩ | ⟨e, h1, h2⟩
  · rw [h1]
    have hinv : MultInv T cfg (pass ++ cfg.ignoreTables) names res :=
      ⟨fun n => by rw [h2]; simp [dget], h3⟩
    rcases multLoop_spec hinv (missing_lt_fuel res names) with ⟨res', h6, h7, h8, h9⟩ | ⟨e, h6, h7⟩
    · simp only [h6]
      have hexact : ∀ n c, c ∈ getSet res' n ↔ MultCol T cfg (pass ++ cfg.ignoreTables) names n c := by
        intro n c
        refine ⟨h7.sound n c, fun h => ?_⟩
        induction h with
        | extra a b c d =>
          obtain ⟨t, -, e⟩ := h5 _ a b
          exact (h8 _).subset (by rw [e, directColumns_mem]; exact .inl ⟨_, c, d⟩)
        | pk a b c d e =>
          obtain ⟨t, ht, e'⟩ := h5 _ a b
          have : metaOf T _ = _ := metaOf_ok.2 ht
          rw [metaOf_ok.2 c] at this
          cases this
          exact (h8 _).subset (by rw [e', directColumns_mem]; exact .inr ⟨d, e⟩)
        | fk a b c d e _ ih =>
          obtain ⟨t, ht, h10⟩ := h9 _ a
          have : metaOf T _ = _ := metaOf_ok.2 ht
          rw [metaOf_ok.2 c] at this
          cases this
          exact (h10 _ d _ e ih).2
      have hnb : ¬ Blocked T cfg (pass ++ cfg.ignoreTables) names := by
        rintro ⟨n, t, fk, c, a, b, d, e, f, g⟩
        obtain ⟨t', ht, h10⟩ := h9 _ a
        have : metaOf T _ = _ := metaOf_ok.2 ht
        rw [metaOf_ok.2 d] at this
        cases this
        exact (h10 fk e c f ((hexact _ _).2 g)).1 b
      rcases multCheck_cases (T := T) (res := res') (todo := names) with ⟨h10, h11⟩ | ⟨e, h10, h11⟩
      · rw [h10]
        exact .inl ⟨res', rfl, h7.keys, hexact, hnb, h11⟩
      · rw [h10]
        refine .inr ⟨e, rfl, ?_⟩
        rcases h11 with h | h | ⟨n, c, t, h, h', h'', h12, h13⟩
        · exact .inl h
        · exact .inr (.inl h)
        · exact .inr (.inr (.inr ⟨n, c, t, h, h', h'', (hexact _ _).1 h12, h13⟩))
    · simp only [h6]
      refine .inr ⟨e, rfl, ?_⟩
      rcases h7 with h | h | h
      · exact .inl h
      · exact .inr (.inl h)
      · exact .inr (.inr (.inl h))
  · rw [h1]
    refine .inr ⟨e, rfl, ?_⟩
    rcases h2 with h | h
    · exact .inl h
    · exact .inr (.inl h)
end

end Subsetter
