import Verif.Spec.Conflicts
import Verif.Proofs.Conflicts
import Verif.Props.Enforce

/- What inserting does to the rows of a table with unique constraints. -/
namespace Subsetter
open Spec Props

variable {dialect : Dialect} {strategy : Strategy} {d : DestTable} {cols : List Str} {uniques : List (List Str)}
  {upd : List Str} {new : Row} {T T' : List Row}

theorem samePk_iff {r : Row} : samePk d new r = true ↔ d.pk ≠ [] ∧ ∀ c ∈ d.pk, r.get c = new.get c := by
  simp [samePk, pkOf, List.map_inj_left]

theorem blocked_iff : (T.any (samePk d new) || (uniques.find? fun u => T.any (clash u new)).isSome) = true ↔
    ∃ r ∈ T, Collides d uniques new r := by
  rw [Bool.or_eq_true, List.any_eq_true, List.find?_isSome]
  constructor
  · rintro (⟨r, h1, h2⟩ | ⟨u, h1, h2⟩)
    · exact ⟨r, h1, .inl (samePk_iff.1 h2)⟩
    · obtain ⟨r, h3, h4⟩ := List.any_eq_true.1 h2
      exact ⟨r, h3, .inr ⟨u, h1, clash_iff.1 h4⟩⟩
  · rintro ⟨r, h1, h2 | ⟨u, h2, h3⟩⟩
    · exact .inl ⟨r, h1, samePk_iff.2 h2⟩
    · exact .inr ⟨u, h2, List.any_eq_true.2 ⟨r, h1, clash_iff.2 h3⟩⟩

/-- A row that collides with none is added. -/
theorem insertUnique_fresh (h : ∀ r ∈ T, ¬ Collides d uniques new r) :
    insertUnique dialect strategy d uniques upd new T = .ok (T ++ [new]) := by
  have hb : ¬ (T.any (samePk d new) || (uniques.find? fun u => T.any (clash u new)).isSome) = true :=
    fun g => by obtain ⟨r, h1, h2⟩ := blocked_iff.1 g; exact h r h1 h2
  rw [Bool.not_eq_true, Bool.or_eq_false_iff] at hb
  obtain ⟨h1, h2⟩ := hb
  rw [Option.isSome_eq_false_iff, Option.isNone_iff_eq_none] at h2
  unfold insertUnique
  dsimp only
  rw [h1, h2]
  cases strategy <;> rfl

theorem respects_append (hT : Respects d uniques T) (h : ∀ r ∈ T, ¬ Collides d uniques new r) : Respects d uniques (T ++ [new]) := by
  refine ⟨fun hp => ?_, fun u hu => ?_⟩
  · unfold KeysUnique
    rw [List.map_append]
    refine List.nodup_append.2 ⟨hT.key hp, by simp, ?_⟩
    intro a ha b hb
    obtain ⟨r, hr, rfl⟩ := List.mem_map.1 ha
    rw [List.map_singleton, List.mem_singleton] at hb
    subst hb
    intro e
    exact h r hr (.inl ⟨hp, List.map_inj_left.1 e⟩)
  · unfold Distinguishes
    refine List.pairwise_append.2 ⟨hT.unique u hu, List.pairwise_singleton _ _, ?_⟩
    intro r hr b hb hn
    rw [List.mem_singleton] at hb
    subst hb
    by_contra hc
    push Not at hc
    exact h r hr (.inr ⟨u, hu, fun c hcu => by rw [← hc c hcu]; exact hn c hcu, hc⟩)

theorem accepted_ok (h : accepted uniques T = .ok T') : T' = T ∧ ∀ u ∈ uniques, Distinguishes u T := by
  unfold accepted at h
  split at h
  · rename_i g
    cases h
    exact ⟨rfl, fun u hu => checkUnique_iff.1 (List.all_eq_true.1 g u hu)⟩
  · cases h

/-- The cases of an insertion. -/
theorem insertUnique_cases (h : insertUnique dialect strategy d uniques upd new T = .ok T') :
    ((∀ r ∈ T, ¬ Collides d uniques new r) ∧ T' = T ++ [new]) ∨
    ((∃ r ∈ T, Collides d uniques new r) ∧ ((strategy = .skip ∧ T' = T) ∨
      (strategy = .replace ∧ (∀ u ∈ uniques, Distinguishes u T') ∧
        (((∃ r ∈ T, samePk d new r = true) ∧ T' = T.map fun r => if samePk d new r then updateRow upd new r else r) ∨
          (dialect = .mysql ∧ (∀ r ∈ T, samePk d new r = false) ∧ ∃ u ∈ uniques, (∃ r ∈ T, clash u new r = true) ∧
            T' = T.map fun r => if clash u new r then updateRow upd new r else r))))) := by
  by_cases hb : ∃ r ∈ T, Collides d uniques new r
  · refine .inr ⟨hb, ?_⟩
    have hb' := blocked_iff.2 hb
    unfold insertUnique at h
    dsimp only at h
    cases strategy with
    | error => dsimp only at h; rw [if_pos hb'] at h; cases h
    | skip => dsimp only at h; rw [if_pos hb'] at h; cases h; exact .inl ⟨rfl, rfl⟩
    | replace =>
      dsimp only at h
      refine .inr ⟨rfl, ?_⟩
      by_cases h1 : T.any (samePk d new) = true
      · rw [if_pos h1] at h
        obtain ⟨rfl, h2⟩ := accepted_ok h
        exact ⟨h2, .inl ⟨List.any_eq_true.1 h1, rfl⟩⟩
      · rw [if_neg h1] at h
        cases h2 : uniques.find? fun u => T.any (clash u new) with
        | none => rw [h2] at hb'; simp [h1] at hb'
        | some u =>
          rw [h2] at h
          have hm : dialect = .mysql := by
            cases dialect <;> first | rfl | cases h
          subst hm
          dsimp only at h
          obtain ⟨rfl, h3⟩ := accepted_ok h
          have h4 := List.find?_some h2
          refine ⟨h3, .inr ⟨rfl, fun r hr => ?_, u, List.mem_of_find?_eq_some h2, List.any_eq_true.1 h4, rfl⟩⟩
          rw [Bool.eq_false_iff]
          exact fun g => h1 (List.any_eq_true.2 ⟨r, hr, g⟩)
  · push Not at hb
    left
    rw [insertUnique_fresh hb] at h
    cases h
    exact ⟨hb, rfl⟩

/-- Keys do not change if no key column is assigned, or only to rows that have the same key. -/
theorem map_keys {f : Row → Bool} (h : ∀ r ∈ T, f r = true → pkOf d (updateRow upd new r) = pkOf d r) :
    (T.map fun r => if f r = true then updateRow upd new r else r).map (fun r => d.pk.map r.get) = T.map fun r => d.pk.map r.get := by
  rw [List.map_map]
  refine List.map_congr_left fun r hr => ?_
  dsimp only [Function.comp]
  by_cases hf : f r = true
  · rw [if_pos hf]; exact h r hr hf
  · rw [if_neg hf]

theorem insertUnique_respects (hupd : dialect = .mysql → ∀ c ∈ upd, c ∉ d.pk) (hT : Respects d uniques T)
    (h : insertUnique dialect strategy d uniques upd new T = .ok T') : Respects d uniques T' := by
  rcases insertUnique_cases h with ⟨h1, rfl⟩ | ⟨-, ⟨-, rfl⟩ | ⟨-, h1, ⟨-, rfl⟩ | ⟨hm, -, u, -, -, rfl⟩⟩⟩
  · exact respects_append hT h1
  · exact hT
  · refine ⟨fun hp => ?_, h1⟩
    unfold KeysUnique
    rw [map_keys fun r _ hr => updateRow_pk (List.map_congr_left (samePk_iff.1 hr).2)]
    exact hT.key hp
  · refine ⟨fun hp => ?_, h1⟩
    unfold KeysUnique
    rw [map_keys fun r _ _ => List.map_congr_left fun c hc => by
      rw [updateRow_get, if_neg fun g => hupd hm c g.1 hc]]
    exact hT.key hp

/-- A row that collides with none of the new ones stays. -/
theorem insertUnique_untouched {r : Row} (hr : r ∈ T) (hc : ¬ Collides d uniques new r)
    (h : insertUnique dialect strategy d uniques upd new T = .ok T') : r ∈ T' := by
  rcases insertUnique_cases h with ⟨-, rfl⟩ | ⟨-, ⟨-, rfl⟩ | ⟨-, -, ⟨-, rfl⟩ | ⟨-, -, u, hu, -, rfl⟩⟩⟩
  · exact List.mem_append.2 (.inl hr)
  · exact hr
  · refine List.mem_map.2 ⟨r, hr, if_neg fun g => hc (.inl (samePk_iff.1 g))⟩
  · refine List.mem_map.2 ⟨r, hr, if_neg fun g => hc (.inr ⟨u, hu, clash_iff.1 g⟩)⟩

/-- An insertion that succeeds is one that would succeed without the unique constraints. -/
theorem insertUnique_plain (hs : strategy = .error ∨ strategy = .replace ∧ dialect ≠ .mysql)
    (h : insertUnique dialect strategy d uniques upd new T = .ok T') : insertOne strategy d upd new T = .ok T' := by
  unfold insertOne
  rcases insertUnique_cases h with ⟨h1, rfl⟩ | ⟨-, ⟨h2, -⟩ | ⟨h2, -, ⟨⟨r, hr, hp⟩, rfl⟩ | ⟨hm, -⟩⟩⟩
  · rw [if_neg]
    intro g
    obtain ⟨r, hr, hp⟩ := List.any_eq_true.1 (any_samePk.2 g)
    exact h1 r hr (.inl (samePk_iff.1 hp))
  · subst h2; rcases hs with hs | ⟨hs, -⟩ <;> cases hs
  · have hp' := any_samePk.1 (List.any_eq_true.2 ⟨r, hr, hp⟩)
    rw [if_pos hp', h2]
    dsimp only
    congr 1
    refine List.map_congr_left fun q _ => ?_
    simp [samePk, hp'.1]
  · subst hm
    rcases hs with hs | ⟨-, hs⟩
    · rw [hs] at h2; cases h2
    · exact absurd rfl hs

section
variable {rows : List Row}

theorem insertUniques_respects (hupd : dialect = .mysql → ∀ c ∈ upd, c ∉ d.pk) : ∀ {rows T : List Row}, Respects d uniques T →
    insertUniques dialect strategy d uniques upd rows T = .ok T' → Respects d uniques T'
  | [], T, hT, h => by cases h; exact hT
  | r :: rs, T, hT, h => by
    unfold insertUniques at h
    split at h
    · cases h
    · rename_i T1 e
      exact insertUniques_respects hupd (insertUnique_respects hupd hT e) h

theorem insertUniques_untouched {r : Row} : ∀ {rows T : List Row}, r ∈ T → (∀ q ∈ rows, ¬ Collides d uniques (fullRow d q) r) →
    insertUniques dialect strategy d uniques upd rows T = .ok T' → r ∈ T'
  | [], T, hr, _, h => by cases h; exact hr
  | q :: rs, T, hr, hc, h => by
    unfold insertUniques at h
    split at h
    · cases h
    · rename_i T1 e
      exact insertUniques_untouched (insertUnique_untouched hr (hc q List.mem_cons_self) e)
        (fun q' hq' => hc q' (List.mem_cons_of_mem _ hq')) h

theorem insertUniques_plain (hs : strategy = .error ∨ strategy = .replace ∧ dialect ≠ .mysql) : ∀ {rows T : List Row},
    insertUniques dialect strategy d uniques upd rows T = .ok T' → insertMany strategy d upd rows T = .ok T'
  | [], T, h => by cases h; rfl
  | q :: rs, T, h => by
    unfold insertUniques at h
    split at h
    · cases h
    · rename_i T1 e
      unfold insertMany
      rw [insertUnique_plain hs e]
      exact insertUniques_plain hs h

/-- Skipping always succeeds and only adds rows. -/
theorem insertUniques_skip : ∀ (rows T : List Row), ∃ A, insertUniques dialect .skip d uniques upd rows T = .ok (T ++ A) ∧
    A.Sublist (rows.map (fullRow d)) ∧ ∀ r ∈ rows.map (fullRow d), r ∈ A ∨ ∃ q ∈ T ++ A, Collides d uniques r q
  | [], T => ⟨[], by rw [List.append_nil]; rfl, List.Sublist.slnil, fun r hr => by cases hr⟩
  | r :: rs, T => by
    by_cases hb : ∃ q ∈ T, Collides d uniques (fullRow d r) q
    · have h1 : insertUnique dialect .skip d uniques upd (fullRow d r) T = .ok T := by
        unfold insertUnique
        dsimp only
        rw [if_pos (blocked_iff.2 hb)]
      obtain ⟨A, h2, h3, h4⟩ := insertUniques_skip rs T
      refine ⟨A, by unfold insertUniques; rw [h1]; exact h2, List.Sublist.cons _ h3, fun q hq => ?_⟩
      rw [List.map_cons, List.mem_cons] at hq
      rcases hq with rfl | hq
      · obtain ⟨q, g1, g2⟩ := hb
        exact .inr ⟨q, List.mem_append.2 (.inl g1), g2⟩
      · exact h4 q hq
    · push Not at hb
      obtain ⟨A, h2, h3, h4⟩ := insertUniques_skip rs (T ++ [fullRow d r])
      refine ⟨fullRow d r :: A, ?_, List.Sublist.cons_cons _ h3, fun q hq => ?_⟩
      · unfold insertUniques
        rw [insertUnique_fresh hb]
        dsimp only
        rw [h2, List.append_assoc]
        rfl
      · rw [List.map_cons, List.mem_cons] at hq
        rcases hq with rfl | hq
        · exact .inl List.mem_cons_self
        · rcases h4 q hq with g | ⟨q', g1, g2⟩
          · exact .inl (List.mem_cons_of_mem _ g)
          · exact .inr ⟨q', by simpa using g1, g2⟩

end

/-- What a flush that succeeds amounts to. -/
theorem flushUnique_cases {rows : List (List Val)} (h : flushUnique dialect strategy d uniques cols rows T = .ok T') :
    ∃ st nonPk, conflictInit strategy d.pk cols = .ok (st, nonPk) ∧
      ¬ (dialect = .generic ∧ st ≠ .error) ∧
      ¬ (st = .replace ∧ ((updateColumns dialect d nonPk).any fun c => decide (c ∈ d.computed)) = true) ∧
      insertUniques dialect st d uniques (updateColumns dialect d nonPk) (rows.map fun row => cols.zip row) T = .ok T' := by
  unfold flushUnique at h
  split at h
  · cases h
  · rename_i st nonPk e
    split at h
    · cases h
    · rename_i g1
      split at h
      · cases h
      · rename_i g2
        exact ⟨st, nonPk, e, g1, g2, h⟩

theorem conflictInit_nonPk {st : Strategy} {pk nonPk : List Str} (h : conflictInit strategy pk cols = .ok (st, nonPk)) :
    ∀ c ∈ nonPk, c ∉ pk := by
  unfold conflictInit at h
  intro c hc
  split at h
  · rename_i g
    rw [List.isEmpty_iff] at g
    rw [g]
    exact List.not_mem_nil
  · split at h
    · dsimp only at h
      split at h <;> (cases h; simpa using (List.mem_filter.1 hc).2)
    · cases h

theorem rowsFor_eq (rows : List (List Val)) : rowsFor d cols rows = (rows.map fun row => cols.zip row).map (fullRow d) := by
  unfold rowsFor
  rw [List.map_map]
  rfl

end Subsetter
