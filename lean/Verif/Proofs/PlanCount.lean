import Verif.Proofs.PlanRefs

/- How often rows are sampled. -/
set_option linter.unusedSectionVars false
namespace Subsetter
open Spec

/-- The union of a select without condition and a limited target select stays a union. -/
theorem simplify_pair_nodup {k : Key} {joins : List Join} {outer : Bool} {x : TargetConfig} {st : Stmt}
    (hx : x.amount ≠ none) (hp : ∀ p, x.percent = some p → 0 < p)
    (h : (Stmt.union [relationSel k joins outer [], targetSel k x]).simplify = .ok st)
    (E : Engine) (D : Env) : (st.eval E D).Nodup := by
  unfold Stmt.simplify at h
  revert h
  generalize (Stmt.union [relationSel k joins outer [], targetSel k x]).size = n
  intro h
  cases n with
  | zero => simp [simpStmt] at h
  | succ n =>
    simp only [simpStmt] at h
    cases h1 : [relationSel k joins outer [], targetSel k x].mapM (simpSel n) with
    | error e => rw [h1] at h; cases h
    | ok all =>
      rw [h1] at h
      obtain ⟨s1, s2, h2, h3, rfl⟩ := mapM_two h1
      have hs1 : s1.where_ = none := by
        cases n with
        | zero => simp [simpSel] at h2
        | succ n =>
          simp only [simpSel, relationSel, Sel.where_mk] at h2
          cases n with
          | zero => simp [simpW] at h2
          | succ n =>
            have : simpW (n + 1) (.and []) = .ok .true_ := rfl
            rw [this] at h2
            cases h2
            rfl
      have hs2f : (s2.where_.getD .true_).isFalse = false := by
        by_contra hcon
        obtain ⟨ha, p, hp1, hp2⟩ := targetSel_false h3 (by simpa using hcon)
        exact absurd hp2 (not_le.2 (hp p hp1))
      have hs2 := (simp_correct n).2.1 _ _ h3 targetSel_mergeSafe
      have hl : s2.limit = x.amount := hs2.limit
      have hfilt : [s1, s2].filter (fun s => !(s.where_.getD .true_).isFalse) = [s1, s2] := by
        have : Where.true_.isFalse = false := rfl
        simp [List.filter_cons, hs1, hs2f, this]
      have hm : canMerge s1 [s1, s2] = false := by
        cases hn : x.amount with
        | none => exact absurd hn hx
        | some m => simp [canMerge, hl, hn]
      simp only [hfilt, hm, Bool.false_eq_true, if_false] at h
      cases h
      rw [Stmt.eval]
      exact List.nodup_dedup _

/-- The options of a target choose no row more often than it occurs. -/
theorem targetRows_subperm (E : Engine) (src : Key → List Row) (k : Key) (x : TargetConfig) :
    (targetRows E src k x).Subperm (src k) := by
  classical
  have h1 : (((src k).zipIdx.filter fun p => decide (x.all = true ∨ TargetAccepts E k x p.2 p.1)).map Prod.fst).Sublist
      (src k) := by
    have := (List.filter_sublist (l := (src k).zipIdx)
      (p := fun p => decide (x.all = true ∨ TargetAccepts E k x p.2 p.1))).map Prod.fst
    rwa [List.zipIdx_map_fst] at this
  unfold targetRows
  cases x.amount with
  | none => exact h1.subperm
  | some n =>
    exact ((List.take_sublist _ _).subperm.trans (E.shuffle_perm _ _ _).subperm).trans h1.subperm

namespace PlanShape
variable {cfg : PlannerConfig} {ign pass : List Key} {T T' : Tables} {found ord : List Key} {p : Plan}
  (hT : TablesOK T) (hp : PlanShape cfg ign pass T T' found ord p)
  {E : Engine} {Ts : Tables} {src S : Key → List Row} (hS : IsSample E Ts src p S) (hpk : PkOK Ts src)
include hT hp hS hpk

theorem sample_subperm {k : Key} (hk : k ∈ found ++ ord) : (S k).Subperm (src k) := by
  classical
  rcases List.mem_append.1 hk with hf | ho
  · rw [hp.rows_pass hT hS hf]
  · obtain ⟨pre, post, he⟩ := List.append_of_mem ho
    rcases hp.rows_cases hT hpk hS he with ⟨-, -, h1⟩ | ⟨-, -, -, -, h1⟩ | ⟨-, x, -, -, h1⟩ | ⟨-, x, hx, hall, -, -, h1⟩
    · rw [h1]; exact List.filter_sublist.subperm
    · rw [h1]; exact List.filter_sublist.subperm
    · rw [h1]; exact targetRows_subperm E src k x
    · rcases h1 with ⟨-, -, h1⟩ | ⟨h2, -⟩
      · rw [h1]
      · obtain ⟨t, q, ht, hq, hmem⟩ := hp.ordq pre k post he
        have hkey := hp.key_eq' hT ht
        have hSk := hS k q (hp.planned_of_mem hT hk hmem)
        obtain ⟨st, rfl, hsh⟩ := planTable_shape hq
        rw [TableQuery.eval] at hSk
        rw [hx] at hsh
        cases hsh with
        | target hF hR hw hs =>
          rw [simplify_single targetSel_mergeSafe hs, targetSel_eval, hkey] at hSk
          rw [hSk]
          exact targetRows_subperm E src k x
        | @both _ joins st hF hR ha hC hj hs =>
          by_cases hp0 : ∃ pc, x.percent = some pc ∧ pc ≤ 0
          · obtain ⟨pc, g1, g2⟩ := hp0
            rw [simplify_drop (relationSel_mergeSafe (by simp)) ha g1 g2 hs,
              relationSel_eval (P := fun _ => True) hj hR (hp.revsTo_cols hT ht) E _ t.key true
                (by intro i r; simp [Where.eval, Where.evals, all3]) (pk_nodup (S := S) hpk t.key), hkey,
              sampleEnv_false] at hSk
            rw [hSk]
            exact List.filter_sublist.subperm
          · have hp1 : ∀ pc, x.percent = some pc → 0 < pc := fun pc g1 => by
              by_contra g2
              exact hp0 ⟨pc, g1, not_lt.1 g2⟩
            have hn : x.amount ≠ none := by
              rcases h2 with h2 | h2
              · exact h2
              · exact absurd h2 hp0
            have hnd := simplify_pair_nodup hn hp1 hs E (sampleEnv Ts src S)
            rw [← hSk] at hnd
            exact List.subperm_of_subset hnd fun r hr => hp.sample_subset hT hS hpk hk hr

end PlanShape
end Subsetter
