import Verif.Proofs.SqlCopy
import Verif.Proofs.SqlMaterialize
import Verif.Proofs.RunSource

/- The run with its statements built is the run of the model. -/
namespace Subsetter
open Spec

theorem named_nonempty {T : Tables} {pass : List Str} : ∀ {cs : List (Str × List Str)} {cc cc' : Dict Key (List Str)},
    namedColumns T pass cs cc = .ok cc' → (∀ k, dget cc k ≠ some []) → ∀ k, dget cc' k ≠ some []
  | [], cc, cc', h, hn => by cases h; exact hn
  | (n, c) :: cs, cc, cc', h, hn => by
    unfold namedColumns at h
    split at h
    · exact named_nonempty h hn
    · rename_i hc
      split at h
      · cases h
      · split at h
        · exact named_nonempty h hn
        · split at h
          · exact named_nonempty h hn
          · rename_i k _ _ _
            refine named_nonempty h fun k' => ?_
            rw [dget_dset]
            split
            · intro e
              cases c with
              | nil => exact hc rfl
              | cons x xs =>
                have : x ∈ toSet (x :: xs) := mem_toSet.2 List.mem_cons_self
                rw [Option.some.inj e] at this
                exact absurd this List.not_mem_nil
            · exact hn k'

theorem keys_nonempty {cfg : CompactConfig} {pass : List Str} : ∀ {T : Tables} {cc : Dict Key (List Str)},
    (∀ k, dget cc k ≠ some []) → ∀ k, dget (T.foldl (keyColumn cfg pass) cc) k ≠ some []
  | [], cc, h => h
  | e :: T, cc, h => by
    rw [List.foldl_cons]
    refine keys_nonempty (T := T) fun k => ?_
    unfold keyColumn
    split
    · rename_i c _
      split
      · exact h k
      · split
        · exact h k
        · split
          · rw [dget_dset]
            split
            · intro e'
              have : c ∈ setAdd ((dget cc e.1).getD []) c := mem_setAdd.2 (.inr rfl)
              rw [Option.some.inj e'] at this
              exact absurd this List.not_mem_nil
            · exact h k
          · exact h k
    · exact h k

/-- No table is listed for compaction without a column. -/
theorem compact_nonempty {T : Tables} {pass : List Str} {cfg : CompactConfig} {compact : Dict Key (List Str)}
    (h : getCompactColumns T pass cfg = .ok compact) (k : Key) : dget compact k ≠ some [] := by
  unfold getCompactColumns at h
  split at h
  · cases h
  · rename_i cc hcc
    have hn := named_nonempty hcc (fun k => by simp)
    split at h
    · cases h; exact hn k
    · dsimp only at h
      split at h
      · cases h
      · cases h; exact keys_nonempty hn k

theorem copyAll_congr {σ : Type} {W : Outside σ Val} {dialect : Dialect} {read read' : Str → Except RunErr (Option TableJob)}
    (h : ∀ n, read n = read' n) : copyAll W dialect read = copyAll W dialect read' := by
  rw [show read = read' from funext h]

theorem run_same {σ : Type} {C : RunConfig} {D : Setting σ} {p : Plan} (h : ∀ r, startRun C D p = .ok r → RunPlain C D p r)
    (S : DbState) (s : σ) : sampleSql C D p S s = sample C D p S s := by
  unfold sampleSql sample
  cases hs : startRun C D p with
  | error e => rfl
  | ok r =>
    obtain ⟨hnd, hpl, hS, hu⟩ := h r hs
    dsimp only
    cases hc : createStep C D r with
    | error e => rfl
    | ok y =>
      obtain ⟨db, x⟩ := y
      dsimp only
      cases ho : insertOrder x with
      | error e => rfl
      | ok order =>
        dsimp only
        cases htr : truncateStep C x S with
        | error e => rfl
        | ok states =>
          dsimp only
          cases hpr : prepareStep C r.tables x ((states.reverse ++ [S]).head?.getD S) p with
          | error e => rfl
          | ok offs =>
            dsimp only
            cases hcc : getCompactColumns r.tables p.passthrough C.compact with
            | error e => rfl
            | ok compact =>
              dsimp only
              rw [order_same fun n q hq => by
                obtain ⟨k, -, st, h1, h2, -⟩ := hpl n q hq
                exact ⟨st, h1, h2⟩]
              cases h1 : materializationOrder r.tables compact p with
              | error e => rfl
              | ok mat =>
                obtain ⟨hok, ha⟩ := planOK_of_order hnd h1
                have hp : ∀ k q, Planned p k q → QueryPlain r.tables k q := by
                  rintro k q ⟨n, hq, hk⟩
                  obtain ⟨k', h2, h3⟩ := hpl n q hq
                  rw [hk] at h2
                  cases h2
                  exact h3
                rcases materializationOrder_spec hok compact with ⟨mat', h1', -, h3, h4, -⟩ | ⟨h1', -⟩
                swap
                · rw [h1] at h1'; cases h1'
                rw [h1] at h1'
                cases h1'
                dsimp only
                obtain ⟨mat', temps, g1, g2, g3, -, -, g4, -⟩ := materialized hok ha D.engine compact D.src D.reopen
                rw [h1] at g1
                cases g1
                have hm := materialize_same (E := D.engine) (le := D.le) (start := C.compact.startKey) (compact := compact)
                  (reopen := D.reopen) hS (p := p) mat [] []
                  (fun k hk q hq => by
                    obtain ⟨⟨q', hq'⟩, -⟩ := (h4 k).1 hk
                    have := Planned.get hok hq'
                    rw [hq] at this
                    cases this
                    exact hp k q hq') h3 (fun _ _ _ => rfl) (tempsRel_nil)
                rw [g2] at hm ⊢
                cases hm' : materializeSql D.engine r.tables D.le C.compact.startKey compact D.src D.reopen p mat [] with
                | error e => rw [hm'] at hm; cases hm
                | ok temps' =>
                  rw [hm'] at hm
                  dsimp only
                  rw [copyAll_congr (read' := readTable C D r x offs compact p temps) fun n => ?_]
                  unfold readTableSql readTable
                  cases hn : parseTableName n with
                  | none => rfl
                  | some k =>
                    dsimp only
                    cases hq : dget p.queries n with
                    | none => rfl
                    | some q =>
                      dsimp only
                      have hq' := dget_some_mem hq
                      obtain ⟨k', e1, e2⟩ := hok.known n q hq'
                      rw [hn] at e1
                      cases e1
                      obtain ⟨t, ht⟩ := Option.isSome_iff_exists.1 e2
                      rw [copy_same hS hm (compact_nonempty hcc) (hp k q ⟨n, hq', hn⟩) ht fun _ hck c d dc hpt => by
                        cases hd : dget temps (d, 0) with
                        | none => exact List.Pairwise.nil
                        | some rows =>
                          obtain ⟨q', hq'', -⟩ := g3.rows d rows hd
                          have := hu compact hcc hok k q ⟨n, hq', hn⟩ hck c d dc hpt q' hq'' _ g4
                          unfold sampleOf at this
                          rw [hd] at this
                          exact this]
                      rfl

end Subsetter
