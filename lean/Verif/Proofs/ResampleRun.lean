import Verif.Proofs.Resample
import Verif.Proofs.Compact
import Verif.Proofs.RunSource

/- Runs on sources with the same sample. -/
namespace Subsetter
open Spec

section
variable {T : Tables} {p : Plan} (hp : PlanOK T p) {E E' : Engine} {src src' Smp : Key → List Row}
  (hS : IsSample E T src p Smp) (hS' : IsSample E' T src' p Smp)
include hS hS'

/-- A query that can be built gives the same rows. -/
theorem runQuery_sameSample {reopen : Bool} {temps : Temps} (ht : ∀ k rows, dget temps (k, 0) = some rows → rows = Smp k)
    {k : Key} {q : TableQuery} (hq : Planned p k q) :
    runQuery E' T src' reopen temps q = runQuery E T src reopen temps q ∧
      ∀ rows, runQuery E T src reopen temps q = .ok rows → rows = Smp k := by
  unfold runQuery
  cases hb : buildContext T temps reopen [] q.refs with
  | none => exact ⟨rfl, fun _ h => by cases h⟩
  | some l =>
    have hev : ∀ (F : Engine) (sr : Key → List Row), q.eval F (execEnv T sr temps) = q.eval F (sampleEnv T sr Smp) := by
      intro F sr
      refine q.eval_congr_refs F fun x hx => ⟨?_, rfl⟩
      simp only [sampleEnv, execEnv]
      by_cases hs : x.sampled = true
      · rw [if_pos hs, if_pos hs]
        obtain ⟨rows, hr⟩ := Option.isSome_iff_exists.1 (buildContext_zero hb x hx hs (.inr rfl))
        rw [hr]
        exact ht _ _ hr
      · rw [if_neg hs, if_neg hs]
        rfl
    dsimp only
    rw [hev, hev, ← hS k q hq, ← hS' k q hq]
    exact ⟨rfl, fun rows h => (Except.ok.inj h).symm⟩

include hp in
/-- The temporary tables are the same. -/
theorem materialize_sameSample {reopen : Bool} : ∀ (todo : List (Key × Nat)) (temps : Temps),
    (∀ k rows, dget temps (k, 0) = some rows → rows = Smp k) → (∀ k ∈ todo.map Prod.fst, ∃ q, Planned p k q) →
    materialize E' T src' reopen p todo temps = materialize E T src reopen p todo temps ∧
      ∀ temps', materialize E T src reopen p todo temps = .ok temps' → ∀ k rows, dget temps' (k, 0) = some rows → rows = Smp k
  | [], temps, ht, _ => ⟨rfl, fun temps' h => by cases h; exact ht⟩
  | (k, n) :: todo, temps, ht, hpl => by
    obtain ⟨q, hq⟩ := hpl k (by simp)
    unfold materialize
    cases h1 : dget T k with
    | none => exact ⟨rfl, fun _ h => by cases h⟩
    | some t =>
      dsimp only
      rw [Planned.get hp hq]
      dsimp only
      obtain ⟨h2, h3⟩ := runQuery_sameSample hS hS' (reopen := reopen) ht hq
      rw [h2]
      cases h4 : runQuery E T src reopen temps q with
      | error e => exact ⟨rfl, fun _ h => by cases h⟩
      | ok rows =>
        dsimp only
        have h5 := h3 rows h4
        refine materialize_sameSample todo _ ?_ fun k hk => hpl k (by simp [hk])
        have h6 : ∀ k' rows', dget (dset temps (k, 0) rows) (k', 0) = some rows' → rows' = Smp k' := by
          intro k' rows' h
          rw [dget_dset] at h
          split at h
          · rename_i e
            cases h
            rw [h5, (Prod.mk.inj e).1]
          · exact ht _ _ h
        split
        · exact h6
        · intro k' rows' h
          rw [addCopies_get] at h
          split at h
          · rename_i e
            cases h
            rw [h5, ← e.1]
          · exact h6 _ _ h

/-- The rows copied are the same. -/
theorem copyRows_sameSample {le : List Val → List Val → Bool} {start : Int} {compact : Dict Key (List Str)} {reopen : Bool}
    {temps : Temps} (ht : ∀ k rows, dget temps (k, 0) = some rows → rows = Smp k) {k : Key} {q : TableQuery} (hq : Planned p k q) :
    copyRows E' T le start compact src' reopen temps k q = copyRows E T le start compact src reopen temps k q := by
  have : sampleRows E' T src' reopen temps k q = sampleRows E T src reopen temps k q := by
    unfold sampleRows
    rw [(runQuery_sameSample hS hS' (reopen := reopen) ht hq).1]
  unfold copyRows
  rw [this]
end

variable {σ : Type} {C : RunConfig} {D : Setting σ} {p : Plan}

theorem LoadedFacts.planOK (hdb : DbOK D.srcDb) {r : Started} (hr : LoadedFacts D r) (hp : PlanOK r.tables p) :
    PlanOK (dbTables D.srcDb) p := by
  have hk : ∀ k, (dget r.tables k).isSome → (dget (dbTables D.srcDb) k).isSome := by
    intro k h
    obtain ⟨t, ht⟩ := Option.isSome_iff_exists.1 h
    obtain ⟨t0, -, -, -, h1, -⟩ := hr.get hdb ht
    rw [h1]; rfl
  refine ⟨hp.names_nodup, fun n q h => ?_, fun k q hq x hx => hk _ (hp.refs_known k q hq x hx), hp.uses_planned⟩
  obtain ⟨k, h1, h2⟩ := hp.known n q h
  exact ⟨k, h1, hk k h2⟩

/-- The sample of a plan matters for planned tables only. -/
theorem isSample_of_eq {E : Engine} {T : Tables} {src S S' : Key → List Row} (hp : PlanOK T p) (h : IsSample E T src p S)
    (he : ∀ k q, Planned p k q → S k = S' k) : IsSample E T src p S' := by
  intro k q hq
  rw [← he k q hq, h k q hq]
  refine q.eval_congr_refs E fun x hx => ⟨?_, rfl⟩
  simp only [sampleEnv]
  by_cases hs : x.sampled = true
  · rw [if_pos hs, if_pos hs]
    obtain ⟨q', hq'⟩ := hp.uses_planned k x.key ⟨q, hq, x, hx, hs, rfl⟩
    exact he _ q' hq'
  · rw [if_neg hs, if_neg hs]

/-- A run depends on the contents of the source by the sample only. -/
theorem sample_sameSample (hsrc : DbOK D.srcDb) (hnd : (dkeys p.queries).Nodup) {E' : Engine} {src' : Key → List Row}
    (hS : Acyclic p → PlanOK (dbTables D.srcDb) p → ∃ Smp, IsSample D.engine (dbTables D.srcDb) D.src p Smp ∧
      IsSample E' (dbTables D.srcDb) src' p Smp) (S : DbState) (s : σ) :
    sample C { D with src := src', engine := E' } p S s = sample C D p S s := by
  unfold sample
  have e1 : startRun C { D with src := src', engine := E' } p = startRun C D p := rfl
  rw [e1]
  cases h1 : startRun C D p with
  | error e => rfl
  | ok r =>
    dsimp only
    have e2 : createStep C { D with src := src', engine := E' } r = createStep C D r := rfl
    rw [e2]
    cases h2 : createStep C D r with
    | error e => rfl
    | ok dx =>
      obtain ⟨db, x⟩ := dx
      dsimp only
      cases h3 : insertOrder x with
      | error e => rfl
      | ok order =>
        dsimp only
        cases h4 : truncateStep C x S with
        | error e => rfl
        | ok states =>
          dsimp only
          cases h5 : prepareStep C r.tables x ((states.reverse ++ [S]).head?.getD S) p with
          | error e => rfl
          | ok offs =>
            dsimp only
            cases h6 : getCompactColumns r.tables p.passthrough C.compact with
            | error e => rfl
            | ok compact =>
              dsimp only
              cases h7 : materializationOrder r.tables compact p with
              | error e => rfl
              | ok mat =>
                dsimp only
                obtain ⟨hp, ha⟩ := planOK_of_order hnd h7
                have hf := startRun_facts hsrc h1
                obtain ⟨Smp, hA, hB⟩ := hS ha (hf.planOK hsrc hp)
                have hA := (hf.isSample hsrc hp).2 hA
                have hB := (hf.isSample hsrc hp).2 hB
                have hmat : ∀ k ∈ mat.map Prod.fst, ∃ q, Planned p k q := by
                  obtain ⟨order', temps', g1, -, -, g4, -⟩ := materialized hp ha D.engine compact D.src D.reopen
                  rw [h7] at g1; cases g1
                  exact fun k hk => ((g4 k).1 hk).1
                obtain ⟨g1, g2⟩ := materialize_sameSample hp hA hB (reopen := D.reopen) mat [] (by intro k rows h; cases h) hmat
                rw [g1]
                cases h8 : materialize D.engine r.tables D.src D.reopen p mat [] with
                | error e => rfl
                | ok temps =>
                  dsimp only
                  have g3 : readTable C { D with src := src', engine := E' } r x offs compact p temps =
                      readTable C D r x offs compact p temps := by
                    funext n
                    unfold readTable
                    cases a1 : parseTableName n with
                    | none => rfl
                    | some k =>
                      dsimp only
                      cases a2 : dget p.queries n with
                      | none => rfl
                      | some q =>
                        dsimp only
                        rw [copyRows_sameSample hA hB (g2 temps h8) ⟨n, dget_some_mem a2, a1⟩]
                        rfl
                  rw [g3]

end Subsetter
