import Verif.Spec.OtherDestination
import Verif.Proofs.SameOutput

/- Lemmas for C97. -/
namespace Subsetter
open Spec Props

variable {σ : Type} {C : RunConfig} {D : Setting σ} {p : Plan} {S : DbState} {s : σ}

/-- What a run derives from the source. -/
structure Derivation (C : RunConfig) (D : Setting σ) (p : Plan) (l : Loaded) (T : Tables) (mult : Dict Str (List Str))
    (compact : Dict Key (List Str)) (mat : List (Key × Nat)) (temps : Temps) : Prop where
  load : fromEngine D.fnmatch D.srcDb (dkeys p.queries) false false = some (some l)
  infer : T = inferStep C.infer l.tables
  mult : multipliedColumns T C.mult p.passthrough (dkeys p.queries) = .ok mult
  compacted : getCompactColumns T p.passthrough C.compact = .ok compact
  ordered : materializationOrder T compact p = .ok mat
  materialized : materialize D.engine T D.src D.reopen p mat [] = .ok temps

theorem Derivation.unique {l l' : Loaded} {T T' : Tables} {mult mult' : Dict Str (List Str)}
    {compact compact' : Dict Key (List Str)} {mat mat' : List (Key × Nat)} {temps temps' : Temps} {C' : RunConfig}
    {D' : Setting σ} (hs : SameSource C C' D D') (h : Derivation C D p l T mult compact mat temps)
    (h' : Derivation C' D' p l' T' mult' compact' mat' temps') :
    T' = T ∧ mult' = mult ∧ compact' = compact ∧ temps' = temps := by
  obtain ⟨a1, a2, a3, a4, a5, a6⟩ := h
  obtain ⟨b1, b2, b3, b4, b5, b6⟩ := h'
  rw [hs.fnmatch, hs.srcDb, a1] at b1; cases b1
  rw [hs.infer, ← a2] at b2
  subst b2
  rw [hs.mult, a3] at b3; cases b3
  rw [hs.compact, a4] at b4; cases b4
  rw [a5] at b5; cases b5
  rw [hs.engine, hs.src, hs.reopen, a6] at b6; cases b6
  exact ⟨rfl, rfl, rfl, rfl⟩

/-- What a successful run adds to the tables. -/
theorem run_adds (hok : RunOK C D p) (h : (sample C D p S s).err = none) :
    ∃ l T mult compact mat temps B, ∃ offs : Dict Key (Dict Str Int), Derivation C D p l T mult compact mat temps ∧
      Begins C D p S B ∧ (C.merge = false → offs = []) ∧
      ∀ n k kd t td, Copied C D p (sample C D p S s).schema n k kd t td →
        strategyFor C p n = .error ∨ td.primaryKey = [] →
        ∃ q rows ch outs stored s₁, dget p.queries n = some q ∧
          copyRows D.engine T D.le C.compact.startKey compact D.src D.reopen temps k q = .ok rows ∧
          constructFilter D.world t.columns (filtersOf C n) = .ok ch ∧ t.columns.Nodup ∧
          outs.length = rows.length * timesWritten C p n ∧
          FirstCopies (IsCopy D.world ch (writtenColumns ch (target D kd td)) ((dget mult n).getD []) (timesWritten C p n)
            ((dget offs kd).getD [])) (timesWritten C p n) (rows.map fun r => t.columns.map r.get) s₁ outs ∧
          List.Forall₂ (StoredAs (target D kd td) (writtenColumns ch (target D kd td))) outs stored ∧
          (sample C D p S s).final kd = B kd ++ stored := by
  rcases sample_cases C D p S s with ⟨-, -, ⟨e, he⟩, -⟩ | ⟨-, -, -, -, -, -, -, -, -, -, -, -, e, he, -⟩ |
    ⟨r, db, x, order, states, offs, compact, mat, temps, hst, h1, h2⟩
  · rw [h] at he; cases he
  · rw [h] at he; cases he
  obtain ⟨l, e1, -, e2, -, e3, -⟩ := startRun_ok hst.start
  rw [h] at h2
  obtain ⟨B, rest, Smp0, ids, hB, hcp, hinj, -, -⟩ := hst.copying hok
  rw [hB] at h2
  obtain ⟨X, rest', done, todo, g1, g2, g3⟩ := copyAll_content hcp.nodup hinj h2
  have e : (sample C D p S s).final = X := by unfold RunResult.final; rw [g1]; rfl
  have e' := g3.1 rfl
  subst e'
  have e'' := g2.names_eq
  rw [List.append_nil] at e''
  subst e''
  obtain ⟨Smp, hsmp, hS, htemps⟩ := hst.sample hok
  refine ⟨l, r.tables, r.mult, compact, mat, temps, B, offs, ⟨e1, e2, e3, hst.compacted, hst.ordered, hst.materialized⟩, hcp.begins,
    fun hm => ?_, fun n k kd t td hc hadd => ?_⟩
  · have := hst.prepare
    unfold prepareStep at this
    rw [hm] at this
    cases this
    rfl
  rw [h1] at hc
  rw [e]
  have hn : n ∈ order := (hcp.all n).2 ⟨k, kd, t, td, hc⟩
  rcases g2.filled n hn with f1 | ⟨j, f1, o, s1, s2, bs, f2, f3, -, f4⟩
  · exact absurd f1 (hst.read_some hok hn)
  obtain ⟨j1, j2, j3, j4, j5, j6, j7, j8, rows0, j9, -, -⟩ := hst.job hok hS htemps hc f1
  obtain ⟨ka, q, ta, tda, rows, a1, a2, a3, a4, a5, -, -, -, -, -, -, -, a13⟩ := readTable_some f1
  rw [hc.name] at a1; cases a1
  have hcols : ta.columns = t.columns := by
    obtain ⟨t0, f1, f2, -, -, f5⟩ := (startRun_facts hok.src hst.start).get hok.src a4
    have ht0 : t0 = t := by
      have e := dget_of_mem hok.src.names_nodup hc.source
      rw [← parse_str hc.name, show dget D.srcDb (Key.str k) = some t0 from dget_of_mem hok.src.names_nodup f1] at e
      cases e; rfl
    rw [f5, ht0]
  rw [hcols] at a13
  have hlen : ∀ q ∈ j.rows, q.length = t.columns.length := by
    intro q hq
    rw [a13] at hq
    obtain ⟨q', -, rfl⟩ := List.mem_map.1 hq
    simp
  obtain ⟨m1, m2, m3, -⟩ := outPlan_ok f2
  rw [j2] at m1 m2
  rw [j6] at m3
  have hjok : JobOK D.world j := ⟨t.columns, _, j3, j8, hlen⟩
  have hfit := run_fitting hjok f2 (List.prefix_refl _) f3 (written := [bs.flatten]) (by simp) bs.flatten (by simp)
  rw [j2] at hfit
  have w1 := f3.firstCopies (List.prefix_refl _)
  rw [j1, j4, j2] at f4
  obtain ⟨stored, z1, z2⟩ := c61_added f4 hfit (hadd.imp id fun e => by unfold target; split <;> exact e)
  rw [m2] at z2
  refine ⟨q, rows, j.input.chain, bs.flatten, stored, s1, a2, a3, j3, j8, ?_, ?_, z2, z1⟩
  · rw [f3.length, copies_length, m3, a13, List.length_map]
  · rw [m3, a13] at w1
    refine ⟨w1.1, w1.2.imp fun ss hss => ⟨hss.1, fun a i q o' hq hi ho' => ?_⟩⟩
    obtain ⟨g1, g2⟩ := hss.2 a i q o' hq hi ho'
    have := plan_isCopy j3 j8 f2 (hlen q (by rw [a13]; exact g1)) g2
    rwa [j2, j5, j6, j7] at this

end Subsetter
