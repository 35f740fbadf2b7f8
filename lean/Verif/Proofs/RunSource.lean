import Verif.Model.Run
import Verif.Spec.Run
import Verif.Proofs.Compact
import Verif.Proofs.DestTop

/- What a run loads from the source, and what follows for the plan if its tables could be ordered. -/
namespace Subsetter
open Spec Props

variable {σ : Type} {C : RunConfig} {D : Setting σ} {p : Plan}

/-! ### Reverse graphs -/

theorem addEdges_nodes {α : Type} [DecidableEq α] {u : α} : ∀ {es : List α} {RG RG' : Graph α},
    addEdges u es RG = .ok RG' → (∀ v ∈ es, v ∈ RG.map Prod.fst) ∧ ∀ v, v ∈ RG'.map Prod.fst ↔ v ∈ RG.map Prod.fst
  | [], RG, RG', h => by cases h; simp
  | v :: es, RG, RG', h => by
    unfold addEdges addEdge at h
    cases h1 : dget RG v with
    | none => rw [h1] at h; cases h
    | some s =>
      rw [h1] at h; dsimp only at h
      have hv : v ∈ RG.map Prod.fst := dget_isSome_iff.1 (by rw [h1]; rfl)
      obtain ⟨h2, h3⟩ := addEdges_nodes h
      have hk : ∀ w, w ∈ (dset RG v (setAdd s u)).map Prod.fst ↔ w ∈ RG.map Prod.fst := by
        intro w
        rw [mem_dset_keys]
        constructor
        · rintro (h | h)
          · exact h ▸ hv
          · exact h
        · exact .inr
      refine ⟨fun w hw => ?_, fun w => by rw [h3, hk]⟩
      rcases List.mem_cons.1 hw with rfl | hw
      · exact hv
      · exact (hk w).1 (h2 w hw)

theorem revLoop_nodes {α : Type} [DecidableEq α] : ∀ {G RG RG' : Graph α}, revLoop G RG = .ok RG' →
    ∀ u es, (u, es) ∈ G → ∀ v ∈ es, v ∈ RG.map Prod.fst
  | [], RG, RG', h, u, es, hm, _, _ => by cases hm
  | (u0, es0) :: G, RG, RG', h, u, es, hm, v, hv => by
    unfold revLoop at h
    cases h1 : addEdges u0 es0 RG with
    | error e => rw [h1] at h; cases h
    | ok RG1 =>
      rw [h1] at h; dsimp only at h
      obtain ⟨h2, h3⟩ := addEdges_nodes h1
      rcases List.mem_cons.1 hm with e | hm
      · cases e; exact h2 v hv
      · exact (h3 v).1 (revLoop_nodes h u es hm v hv)

theorem toposort_nodes {α : Type} [DecidableEq α] {G : Graph α} {l : List α} (h : toposort G = .ok l) :
    ∀ u es, (u, es) ∈ G → ∀ v ∈ es, v ∈ G.map Prod.fst := by
  unfold toposort at h
  cases h1 : reverseGraph G false with
  | error e => rw [h1] at h; cases h
  | ok RG =>
    intro u es hm v hv
    have := revLoop_nodes h1 u es hm v hv
    simpa using this

/-! ### A plan whose tables could be ordered makes sense -/

theorem depLoop_known {T : Tables} {compact : Dict Key (List Str)} : ∀ {qs : List (Str × TableQuery)}
    {g g' : Graph Key} {m m' : Dict Key Nat}, depLoop T compact qs g m = .ok (g', m') →
    ∀ nq ∈ qs, (∃ k, parseTableName nq.1 = some k ∧ (dget T k).isSome) ∧ ∀ x ∈ nq.2.refs, (dget T x.key).isSome
  | [], g, g', m, m', h, nq, hnq => by cases hnq
  | (n, q) :: qs, g, g', m, m', h, nq, hnq => by
    unfold depLoop at h
    split at h
    · rename_i hr
      cases h1 : parseTableName n with
      | none => rw [h1] at h; cases h
      | some k =>
        rw [h1] at h; dsimp only at h
        cases h2 : dget T k with
        | none => rw [h2] at h; cases h
        | some t =>
          rw [h2] at h; dsimp only at h
          rcases List.mem_cons.1 hnq with rfl | hnq
          · exact ⟨⟨k, h1, by rw [h2]; rfl⟩, fun x hx => List.all_eq_true.1 hr x hx⟩
          · exact depLoop_known h nq hnq
    · cases h

theorem planOK_of_order {T : Tables} {compact : Dict Key (List Str)} {mat : List (Key × Nat)}
    (hnd : (p.queries.map Prod.fst).Nodup) (h : materializationOrder T compact p = .ok mat) :
    PlanOK T p ∧ Acyclic p := by
  have hok : PlanOK T p := by
    unfold materializationOrder at h
    cases h1 : depLoop T compact p.queries [] [] with
    | error e => rw [h1] at h; cases h
    | ok gm =>
      obtain ⟨g, m⟩ := gm
      rw [h1] at h; dsimp only at h
      have hkn := depLoop_known h1
      obtain ⟨g', m', h2, -, -, h3, h4, -⟩ := depLoop_spec T compact p.queries [] []
        (fun nq hq => (hkn nq hq).1) (fun nq hq => (hkn nq hq).2) hnd (by simp) (by simp) (by simp)
      rw [h1] at h2; cases h2
      refine ⟨hnd, fun n q hq => (hkn (n, q) hq).1, ?_, ?_⟩
      · rintro k q ⟨n, hn, -⟩ x hx
        exact (hkn (n, q) hn).2 x hx
      · rintro k d ⟨q, ⟨n, hn, hk⟩, hu⟩
        have hE : Edge g k d := (h4 k d).2 (.inr ⟨(n, q), hn, hk, hu⟩)
        cases h5 : toposort g with
        | error e => rw [h5] at h; cases e <;> cases h
        | ok order =>
          obtain ⟨es, g1, g2⟩ := hE
          have := toposort_nodes h5 k es g1 d g2
          rcases (h3 d).1 this with h | ⟨nq, h6, h7⟩
          · simp at h
          · exact ⟨nq.2, nq.1, h6, h7⟩
  refine ⟨hok, ?_⟩
  rcases materializationOrder_spec hok compact with ⟨_, -, h2, -⟩ | ⟨h1, -⟩
  · exact h2
  · rw [h] at h1; cases h1

/-! ### Loading the source -/

theorem inferStep_sameBut (i : InferMode) (T : Tables) : SameBut T (inferStep i T) := by
  cases i
  · exact .refl T
  · exact inferMissing_sameBut false T
  · exact inferMissing_sameBut true T

theorem startRun_ok {r : Started} (h : startRun C D p = .ok r) :
    ∃ l, fromEngine D.fnmatch D.srcDb (dkeys p.queries) false false = some (some l) ∧ r.raw = l.tables ∧
      r.tables = inferStep C.infer l.tables ∧ validateFilters D.world r.tables C.filters = .ok () ∧
      multipliedColumns r.tables C.mult p.passthrough (dkeys p.queries) = .ok r.mult ∧
      destInit D.fnmatch D.dstDb C.remap (dkeys p.queries) = .ok r.dest := by
  unfold startRun at h
  split at h
  · cases h
  · cases h
  · rename_i l hl
    dsimp only at h
    split at h
    · cases h
    · rename_i hv
      split at h
      · cases h
      · rename_i m hm
        split at h
        · cases h
        · rename_i x hx
          cases h
          exact ⟨l, hl, rfl, rfl, hv, hm, hx⟩

/-- Tables loaded from the source. -/
structure LoadedFacts (D : Setting σ) (r : Started) : Prop where
  raw : TablesOK r.raw
  same : SameBut r.raw r.tables
  sub : ∀ k t, dget r.raw k = some t → (k.1 ++ '.' :: k.2, t) ∈ D.srcDb ∧ (t.schema, t.name) = k

theorem startRun_facts (hdb : DbOK D.srcDb) {r : Started} (h : startRun C D p = .ok r) : LoadedFacts D r := by
  obtain ⟨l, h1, h2, h3, -⟩ := startRun_ok h
  have hT := (loaded_ok hdb h1).1
  refine ⟨h2 ▸ hT, by rw [h2, h3]; exact inferStep_sameBut _ _, fun k t hk => ?_⟩
  rw [h2] at hk
  rcases fromEngine_spec (fnmatch := D.fnmatch) hdb (dkeys p.queries) false false with
    ⟨l', g1, -, -, g4, -⟩ | ⟨g1, -⟩
  · rw [h1] at g1; cases g1
    obtain ⟨⟨n, hn⟩, rfl⟩ := g4 k t (dget_some_mem hk)
    exact ⟨by rw [← hdb.name_eq n t hn]; exact hn, rfl⟩
  · rw [h1] at g1; cases g1

theorem dbTables_get {db : Dict Str TableMeta} (hdb : DbOK db) {k : Key} {t : TableMeta}
    (h : (k.1 ++ '.' :: k.2, t) ∈ db) (hk : (t.schema, t.name) = k) : dget (dbTables db) k = some t := by
  refine dget_of_mem ?_ (List.mem_map.2 ⟨_, h, by rw [← hk]⟩)
  unfold dbTables
  rw [List.map_map]
  refine List.Nodup.map_on ?_ (List.Nodup.of_map _ hdb.names_nodup)
  rintro ⟨n, t⟩ hn ⟨n', t'⟩ hn' e
  simp only [Function.comp, Prod.mk.injEq] at e
  have e1 := hdb.name_eq n t hn
  have e2 := hdb.name_eq n' t' hn'
  have e3 : n = n' := by rw [e1, e2, e.1, e.2]
  subst e3
  have g1 := dget_of_mem hdb.names_nodup hn
  rw [dget_of_mem hdb.names_nodup hn'] at g1
  cases g1
  rfl

/-- Primary keys and columns of loaded tables are those of the source. -/
theorem LoadedFacts.get (hdb : DbOK D.srcDb) {r : Started} (hr : LoadedFacts D r) {k : Key} {t : TableMeta}
    (h : dget r.tables k = some t) : ∃ t0, (k.1 ++ '.' :: k.2, t0) ∈ D.srcDb ∧ (t0.schema, t0.name) = k ∧
      dget r.raw k = some t0 ∧ dget (dbTables D.srcDb) k = some t0 ∧ t = { t0 with foreignKeys := t.foreignKeys } := by
  obtain ⟨t0, h1, h2⟩ := hr.same.same k t h
  obtain ⟨h3, h4⟩ := hr.sub k t0 h1
  exact ⟨t0, h3, h4, h1, dbTables_get hdb h3 h4, h2⟩

/-- The sample of a plan does not depend on foreign keys and on tables the plan does not use. -/
theorem LoadedFacts.isSample (hdb : DbOK D.srcDb) {r : Started} (hr : LoadedFacts D r) (hp : PlanOK r.tables p)
    {E : Engine} {src S : Key → List Row} :
    IsSample E r.tables src p S ↔ IsSample E (dbTables D.srcDb) src p S := by
  have key : ∀ k q, Planned p k q → q.eval E (sampleEnv r.tables src S) = q.eval E (sampleEnv (dbTables D.srcDb) src S) := by
    intro k q hq
    refine q.eval_congr_refs E fun x hx => ⟨rfl, ?_⟩
    obtain ⟨t, ht⟩ := Option.isSome_iff_exists.1 (hp.refs_known k q hq x hx)
    obtain ⟨t0, -, -, -, h1, h2⟩ := hr.get hdb ht
    unfold sampleEnv
    dsimp only
    rw [show ((x.schema, x.name) : Key) = x.key from rfl, ht, h1, h2]
    rfl
  constructor
  · intro h k q hq; rw [h k q hq, key k q hq]
  · intro h k q hq; rw [h k q hq, key k q hq]

end Subsetter
