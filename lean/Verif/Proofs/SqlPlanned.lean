import Verif.Proofs.SqlPlan
import Verif.Proofs.SqlRun
import Verif.Proofs.RunStarts
import Verif.Props.RunSucceeds
import Verif.Props.Counts
import Verif.Props.Compact

/- Runs of plans of the planner can be built. -/
namespace Subsetter
open Spec Props

variable {σ : Type} {C : RunConfig} {D : Setting σ} {p : Plan} {cfg : PlannerConfig}

/-- The foreign keys the sampler knows are those of the database and, if asked for, those inferred. -/
theorem loaded_fk {r : Started} (h : startRun C D p = .ok r) (hr : LoadedFacts D r) {k : Key} {t : TableMeta}
    (ht : dget r.tables k = some t) {fk : ForeignKey} (hfk : fk ∈ t.foreignKeys) :
    HasFk r.raw k fk (fk.dstSchema, fk.dstTable) ∨ C.infer ≠ .none ∧ ∃ e, Inferred r.raw e k fk (fk.dstSchema, fk.dstTable) := by
  obtain ⟨l, -, h2, h3, -⟩ := startRun_ok h
  have hf : HasFk r.tables k fk (fk.dstSchema, fk.dstTable) := ⟨t, dget_some_mem ht, hfk, rfl⟩
  rw [h3, ← h2] at hf
  cases hi : C.infer with
  | none => rw [hi] at hf; exact .inl hf
  | schema =>
    rw [hi] at hf
    rcases (hasFk_inferMissing hr.raw).1 hf with h | h
    · exact .inl h
    · exact .inr ⟨by simp, _, h⟩
  | all =>
    rw [hi] at hf
    rcases (hasFk_inferMissing hr.raw).1 hf with h | h
    · exact .inl h
    · exact .inr ⟨by simp, _, h⟩

theorem inferred_pk {T : Tables} {e : Bool} {a b : Key} {fk : ForeignKey} (h : Inferred T e a fk b) :
    ∃ t c, (a, t) ∈ T ∧ c ∈ t.columns ∧ fk = ⟨[c], b.1, b.2, [c]⟩ ∧ ∃ tb, (b, tb) ∈ T ∧ tb.primaryKey = [c] := by
  obtain ⟨t, c, h1, h2, h3, -, h4⟩ := h
  obtain ⟨tb, h5, h6, -⟩ := (h4 b).2 rfl
  exact ⟨t, c, h1, h2, h3, tb, h5, h6⟩

theorem source_plain (hdb : DbOK D.srcDb) (hcols : ∀ n t, (n, t) ∈ D.srcDb → t.columns.Nodup) (hs : SourceSound D)
    {r : Started} (h : startRun C D p = .ok r) : SourcePlain r.tables D.src := by
  have hr := startRun_facts hdb h
  refine ⟨fun k t ht => ?_, fun k t ht fk hfk m hm => ?_, fun k t ht => ?_⟩
  · obtain ⟨t0, h1, -, -, -, h2⟩ := hr.get hdb ht
    rw [h2]
    dsimp only
    exact ⟨hcols _ _ h1, hs.name _ _ h1, hs.pkColumns _ _ h1⟩
  · obtain ⟨m0, g1, -, g2, -, g3⟩ := hr.get hdb hm
    rw [g3]
    dsimp only
    rcases loaded_fk h hr ht hfk with ⟨t0, h1, h2, -⟩ | ⟨-, e, h1⟩
    · have h3 := (hr.sub k t0 (dget_of_mem hr.raw.keys_nodup h1)).1
      exact ((hs.fkColumns _ _ h3 fk h2).2 m0 g1)
    · obtain ⟨-, c, -, -, h2, tb, h3, h4⟩ := inferred_pk h1
      have h5 := dget_of_mem hr.raw.keys_nodup h3
      have h6 : tb = m0 := by
        rw [g2] at h5
        exact (Option.some.inj h5).symm
      subst h6
      rw [h2]
      intro c' hc'
      rw [List.mem_singleton.1 hc']
      exact hs.pkColumns _ _ g1 c (by rw [h4]; simp)
  · obtain ⟨t0, h1, h2, -, -, h3⟩ := hr.get hdb ht
    rw [h3]
    dsimp only
    have := hs.rows _ _ h1
    rw [h2] at this
    exact this

/-- The queries of a planned run can be built. -/
theorem planned_plain (hdb : DbOK D.srcDb) (hex : ∀ x ∈ cfg.extraFks, x.Valid) (htg : [] ∉ dkeys cfg.targets)
    (hplan : Subsetter.plan D.fnmatch D.srcDb cfg = .ok p) (hself : ∀ n ∈ dkeys p.queries, D.fnmatch n n = true) (hs : SourceSound D)
    (ht : TargetColumns cfg D.srcDb) {r : Started} (h : startRun C D p = .ok r) : PlanPlain r.tables p := by
  obtain ⟨T, hI, hpl, hsub⟩ := planned_from hdb hex htg hplan
  obtain ⟨ign, pass, T₁, T₂, found, ord, hp⟩ := planning hI hpl
  have hr := startRun_facts hdb h
  have hT1 : ∀ {k m}, (k, m) ∈ T₁ → ∃ m0, (k, m0) ∈ T ∧ m = { m0 with foreignKeys := m.foreignKeys } := by
    intro k m hm
    obtain ⟨m0, g1, g2⟩ := hp.same.same k m (dget_of_mem hp.ok.keys_nodup hm)
    exact ⟨m0, dget_some_mem g1, g2⟩
  have hqT : ∀ k ∈ found ++ ord, k.str ∈ dkeys p.queries := by
    intro k hk
    rw [dkeys, hp.shape.keys]
    exact List.mem_map_of_mem hk
  have hload : ∀ k ∈ found ++ ord, ∀ m, (k, m) ∈ T₁ → ∀ c ∈ m.columns, ∀ b, HasCol r.tables ⟨k.1, k.2, b⟩ c := by
    intro k hk m hm c hc b
    obtain ⟨m0, g1, g2⟩ := hT1 hm
    rw [g2] at hc
    have g3 := hsub k m0 g1
    obtain ⟨l, f1, f2⟩ := source_loaded (D := D) (p := p) hdb fun n hn => ⟨by
      rw [dkeys, hp.shape.keys] at hn
      obtain ⟨k', hk', rfl⟩ := List.mem_map.1 hn
      obtain ⟨m', hm'⟩ := Option.isSome_iff_exists.1 (hp.shape.inT hp.ok hk')
      obtain ⟨m0', e1, -⟩ := hT1 (dget_some_mem hm')
      exact List.mem_map_of_mem (f := Prod.fst) (hsub k' m0' e1), hself n hn⟩
    obtain ⟨l', e1, e2, e3, -⟩ := startRun_ok h
    rw [f1] at e1
    cases e1
    obtain ⟨k', t, e4, e5, e6⟩ := f2 _ (hqT k hk)
    have e7 : k' = k := by
      have := parse_of_nodot (k := k) (hp.ok.no_dot k m hm)
      rw [this] at e4
      exact (Option.some.inj e4).symm
    subst e7
    have e8 : t = m0 := by
      have a1 := dget_of_mem hdb.names_nodup e6
      have a2 := dget_of_mem hdb.names_nodup g3
      rw [show k'.1 ++ '.' :: k'.2 = Key.str k' from rfl, a1] at a2
      exact Option.some.inj a2
    subst e8
    have e9 : k' ∈ r.tables.map Prod.fst := by
      rw [hr.same.keys, e2]
      exact List.mem_map_of_mem (f := Prod.fst) (dget_some_mem e5)
    obtain ⟨t', e10⟩ := Option.isSome_iff_exists.1 (dget_isSome_iff.2 e9)
    refine ⟨t', e10, ?_⟩
    obtain ⟨t0, -, -, a1, -, a2⟩ := hr.get hdb e10
    rw [e2, e5] at a1
    cases a1
    rw [a2]
    exact hc
  have one : ∀ {k m m'}, (k, m) ∈ T₁ → (k, m') ∈ T → m.columns = m'.columns := by
    intro k m m' h1 h2
    obtain ⟨m0, g1, g2⟩ := hT1 h1
    have a1 := dget_of_mem hI.tables.keys_nodup g1
    rw [dget_of_mem hI.tables.keys_nodup h2] at a1
    rw [g2, Option.some.inj a1]
  refine hp.shape.plain hp.ok hload ?_ ?_
  · intro a fk b hfk
    rcases (hp.used a fk b).1 hfk with ⟨⟨t, g1, g2, g3⟩ | ⟨e, -, g1⟩, -⟩ | ⟨x, -, -, -, ⟨t, g1, g2⟩, ⟨t', g3, g4⟩, rfl⟩
    · refine ⟨fun m hm => ?_, fun m hm => ?_⟩
      · rw [one hm g1]
        exact (hs.fkColumns _ _ (hsub a t g1) fk g2).1
      · obtain ⟨m0, f1, f2⟩ := hT1 hm
        rw [f2]
        subst g3
        exact (hs.fkColumns _ _ (hsub a t g1) fk g2).2 m0 (hsub _ _ f1)
    · obtain ⟨t, c, f1, f2, rfl, tb, f3, f4⟩ := inferred_pk g1
      refine ⟨fun m hm c' hc' => ?_, fun m hm c' hc' => ?_⟩
      · rw [one hm f1, List.mem_singleton.1 hc']
        exact f2
      · rw [one hm f3, List.mem_singleton.1 hc']
        exact hs.pkColumns _ _ (hsub _ _ f3) c (by rw [f4]; simp)
    · exact ⟨fun m hm c hc => by rw [one hm g1]; exact g2 c hc, fun m hm c hc => by rw [one hm g3]; exact g4 c hc⟩
  · intro k hk x hx c hc
    have hk' : k ∈ found ++ ord := List.mem_append_right _ hk
    obtain ⟨m, hm⟩ := Option.isSome_iff_exists.1 (hp.shape.inT hp.ok hk')
    obtain ⟨m0, g1, g2⟩ := hT1 (dget_some_mem hm)
    refine hload k hk' m (dget_some_mem hm) c ?_ false
    rw [g2]
    exact ht _ x (dget_some_mem hx) c hc m0 (hsub _ _ g1)

/-- Compacted columns of a planned run that are looked up have no value twice. -/
theorem planned_unique_refs (hok : RunOK C D p) (hex : ∀ x ∈ cfg.extraFks, x.Valid) (htg : [] ∉ dkeys cfg.targets)
    (hplan : Subsetter.plan D.fnmatch D.srcDb cfg = .ok p) (hpk : PkOK (dbTables D.srcDb) D.src) (hck : CompactsKeys C D)
    {r : Started} (h : startRun C D p = .ok r) {compact : Dict Key (List Str)}
    (hcc : getCompactColumns r.tables p.passthrough C.compact = .ok compact) (hpo : PlanOK r.tables p) :
    RefsUnique D.engine r.tables D.src compact p := by
  have hdb := hok.src
  obtain ⟨T, hI, hpl, hsub⟩ := planned_from hdb hex htg hplan
  have hr := startRun_facts hdb h
  intro k q hq hk c d dc hpt q' hq' S hS
  obtain ⟨t, fk, h1, h2, rfl, h4, h5⟩ := hpt
  have hS' := (hr.isSample hdb hpo).1 hS
  obtain ⟨t', e1, e2⟩ : ∃ t', dget (dbTables D.srcDb) (fk.dstSchema, fk.dstTable) = some t' ∧ t'.primaryKey = [dc] := by
    rcases ((c32_columns hok.compactNames hcc).1 _ _).1 h5 with ⟨n, cols, g1, g2, g3, g4, -⟩ | ⟨t', g1, g2, -⟩
    · obtain ⟨t', g4⟩ := Option.isSome_iff_exists.1 g4
      obtain ⟨t0, f1, f2, -, f3, f4⟩ := hr.get hdb g4
      refine ⟨t0, f3, ?_⟩
      have hn : fk.dstSchema ++ '.' :: fk.dstTable = n := parse_str g3
      dsimp only at f1
      rw [hn] at f1
      rcases hck n cols g1 dc g2 t0 f1 with a | ⟨a1, a2⟩
      · exact a
      · rcases loaded_fk h hr h1 h2 with ⟨t1, b1, b2, -⟩ | ⟨b, -⟩
        · have b3 := (hr.sub k t1 (dget_of_mem hr.raw.keys_nodup b1)).1
          exact absurd (List.of_mem_zip h4).2 (a2 _ _ b3 fk b2 hn)
        · exact absurd a1 b
    · have g1' := dget_of_mem (by rw [hr.same.keys]; exact hr.raw.keys_nodup) g1
      obtain ⟨t0, -, -, -, f3, f4⟩ := hr.get hdb g1'
      exact ⟨t0, f3, by rw [f4] at g2; exact g2⟩
  have hnd := (c56_constraints_hold hI hpl hpk hS' ⟨q', hq'⟩ e1).1 (by rw [e2]; simp)
  rw [e2] at hnd
  unfold UniqueIn
  refine (List.pairwise_map.1 hnd).imp ?_
  intro r r' hne _ he
  exact hne (by simp [he])

end Subsetter
