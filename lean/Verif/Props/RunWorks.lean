import Verif.Proofs.RunWorks
import Verif.Props.RunKeys
import Verif.Props.RunSucceeds

/-
Property C79: runs that transform rows succeed.
-/
namespace Subsetter.Props
open Subsetter Spec

variable {σ : Type} {C : RunConfig} {D : Setting σ} {p : Plan} {S : DbState} {s : σ}

/-- C79. A run of the planner's plan finishes without an error, whatever it does with filters, compaction,
multiplication and merging: if both databases have what it needs, the configuration fits them, every row can be
transformed and no keys meet. -/
theorem c79_succeeds (hok : RunOK C D p) (hfo : LookupsFollow C D p) (hr : Runnable C D p) {cfg : PlannerConfig}
    {T : Tables} (hI : Input cfg T) (hplan : planInternal cfg T = .ok p)
    (hall : Compacts C → ∀ n y, dget cfg.targets n = some y → y.all = true → y.amount = none)
    (hpk : PkOK (dbTables D.srcDb) D.src) (hsrc : Compacts C → Intact D.srcDb D.src)
    (hcf : Configured C D p (sample C D p S s).schema)
    (hwr : ∀ n k kd t td, Copied C D p (sample C D p S s).schema n k kd t td →
      Writable C D p (sample C D p S s).schema n k kd t td)
    (hkeys : ∀ n k kd t td, Copied C D p (sample C D p S s).schema n k kd t td → strategyFor C p n = .error →
      td.primaryKey ≠ [] → KeysApart C D cfg T p S (sample C D p S s).schema n k kd t td ∧
        KeysUnique td.primaryKey (S kd)) :
    (sample C D p S s).err = none := by
  obtain ⟨r, db, x, order, states, offs, compact, mat, temps, hst, hsch⟩ := steps_work hok hfo hr hcf
  rw [hsch] at hcf hwr hkeys
  have := hst.works (s := s) hok hfo hcf hI hplan hall hpk hsrc hwr hkeys
  simp only [sample, hst.start, hst.create, hst.order, hst.truncate, hst.prepare, hst.compacted, hst.ordered,
    hst.materialized]
  rw [this]

theorem eq_map_of_forall₂ {f : Str → Val} {cs : List Str} {vs : List Val} (h : List.Forall₂ (fun c v => v = f c) cs vs) :
    vs = cs.map f := by
  induction h with
  | nil => rfl
  | cons h _ ih => rw [List.map_cons, ← ih, ← h]

theorem omitted_writes {c : Str} : ∀ {fs : List (FilterCfg Val)}, c ∈ omitted fs → ∃ f ∈ fs, c ∈ FilterCfg.writes f := by
  intro fs
  induction fs with
  | nil => intro h; cases h
  | cons f fs ih =>
    intro h
    rw [omitted_cons] at h
    rcases List.mem_append.1 h with h | h
    · refine ⟨f, by simp, ?_⟩
      cases f with
      | multiplex a b => simp [omitted] at h
      | simple g => cases g <;> simp [omitted] at h; simpa [FilterCfg.writes, SimpleCfg.columns] using h
    · obtain ⟨f', h1, h2⟩ := ih h
      exact ⟨f', by simp [h1], h2⟩

/-- C79. If the planner makes a plan with dependencies included and no foreign keys ignored, and tables passed through do
not refer to each other in a circle, then a run into a database without the tables (with `create`, which makes them, or
without, which skips them) and with filters that fit the tables, never fail and leave primary keys alone finishes
without an error. -/
theorem c79_create_filtered (hok : RunOK C D p) (hinf : C.infer = .none) (hid : SameIds C)
    (hdia : D.dialect ≠ .generic ∨ C.strategy = .error) {cfg : PlannerConfig} (hex : ∀ x ∈ cfg.extraFks, x.Valid)
    (htg : [] ∉ dkeys cfg.targets) (hplan : plan D.fnmatch D.srcDb cfg = .ok p)
    (hdep : cfg.includeDependencies = true) (hign : cfg.ignoreFks = [])
    (hcirc : ∀ k, Named cfg.passthrough k → ¬ Relation.TransGen (DbRef D.srcDb) k k)
    (hself : ∀ n ∈ dkeys p.queries, D.fnmatch n n = true) (hsrc : SourceOK D) (hfree : DestinationFree C D p S)
    (hfit : ∀ n fs, (n, fs) ∈ C.filters → fs ≠ [] → (∃ k, parseTableName n = some k) ∧
      ∀ t, (n, t) ∈ D.srcDb → ∃ ch, constructFilter D.world t.columns fs = .ok ch)
    (hruns : ∀ n t, (n, t) ∈ D.srcDb → ∀ ch, constructFilter D.world t.columns (filtersOf C n) = .ok ch →
      ∀ r ∈ D.src (t.schema, t.name), ∀ s, ∃ out s', ch.run D.world (t.columns.map r.get) s = .ok (out, s'))
    (hkeep : ∀ n fs, (n, fs) ∈ C.filters → ∀ f ∈ fs, ∀ t, (n, t) ∈ D.srcDb → ∀ c ∈ t.primaryKey,
      c ∉ FilterCfg.writes f) :
    (sample C D p S s).err = none := by
  have hr : Runnable C D p := c59_runnable (S := S) hok hex htg hplan hdep hign hcirc hself hsrc hfree
  obtain ⟨T, hI, hpi, hT⟩ := planned_from hok.src hex htg hplan
  have hncp : ¬ Compacts C := by
    rintro (h | h | ⟨n, cs, c, h1, h2⟩)
    · rw [hid.compactKeys.1] at h; cases h
    · rw [hid.compactKeys.2] at h; cases h
    · rw [hid.compactColumns n cs h1] at h2; cases h2
  have hone : ¬ 1 < C.mult.multiplier := by have := hid.once; omega
  have hnm : ∀ {n c}, ¬ Multiplied C D p n c := fun h => hone h.1
  have hfo : LookupsFollow C D p := by
    refine ⟨hinf, fun h => (hncp h).elim, fun h => (hncp h).elim, fun n cs h c hc => ?_⟩
    rw [hid.compactColumns n cs h] at hc
    cases hc
  have hcf : Configured C D p (sample C D p S s).schema := by
    refine ⟨hfit, fun h => (hone h).elim, fun n c h => (hnm h).elim, fun n cs h h' => (h' (hid.compactColumns n cs h)).elim,
      fun n t c _ _ _ _ _ h => ?_, fun _ h => (hncp h).elim, fun h => ?_⟩
    · rcases h with h | ⟨h, -⟩
      · rw [hid.compactKeys.1] at h; cases h
      · rw [hid.compactKeys.2] at h; cases h
    · rw [hid.merge] at h; cases h
  obtain ⟨r, db, x, order, states, offs, compact, mat, temps, hst, hsch⟩ := steps_work (S := S) (s := s) hok hfo hr hcf
  have hstr : ∀ n, strategyFor C p n = C.strategy := by
    intro n
    unfold strategyFor
    rw [if_neg (by rw [hid.merge]; simp)]
  have hnew : ∀ n k kd t td, Copied C D p db n k kd t td → kd.1 ++ '.' :: kd.2 ∉ dkeys D.dstDb := by
    intro n k kd t td hc hm
    refine (hfree.free n hc.planned kd hc.dest).1 ?_
    obtain ⟨⟨m, t'⟩, h1, h2⟩ := List.mem_map.1 hm
    dsimp only at h2
    subst h2
    exact ⟨_, t', h1, str_inj (k := (t'.schema, t'.name)) (hok.dst.no_dot _ t' h1) (destOf_nodot hc.dest)
      (hok.dst.name_eq _ t' h1).symm⟩
  have hcopy := fun n k kd t td (hc : Copied C D p db n k kd t td) =>
    (created_copyOf hok hst.start hst.create hc (hnew n k kd t td hc)).1
  have htar : ∀ n k kd t td, Copied C D p db n k kd t td → (target D kd td).computed = [] := by
    intro n k kd t td hc
    unfold target
    rw [if_neg (hnew n k kd t td hc)]
  have hkey : ∀ n k kd t td, Copied C D p db n k kd t td → (t.schema, t.name) = k := by
    intro n k kd t td hc
    refine str_inj (k := (t.schema, t.name)) (hok.src.no_dot _ t hc.source) (parse_fst_nodot hc.name) ?_
    rw [parse_str hc.name]
    exact (hok.src.name_eq _ t hc.source).symm
  have hunw : ∀ n k kd t td, Copied C D p db n k kd t td → ∀ c ∈ t.primaryKey, ∀ f ∈ filtersOf C n, c ∉ FilterCfg.writes f := by
    intro n k kd t td hc c hcp f hf
    unfold filtersOf at hf
    cases hg : dget C.filters n with
    | none => rw [hg] at hf; cases hf
    | some fs => rw [hg] at hf; exact hkeep n fs (dget_some_mem hg) f hf t hc.source c hcp
  refine c79_succeeds hok hfo hr hI hpi (fun h => (hncp h).elim) hsrc.pk (fun h => (hncp h).elim) hcf ?_ ?_
  · rw [hsch]
    intro n k kd t td hc
    have hcp := hcopy n k kd t td hc
    refine ⟨fun ch hch row hrow vs hvs s => ?_, fun c h _ => ?_, fun hpg c hau _ => .inr (.inr ?_), fun c hm _ => ?_,
      fun c hm => ?_, ?_, .inr (htar n k kd t td hc)⟩
    · have : vs = t.columns.map row.get := by
        exact eq_map_of_forall₂ (hvs.imp fun c v h => h.resolve_right fun h => hncp h.1)
      rw [this]
      refine hruns n t hc.source ch hch row ?_ s
      rw [hkey n k kd t td hc]
      exact hrow
    · rcases h with h | ⟨h, -⟩
      · exact (hnm h).elim
      · rw [hid.merge] at h; cases h
    · obtain ⟨h1, h2, -⟩ := (hcp.auto c).1 hau
      have h3 : c ∈ t.primaryKey := ((hcp.pk c).1 (by rw [h1]; simp)).2
      rw [hcp.ints] at h2
      refine ⟨hunw n k kd t td hc c h3, ?_, fun h => (hncp h).elim⟩
      rw [← hkey n k kd t td hc]
      exact hsrc.ints hpg n t hc.source c h3 h2
    · rw [hcp.columns]; exact hm
    · obtain ⟨h1, h2⟩ := (hcp.pk c).1 hm
      refine ⟨h1, fun h => ?_, by rw [htar n k kd t td hc]; exact List.not_mem_nil⟩
      obtain ⟨f, h3, h4⟩ := omitted_writes h
      exact hunw n k kd t td hc c h2 f h3 h4
    · rw [hstr]; exact hdia
  · rw [hsch]
    intro n k kd t td hc _ hne
    have hcp := hcopy n k kd t td hc
    have hS : S kd = [] := (hfree.free n hc.planned kd hc.dest).2
    refine ⟨⟨fun c => ?_, fun c hcc => ⟨hsrc.pkColumns n t hc.source c hcc, fun fs hfs f hf => hkeep n fs hfs f hf t hc.source c hcc, by rw [htar n k kd t td hc]; exact List.not_mem_nil⟩,
      fun h => ?_, .inl hS, fun h => (hncp h).elim, fun h => (hncp h).elim⟩, by rw [hS]; exact .nil⟩
    · rw [hcp.pk]
      exact ⟨fun h => h.2, fun h => ⟨hsrc.pkColumns n t hc.source c h, h⟩⟩
    · unfold timesWritten at h
      rw [if_neg fun h' => hone h'.1] at h
      omega

/-- What the planner's plan of the example needs. -/
theorem wx_runnable {C : RunConfig} (hC : C.remap = dxRemap) (hcr : C.create = false) {p : Plan}
    (h : planInternal exCfg ixTables = .ok p) (hI : Input exCfg ixTables) (hn : dkeys p.queries = [str! "s.o", str! "s.u"]) :
    Runnable C (rxSetting rxDst) p := by
  obtain ⟨ign, pass, T₁, T₂, found, ord, hp⟩ := planning hI h
  have hd : ∀ n ∈ dkeys p.queries, DestOf C.remap n (if n = str! "s.u" then (str! "m", str! "u") else (str! "m", str! "o")) := by
    intro n h1
    rw [hn] at h1
    rw [hC]
    simp only [List.mem_cons, List.not_mem_nil, or_false] at h1
    rcases h1 with rfl | rfl
    · exact ⟨str! "s", str! "o", by decide, by decide⟩
    · exact ⟨str! "s", str! "u", by decide, by decide⟩
  have hstep : ∀ {a b}, DbRef (rxSetting rxDst).dstDb a b →
      a = (str! "m", str! "o") ∧ b = (str! "m", str! "u") ∨ a = (str! "m", str! "x") ∧ b = (str! "m", str! "o") := by
    rintro a b ⟨n, t, fk, h1, rfl, h2, rfl⟩
    have : ∀ e ∈ rxDst, ∀ fk ∈ e.2.foreignKeys,
        (e.2.schema, e.2.name) = (str! "m", str! "o") ∧ (fk.dstSchema, fk.dstTable) = (str! "m", str! "u") ∨
        (e.2.schema, e.2.name) = (str! "m", str! "x") ∧ (fk.dstSchema, fk.dstTable) = (str! "m", str! "o") := by decide
    exact this (n, t) h1 fk h2
  have hlow : ∀ {a b}, Relation.TransGen (DbRef (rxSetting rxDst).dstDb) a b → (if a = (str! "m", str! "x") then 2 else if a = (str! "m", str! "o") then 1 else 0) >
      (if b = (str! "m", str! "x") then 2 else if b = (str! "m", str! "o") then 1 else 0) := by
    intro a b hab
    induction hab with
    | single h => rcases hstep h with ⟨rfl, rfl⟩ | ⟨rfl, rfl⟩ <;> decide
    | tail _ h ih =>
      refine lt_trans ?_ ih
      rcases hstep h with ⟨rfl, rfl⟩ | ⟨rfl, rfl⟩ <;> decide
  refine ⟨fun n hm => ?_, fun k q hq y hy => ?_, hp.shape.acyclic hp.ok, fun n h1 => ⟨_, hd n h1⟩,
    fun n h1 n' h2 k h3 h4 => ?_, fun k hk => absurd (hlow hk) (lt_irrefl _), fun h => ?_, fun h => ?_⟩
  · rw [hn] at hm
    exact ⟨hm, by simp [rxSetting, dxEq]⟩
  · rcases hp.shape.refs_cases hp.ok hq hy with rfl | ⟨pre, post, d, he, hd, rfl⟩
    · exact ⟨q, hq⟩
    · exact (hp.planned_iff (k := d)).2 (by rw [he]; simp [hd])
  · have e := (destOf_unique h3 (hd n h1)).symm.trans (destOf_unique h4 (hd n' h2))
    rw [hn] at h1 h2
    simp only [List.mem_cons, List.not_mem_nil, or_false] at h1 h2
    rcases h1 with rfl | rfl <;> rcases h2 with rfl | rfl <;> first | rfl | exact absurd e (by decide)
  · rw [hcr] at h; cases h
  · rw [hcr] at h; cases h

/-- Multiplied columns of the example. -/
theorem wx_multiplied {p : Plan} {n c : Str} {t : TableMeta} (h : Multiplied wxC (rxSetting rxDst) p n c)
    (ht : (n, t) ∈ (rxSetting rxDst).srcDb) : c ∈ t.columns ∧ c ∈ t.intColumns := by
  have hfk : ∀ {t'}, TableOf (dbTables (rxSetting rxDst).srcDb) n t' → t' = t := by
    rintro t' ⟨k, h1, h2⟩
    simp only [rxSetting, List.mem_cons, Prod.mk.injEq, List.not_mem_nil, or_false] at ht
    rcases ht with ⟨rfl, rfl⟩ | ⟨rfl, rfl⟩
    · cases (show some (str! "s", str! "o") = some k from h1); exact (Option.some.inj (h2 : some (rxO (str! "s")) = some t')).symm
    · cases (show some (str! "s", str! "u") = some k from h1); exact (Option.some.inj (h2 : some (rxU (str! "s")) = some t')).symm
  have hcs : ∀ e ∈ (rxSetting rxDst).srcDb, (∀ c ∈ e.2.primaryKey, c ∈ e.2.columns ∧ c ∈ e.2.intColumns) ∧
      (∀ fk ∈ e.2.foreignKeys, ∀ c ∈ fk.columns, c ∈ e.2.columns ∧ c ∈ e.2.intColumns) ∧
      ∀ c ∈ (dget wxC.mult.extraColumns e.1).getD [], c ∈ e.2.columns ∧ c ∈ e.2.intColumns := by decide
  obtain ⟨g1, g2, g3⟩ := hcs (n, t) ht
  rcases h.2 with ⟨h1, h2, h3, h4⟩ | ⟨h1, h2, h3, h4, h5⟩ | ⟨h1, h2, h3, h4, h5, h6⟩
  · exact g3 c (by rw [h3]; exact h4)
  · rw [hfk h3] at h4; exact g1 c h4
  · rw [hfk h3] at h4; exact g2 _ h4 c h5

/-- C79 on an example: keys are compacted, multiplied and merged into what is there. -/
theorem wx_works : ∃ p, planInternal exCfg ixTables = .ok p ∧ (sample wxC (rxSetting rxDst) p rxBefore 0).err = none := by
  have hn := ixNames
  have hp : wxPass (planInternal exCfg ixTables) = [] := by decide +kernel
  cases h : planInternal exCfg ixTables with
  | error e => rw [h] at hn; cases hn
  | ok p =>
    rw [h] at hn hp
    replace hn : dkeys p.queries = _ := hn
    replace hp : p.passthrough = [] := hp
    obtain ⟨hok, hI, h1, h2, h3, -⟩ := ix_hyps (C := wxC) rfl rfl rfl h hn
    have hsch : (sample wxC (rxSetting rxDst) p rxBefore 0).schema = rxDst := schema_kept rfl
    refine ⟨p, rfl, c79_succeeds hok (wx_follow hn hp).lookups (wx_runnable rfl rfl h hI hn) hI h (fun _ => h1) h2
      (fun _ => h3) ?_ ?_ ?_⟩
    · rw [hsch]
      refine ⟨fun _ _ h => (nomatch h), fun _ => ?_, fun n c h t ht => wx_multiplied h ht, fun _ _ h => (nomatch h),
        ?_, fun h => (nomatch h), fun _ n hm _ => ⟨?_, ?_⟩⟩
      · rintro ⟨n, t, fk, c, -, h', -⟩
        rw [hp] at h'; cases h'
      · intro n t c ht _ hpk _ _ _ fk hfk hc
        have : ∀ e ∈ (rxSetting rxDst).srcDb, ∀ fk ∈ e.2.foreignKeys, ∀ c ∈ fk.columns, e.2.primaryKey ≠ [c] := by decide
        exact this (n, t) ht fk hfk c hc hpk
      · have hd : ∀ n ∈ dkeys p.queries, DestOf wxC.remap n (if n = str! "s.u" then (str! "m", str! "u") else (str! "m", str! "o")) := by
          intro n h1
          rw [hn] at h1
          simp only [List.mem_cons, List.not_mem_nil, or_false] at h1
          rcases h1 with rfl | rfl
          · exact ⟨str! "s", str! "o", by decide, by decide⟩
          · exact ⟨str! "s", str! "u", by decide, by decide⟩
        have hdn := hd n hm
        have hm' := hm
        rw [hn] at hm'
        simp only [List.mem_cons, List.not_mem_nil, or_false] at hm'
        rcases hm' with rfl | rfl
        · exact ⟨_, _, _, rxO (str! "m"), hm, (rfl : _ = some (str! "s", str! "o")), (by decide : (_, rxO (str! "s")) ∈ _), hdn, ⟨str! "s.o", hm, _, hdn, .inr ⟨(str! "m", str! "o"),
            ⟨str! "m.o", rxO (str! "m"), by decide, by decide, str! "m.o", by simp, by decide⟩, .refl⟩⟩, by decide⟩
        · exact ⟨_, _, _, rxU (str! "m"), hm, (rfl : _ = some (str! "s", str! "u")), (by decide : (_, rxU (str! "s")) ∈ _), hdn, ⟨str! "s.u", hm, _, hdn, .inr ⟨(str! "m", str! "u"),
            ⟨str! "m.u", rxU (str! "m"), by decide, by decide, str! "m.u", by simp, by decide⟩, .refl⟩⟩, by decide⟩
      · intro t ht fk hfk
        rw [hn]
        have : ∀ e ∈ (rxSetting rxDst).srcDb, ∀ fk ∈ e.2.foreignKeys, fk.dstSchema ++ '.' :: fk.dstTable ∈ [str! "s.o", str! "s.u"] := by decide
        exact this (n, t) ht fk hfk
    · rw [hsch]
      intro n k kd t td hc
      have hnum : ∀ c ∈ t.columns, ∀ r ∈ (rxSetting rxDst).src k, Integral (r.get c) := by
        have ho : ∀ r ∈ exSrc (str! "s", str! "o"), ∀ c ∈ (rxO (str! "s")).columns, ∃ i ∈ [7, 8, 1, 2], r.get c = .int i := by decide
        have hu : ∀ r ∈ exSrc (str! "s", str! "u"), ∀ c ∈ (rxU (str! "s")).columns, ∃ i ∈ [7, 8, 1, 2], r.get c = .int i := by decide
        rcases ix_copied rfl hn hc with ⟨rfl, rfl, rfl, rfl, rfl⟩ | ⟨rfl, rfl, rfl, rfl, rfl⟩
        · intro c hc r hr
          obtain ⟨i, -, h⟩ := ho r hr c hc
          exact .inr ⟨i, h⟩
        · intro c hc r hr
          obtain ⟨i, -, h⟩ := hu r hr c hc
          exact .inr ⟨i, h⟩
      have hcomp : (target (rxSetting rxDst) kd td).computed = [] := by
        unfold target
        split <;> rfl
      refine ⟨fun ch hch r _ row _ s => ?_, fun c _ hcc => .inr (.inr ⟨(fun _ h => nomatch h), hnum c hcc⟩), fun h => (nomatch h),
        fun c hcc _ => ?_, fun c hcc => ?_, .inl (by decide), .inr ?_⟩
      · cases (show Except.ok ⟨t.columns, t.columns, []⟩ = Except.ok ch from hch)
        exact ⟨row, s, rfl⟩
      · rcases ix_copied rfl hn hc with ⟨rfl, rfl, rfl, rfl, rfl⟩ | ⟨rfl, rfl, rfl, rfl, rfl⟩ <;> exact hcc
      · refine ⟨?_, fun h => (nomatch h), ?_⟩
        · rcases ix_copied rfl hn hc with ⟨rfl, rfl, rfl, rfl, rfl⟩ | ⟨rfl, rfl, rfl, rfl, rfl⟩ <;> revert c <;> decide
        · rw [hcomp]; exact List.not_mem_nil
      · exact hcomp
    · rw [hsch]
      exact fun n k kd t td hc _ _ => wx_apart hn hp hc

/-- The users of orders are made up. -/
def axFilters : Dict Str (List (FilterCfg Val)) := [(str! "s.o", [.simple (.randomInt [str! "uid"] 0 9)])]

/-- C79 on an example: both tables are created, orders with made-up users. -/
theorem ax_create_filtered : ∃ p, plan dxEq (axSetting dxEq).srcDb axCfg = .ok p ∧
    (sample { remap := dxRemap, create := true, filters := axFilters } (axSetting dxEq) p (fun _ => []) 0).err = none := by
  have hn := axNames
  cases h : plan dxEq (axSetting dxEq).srcDb axCfg with
  | error e => rw [h] at hn; cases hn
  | ok p =>
    rw [h] at hn
    have hn : dkeys p.queries = [str! "s.u", str! "s.o"] := hn
    refine ⟨p, rfl, c79_create_filtered (C := { remap := dxRemap, create := true, filters := axFilters }) (D := axSetting dxEq) (p := p)
      (S := fun _ => []) (s := 0) (ax_ok rfl hn) rfl ⟨⟨rfl, rfl⟩, fun _ _ h => (nomatch h), by decide, rfl⟩
      (.inl (by decide)) (cfg := axCfg) (fun _ h => nomatch h) (by decide) h (by decide) rfl (fun _ hk => ax_nocircle hk)
      (fun n _ => by simp [axSetting, dxEq]) ax_source (ax_free rfl hn) ?_ ?_ ?_⟩
    · intro n fs hf _
      simp only [axFilters, List.mem_cons, Prod.mk.injEq, List.not_mem_nil, or_false] at hf
      obtain ⟨rfl, rfl⟩ := hf
      refine ⟨⟨(str! "s", str! "o"), by decide⟩, fun t ht => ?_⟩
      simp only [axSetting, rxSetting, List.mem_cons, Prod.mk.injEq, List.not_mem_nil, or_false] at ht
      rcases ht with ⟨-, rfl⟩ | ⟨h', -⟩
      · exact ⟨_, rfl⟩
      · exact absurd h' (by decide)
    · intro n t ht ch hch r hr s
      simp only [axSetting, rxSetting, List.mem_cons, Prod.mk.injEq, List.not_mem_nil, or_false] at ht
      rcases ht with ⟨rfl, rfl⟩ | ⟨rfl, rfl⟩
      · cases hch
        exact ⟨_, _, rfl⟩
      · cases hch
        exact ⟨_, _, rfl⟩
    · intro n fs hf f hf' t ht c hc
      simp only [axFilters, List.mem_cons, Prod.mk.injEq, List.not_mem_nil, or_false] at hf
      obtain ⟨rfl, rfl⟩ := hf
      simp only [axSetting, rxSetting, List.mem_cons, Prod.mk.injEq, List.not_mem_nil, or_false] at ht hf'
      subst hf'
      rcases ht with ⟨-, rfl⟩ | ⟨h', -⟩
      · revert c; decide
      · exact absurd h' (by decide)

/-- The error of a run of the example. -/
def wxErr (C : RunConfig) : Option (Option RunErr) :=
  match planInternal exCfg ixTables with
  | .ok p => some (sample C (rxSetting rxDst) p rxBefore 0).err
  | .error _ => none

/-- Only filters that leave multiplied columns integral let the run succeed: text in the key of users stops it. -/
theorem wx_text_key : wxErr { wxC with filters := [(str! "s.u", [.simple (.constant [str! "id"] [.str (str! "x")])])] } =
    some (some (.dest (.output .typeError))) := by
  decide +kernel

/-- A filter that omits a key of the destination stops the run with strategy `replace`. -/
theorem wx_omitted_key : wxErr { remap := dxRemap, strategy := .replace, filters := [(str! "s.u", [.simple (.omit [str! "id"])])] } =
    some (some (.dest (.output .keyError))) := by
  decide +kernel

/-- A filter for a column that is not there stops the run before it begins. -/
theorem wx_no_column : wxErr { wxC with filters := [(str! "s.u", [.simple (.null [str! "mail"])])] } = 
    some (some (.filter (.missingColumn (str! "mail")))) := by
  decide +kernel

/-- Tables that are not multiplied must not refer to multiplied columns of the same name. -/
theorem wx_blocked : wxErr { wxC with mult := { multiplier := 2, ignoreTables := [str! "s.o"], extraColumns := [(str! "s.u", [str! "uid"])] } } =
    some (some (.mult .passthroughFk)) := by
  decide +kernel

end Subsetter.Props
