import Verif.Proofs.Declared

/- Foreign keys the destination need not declare. -/
namespace Subsetter
open Spec Props

variable {σ : Type} {C : RunConfig} {D : Setting σ} {p : Plan} {S : DbState} {s : σ}

theorem usedFk_length {cfg : PlannerConfig} {T : Tables} (hI : Input cfg T) {a b : Key} {fk : ForeignKey}
    (h : UsedFk cfg T a fk b) : fk.columns.length = fk.dstColumns.length := by
  rcases h with ⟨⟨t, h1, h2, -⟩ | ⟨e, -, t, c, -, -, rfl, -⟩, -⟩ | ⟨x, h1, -, -, -, -, rfl⟩
  · exact (hI.tables.fk_cols a t h1 fk h2).1
  · rfl
  · exact (hI.extra x h1).2.1.symm

/-- References hold after a run that succeeds if both sides are treated alike. -/
theorem final_refers (hok : RunOK C D p) {cfg : PlannerConfig} {T : Tables} (hI : Input cfg T)
    (hplan : planInternal cfg T = .ok p)
    (hall : ∀ n y, dget cfg.targets n = some y → y.all = true → y.amount = none)
    (hpk : PkOK (dbTables D.srcDb) D.src) (herr : (sample C D p S s).err = none)
    {n : Str} {k kd : Key} {t td : TableMeta} {nb : Str} {kb kdb : Key} {tb tdb : TableMeta} {fk : ForeignKey}
    (h : Carried C D cfg T p S (sample C D p S s).schema n k kd t td nb kb kdb tb tdb fk)
    (hlike : ∀ {order B Smp ids Ts mult compact offs},
      Copying C D p S (sample C D p S s).schema order B Smp ids Ts mult compact offs →
      ((sample C D p S s).schema.map Prod.fst).Nodup →
      (∀ r ∈ B kd, (∀ c ∈ fk.columns, r.get c ≠ .null) → ∃ m ∈ B kdb, Refers fk.columns fk.dstColumns r m) →
      Alike C p Ts mult compact offs n k kd nb kb kdb (fk.columns.zip fk.dstColumns) ∧
      (∀ c d dc, PointsTo Ts compact k c d dc → UniqueIn (Smp d) dc) ∧
      ∀ c d dc, PointsTo Ts compact kb c d dc → UniqueIn (Smp d) dc) :
    ∀ r ∈ (sample C D p S s).final kd, (∀ c ∈ fk.columns, r.get c ≠ .null) →
      ∃ m ∈ (sample C D p S s).final kdb, Refers fk.columns fk.dstColumns r m := by
  have hnames : ((sample C D p S s).schema.map Prod.fst).Nodup := by
    rcases sample_cases C D p S s with ⟨-, -, ⟨e, he⟩, -⟩ | ⟨-, -, -, -, -, -, -, -, -, -, -, -, e, he, -⟩ |
      ⟨r, db, x, order, states, offs, compact, mat, temps, hst, h1, -⟩
    · rw [herr] at he; cases he
    · rw [herr] at he; cases he
    · rw [h1]; exact (prepared_run hok hst.start hst.create).names
  obtain ⟨order, B, Smp, ids, Ts, mult, compact, offs, hcp, hfull, -⟩ := c61_run hok herr
  generalize (sample C D p S s).schema = schema at *
  generalize (sample C D p S s).final = X at *
  have hhold : ∀ {n k kd t td}, Copied C D p schema n k kd t td → TableHolds (target D kd td) (S kd) →
      TableHolds (target D kd td) (B kd) := by
    intro n k kd t td hc hh
    by_cases ht : C.truncate = true
    · rw [hcp.begins.emptied ht kd hc.reached]
      exact ⟨fun _ => List.nodup_nil, by simp⟩
    · rw [hcp.begins.kept kd fun h => absurd h ht]
      exact hh
  have hB : ∀ r ∈ B kd, (∀ c ∈ fk.columns, r.get c ≠ .null) → ∃ m ∈ B kdb, Refers fk.columns fk.dstColumns r m := by
    intro r hr hnn
    by_cases ht : C.truncate = true
    · rw [hcp.begins.emptied ht kd h.child.reached] at hr; cases hr
    · rw [hcp.begins.kept kd fun h => absurd h ht] at hr
      rw [hcp.begins.kept kdb fun h => absurd h ht]
      exact h.before (by simpa using ht) r hr hnn
  have hstable : ∀ c ∈ fk.dstColumns, Stable (strategyFor C p nb) (target D kdb tdb) c := by
    intro c hcc
    rcases h.stable with h | h | h
    · exact .inl h
    · exact .inr (.inl (by rw [target_pk]; exact h))
    · exact .inr (.inr (by rw [target_pk]; exact h c hcc))
  obtain ⟨hal, hl1, hl2⟩ := hlike hcp hnames hB
  obtain ⟨ch, rows, bs, g1, -, -, g3⟩ := hfull n k kd t td h.child
  have hh := hhold h.child h.rows
  have hhb := hhold h.parent h.rowsDst
  have hfb := hfull nb kb kdb tb tdb h.parent
  obtain ⟨-, hwr, -⟩ := sent_copy hcp (hok.srcColumns n t h.child.source) (fun c d dc g _ => hl1 c d dc g) g1
  intro q hq hnn
  have hown : ∀ c ∈ fk.columns, Own (strategyFor C p n) (target D kd td) (writtenColumns ch (target D kd td)) c :=
    fun c hc _ => .inr (hwr c (h.kept c hc))
  rcases (commits_facts g3 g1.fitting hh.1 hh.2).orig q hq with ⟨q0, h1, h2⟩ | ⟨y, hy, m, h1, h2⟩
  · obtain ⟨m, h3, h4⟩ := hB q0 h1 fun c hc => by rw [← h2 c (hown c hc)]; exact hnn c hc
    obtain ⟨ch', rows', bs', g1', -, -, g3'⟩ := hfb
    obtain ⟨m', h5, h6⟩ := (commits_facts g3' g1'.fitting hhb.1 hhb.2).old m h3
    refine ⟨m', h5, fun z hz => ?_⟩
    have hz1 := (List.of_mem_zip hz).1
    have hz2 := (List.of_mem_zip hz).2
    rw [h2 _ (hown _ hz1), h6 _ (hstable _ hz2)]
    exact h4 z hz
  · exact new_refers hok hI hplan hall hpk hcp h.child h.parent (usedFk_length hI h.used) h.used h.source h.kept h.keptDst hal
      (fun c d dc g _ => hl1 c d dc g) (fun c d dc g _ => hl2 c d dc g) g1 hy h1 (fun c hc => h2 c (hown c hc)) hnn
      hfb hhb hstable

section
variable {db' : Dict Str TableMeta} {fnmatch : Str → Str → Bool} {mode : InferMode} {pats : List Str}

theorem forall₂_left {α β : Type} {R : α → β → Prop} {l : List α} {l' : List β} (h : List.Forall₂ R l l') {x : α}
    (hx : x ∈ l) : ∃ y ∈ l', R x y := by
  obtain ⟨y, h1, h2⟩ := forall₂_right h.flip hx
  exact ⟨y, h1, h2⟩

theorem declares_get (h : Declares D.fnmatch mode pats D.srcDb db') (hok : RunOK C D p) {n : Str} {t : TableMeta}
    (ht : (n, t) ∈ D.srcDb) :
    ∃ t', (n, t') ∈ db' ∧ t' = { t with foreignKeys := t'.foreignKeys } := by
  obtain ⟨⟨n', t'⟩, h1, h2, -⟩ := forall₂_left h ht
  dsimp only at h2
  subst h2
  obtain ⟨t0, h3, h4, -⟩ := declares_entry h h1
  have := dget_of_mem hok.src.names_nodup ht
  rw [dget_of_mem hok.src.names_nodup h3] at this
  cases this
  exact ⟨t', h1, h4⟩

theorem declared_ok (h : Declares D.fnmatch C.infer (dkeys p.queries) D.srcDb db') (hok : RunOK C D p) :
    RunOK { C with infer := .none } { D with srcDb := db' } p := by
  refine ⟨declares_ok hok.src h, hok.dst, hok.closed, fun n t' ht => ?_, hok.self, hok.plan, hok.compactNames⟩
  obtain ⟨t, h1, h2, -⟩ := declares_entry h ht
  rw [h2]; exact hok.srcColumns n t h1

theorem declared_pk (h : Declares D.fnmatch mode pats D.srcDb db') (hok : RunOK C D p)
    (hpk : PkOK (dbTables D.srcDb) D.src) : PkOK (dbTables db') D.src := by
  intro k t' ht
  obtain ⟨⟨n, t1⟩, g1, g2⟩ := List.mem_map.1 (dget_some_mem ht)
  cases g2
  obtain ⟨t, h1, h2, -⟩ := declares_entry h g1
  have hk : dget (dbTables D.srcDb) (t.schema, t.name) = some t := by
    refine (dbTables_iff (k := (t.schema, t.name)) hok.src (hok.src.no_dot n t h1)).2 ?_
    dsimp only
    rw [← hok.src.name_eq n t h1]
    exact h1
  have := hpk _ t hk
  rw [h2]
  exact this

theorem declared_copied {schema : Dict Str TableMeta} {n : Str} {k kd : Key} {t t' td : TableMeta}
    (hc : Copied C D p schema n k kd t td) (ht : (n, t') ∈ db') :
    Copied { C with infer := .none } { D with srcDb := db' } p schema n k kd t' td :=
  ⟨hc.planned, hc.name, ht, hc.dest, hc.reached, hc.schema⟩

theorem declared_carried {cfg : PlannerConfig} {T : Tables} {schema : Dict Str TableMeta}
    {n : Str} {k kd : Key} {t td : TableMeta} {nb : Str} {kb kdb : Key} {tb tdb : TableMeta} {fk : ForeignKey}
    (h : Carried C D cfg T p S schema n k kd t td nb kb kdb tb tdb fk) {t' tb' : TableMeta} (ht : (n, t') ∈ db')
    (hb : (nb, tb') ∈ db') (e : t'.columns = t.columns) (eb : tb'.columns = tb.columns) :
    Carried { C with infer := .none } { D with srcDb := db' } cfg T p S schema n k kd t' td nb kb kdb tb' tdb fk := by
  refine ⟨declared_copied h.child ht, declared_copied h.parent hb, h.used, h.source, h.before, fun c hc => ?_, fun c hc => ?_,
    h.stable, h.rows, h.rowsDst⟩
  · obtain ⟨h1, h2⟩ := h.kept c hc
    exact ⟨by rw [e]; exact h1, h2⟩
  · obtain ⟨h1, h2⟩ := h.keptDst c hc
    exact ⟨by rw [eb]; exact h1, h2⟩

end
end Subsetter
