import Verif.Proofs.CreatedSchema
import Verif.Proofs.MergeRows
import Verif.Spec.MergeCreate

/- Runs that create missing tables and merge rows. -/
namespace Subsetter
open Spec Props

variable {σ : Type} {W : Route} {j : Job σ} {B : Database} {db : Dict Str TableMeta}

theorem Spec.GrowRun.ok (hW : RouteOK W) (hB : Ready W db) (h : GrowRun W j) : RunOK j.config (j.into db) j.plan := by
  obtain ⟨T, hI, hpi, hTdb⟩ := planned_from hW.source h.extra h.targets h.plan
  obtain ⟨ign, pass, T₁, T₂, found, ord, hp⟩ := planning hI hpi
  refine ⟨by unfold Job.into; rw [h.srcDb]; exact hW.source, hB.dbOK, hB.closed, by unfold Job.into; rw [h.srcDb]; exact hW.columns,
    fun _ n hn => by unfold Job.into; rw [h.fnmatch]; exact hB.self n hn, ?_, h.compactNames⟩
  rw [show dkeys j.plan.queries = _ from hp.shape.keys]
  exact map_str_nodup hp.ok (fun k hk => hp.shape.inT hp.ok hk) hp.shape.nodup

/-- The steps before copying succeed. -/
theorem Spec.GrowRun.runnable (hW : RouteOK W) (hB : Ready W db) (h : GrowRun W j) : Runnable j.config (j.into db) j.plan := by
  have hok := h.ok hW hB
  obtain ⟨srcDb, remap, fnmatch, computed, dialect, tables, passed⟩ := W
  obtain ⟨rfl, rfl, rfl, rfl, rfl, htab, hpas, hC, hcn, hcr, hck, hcp, hex, htg, hplan, hign, hdep, hall, hpk, hsrc, hcols, hK, hauto⟩ := h
  dsimp only at htab hplan
  obtain ⟨T, hI, hpi, hTdb⟩ := planned_from hW.source hex htg hplan
  obtain ⟨ign, pass, T₁, T₂, found, ord, hp⟩ := planning hI hpi
  have hP : RefsPlanned (j.into db) j.plan := refs_planned hW.source hp hTdb hign hdep
  have hdb : ∀ n ∈ dkeys j.plan.queries, n ∈ dkeys j.setting.srcDb := by
    intro n hn
    rw [show dkeys j.plan.queries = _ from hp.shape.keys, List.mem_map] at hn
    obtain ⟨k', h1, rfl⟩ := hn
    obtain ⟨t', ht⟩ := Option.isSome_iff_exists.1 (hp.isSome_iff.1 (hp.shape.inT hp.ok h1))
    exact List.mem_map_of_mem (f := Prod.fst) (hTdb k' t' (dget_some_mem ht))
  refine ⟨fun n hn => ⟨hdb n hn, hW.self n (htab n hn)⟩, fun k q hq y hy => ?_, hp.shape.acyclic hp.ok, fun n hn => ?_,
    fun n hn n' hn' k => hW.differ n (htab n hn) n' (htab n' hn') k, hB.circles, fun _ n hn t ht _ fk hfk => ?_, fun _ k hk => ?_⟩
  · rcases hp.shape.refs_cases hp.ok hq hy with rfl | ⟨pre, post, d, he, hd, rfl⟩
    · exact ⟨q, hq⟩
    · exact (hp.planned_iff (k := d)).2 (by rw [he]; simp [hd])
  · obtain ⟨kd, h1, -⟩ := hW.dest n (htab n hn)
    exact ⟨kd, h1⟩
  · have hnb := (hP n hn t ht fk hfk).1
    refine ⟨hnb, (hcols n t ht fk hfk).2, fun d m td hd hm e c hc => ?_⟩
    obtain ⟨⟨nb, tb⟩, g1, g2⟩ := List.mem_map.1 (hdb _ hnb)
    dsimp only at g2
    subst g2
    subst e
    rw [hB.dbOK.name_eq m td hm] at hm
    rw [(hB.twin _ (htab _ hnb) tb _ td g1 hd hm).columns]
    exact (hcols n t ht fk hfk).2 tb g1 c hc
  · exact hW.circles k (Relation.TransGen.mono (fun a b h => ⟨h.1, htab _ h.2.1, htab _ h.2.2⟩) k k hk)

/-- A created table is like the table it was created for. -/
theorem copy_twin {remap : Str → Str} {planned : List Str} {t td : TableMeta} (hcol : t.columns.Nodup)
    (hpk : ∀ c ∈ t.primaryKey, c ∈ t.columns) (h : CopyOf remap planned t td) : TwinOf remap t td := by
  have hiff : ∀ c, c ∈ td.primaryKey ↔ c ∈ t.primaryKey := fun c => (h.pk c).trans ⟨fun h => h.2, fun h => ⟨hpk c h, h⟩⟩
  refine ⟨h.columns, hiff, fun c hc => ?_, h.ints, fun fk hfk => ?_⟩
  · have hnd := h.order.nodup hcol
    have hm : ∀ d, d ∈ td.primaryKey ↔ d = c := fun d => by rw [hiff, hc, List.mem_singleton]
    exact List.perm_singleton.1 ((List.perm_ext_iff_of_nodup hnd (List.nodup_singleton c)).2 fun d => by rw [hm, List.mem_singleton])
  · obtain ⟨fk0, h1, h2, h3, n, -, rfl, h4⟩ := forall₂_mem_right h.fks hfk
    exact ⟨fk0, h1, h2.symm, h3.symm, h4⟩

/-- After the run there are all planned tables, and the database is ready again. -/
theorem Spec.GrowRun.works (hW : RouteOK W) (hB : Ready W B.tables) (h : GrowRun W j) :
    MergesRun j.config (j.into B.tables) j.plan j.planned (j.result B).schema ∧ Ready W (j.result B).schema ∧
    (∀ e ∈ B.tables, e ∈ (j.result B).schema) ∧
    ∀ m td, (m, td) ∈ (j.result B).schema → (m, td) ∈ B.tables ∨ ∃ n ∈ dkeys j.plan.queries, ∃ t, (n, t) ∈ W.srcDb ∧
      DestOf W.remap n (td.schema, td.name) ∧ m = td.schema ++ '.' :: td.name ∧ CopyOf W.remap (dkeys j.plan.queries) t td := by
  have hok := h.ok hW hB
  have hr := h.runnable hW hB
  have hcreate := h.create
  obtain ⟨ts, hX⟩ := created_schema (S := B.rows) (s := j.start) hok h.merges.filters h.merges.once hr h.create
  rw [show sample j.config (j.into B.tables) j.plan B.rows j.start = j.result B from rfl] at hX
  generalize (j.result B).schema = X at hX
  have hXok := hX.dbOK hok
  obtain ⟨srcDb, remap, fnmatch, computed, dialect, tables, passed⟩ := W
  obtain ⟨rfl, rfl, rfl, rfl, rfl, htab, hpas, hC, hcn, hcr, hck, hcp, hex, htg, hplan, hign, hdep, hall, hpk, hsrc, hcols, hK, hauto⟩ := h
  dsimp only at htab hpas hplan hck hcp hauto
  have same : ∀ {n t t'}, (n, t) ∈ j.setting.srcDb → (n, t') ∈ j.setting.srcDb → t = t' := fun h1 h2 => db_same hW.source h1 h2
  -- the tables of the destination that planned tables go to
  have htd : ∀ n ∈ tables, ∀ t kd td, (n, t) ∈ j.setting.srcDb → DestOf j.config.remap n kd → (kd.1 ++ '.' :: kd.2, td) ∈ X →
      (kd.1 ++ '.' :: kd.2, td) ∈ B.tables ∨ (n ∈ dkeys j.plan.queries ∧ CopyOf j.config.remap (dkeys j.plan.queries) t td) := by
    intro n hn t kd td ht hd hm
    rcases hX.cases hm with g | ⟨g, e⟩
    · exact .inl g
    · obtain ⟨-, -, n', g1, t', g2, g3, g4⟩ := hX.each td g
      have e' : kd = (td.schema, td.name) := str_inj (destOf_nodot hd) (destOf_nodot g3) e
      subst e'
      have e' := hW.differ n hn n' (htab n' g1) _ hd g3
      subst e'
      rw [same ht g2]
      exact .inr ⟨g1, g4⟩
  have htwin : ∀ n ∈ tables, ∀ t kd td, (n, t) ∈ j.setting.srcDb → DestOf j.config.remap n kd → (kd.1 ++ '.' :: kd.2, td) ∈ X →
      TwinOf j.config.remap t td := by
    intro n hn t kd td ht hd hm
    rcases htd n hn t kd td ht hd hm with g | ⟨g1, g2⟩
    · exact hB.twin n hn t kd td ht hd g
    · exact copy_twin (hW.columns n t ht) (hK.columns n g1 t ht) g2
  have hautoX : j.setting.dialect = .postgresql → ∀ n ∈ tables, ∀ t kd td, (n, t) ∈ j.setting.srcDb → DestOf j.config.remap n kd →
      (kd.1 ++ '.' :: kd.2, td) ∈ X → ∀ c, td.autoincrement = some c →
        c ∈ t.primaryKey ∧ c ∈ t.intColumns ∧ ∀ fk ∈ t.foreignKeys, c ∉ fk.columns := by
    intro hp n hn t kd td ht hd hm c hc
    rcases htd n hn t kd td ht hd hm with g | ⟨g1, g2⟩
    · exact hB.auto hp n hn t kd td ht hd g c hc
    · obtain ⟨i1, i2, i3⟩ := (g2.auto c).1 hc
      refine ⟨((g2.pk c).1 (by rw [i1]; simp)).2, by rw [← g2.ints]; exact i2, fun fk hfk hcf => ?_⟩
      obtain ⟨fk', l1, l2, -⟩ := forall₂_mem_left g2.fks hfk
      exact i3 fk' l1 (by rw [l2]; exact hcf)
  have hrefs : ∀ a fk b, DbFk X a fk b → ∀ n ∈ passed, DestOf j.config.remap n b →
      ∀ td, (b.1 ++ '.' :: b.2, td) ∈ X → td.primaryKey = [] ∨ ∀ c ∈ fk.dstColumns, c ∈ td.primaryKey := by
    intro a fk b hfk n hn hd td hm
    rcases hX.fk_cases hfk with g | ⟨-, n', g1, t', g2, -, fk0, g3, -, g4, g5, g6⟩
    · refine hB.refs a fk b g n hn hd td ?_
      obtain ⟨m, t, g1, g2, g3, g4⟩ := g
      obtain ⟨m', t', g5, g6⟩ := hB.closed a b ⟨m, t, fk, g1, g2, g3, g4⟩
      have g7 := hX.sub _ g5
      have e := hB.dbOK.name_eq m' t' g5
      rw [e] at g5 g7
      subst g6
      rw [db_same hXok hm g7]
      exact g5
    · have e := hW.differ n (hW.passed n hn) _ (htab _ g5) b hd g6
      subst e
      obtain ⟨⟨m, tb⟩, i1, i2⟩ := List.mem_map.1 (hr.source _ g5).1
      dsimp only at i2
      subst i2
      have htw := htwin _ (htab _ g5) tb b td i1 hd hm
      rcases hW.refs n' (htab _ g1) t' g2 fk0 g3 hn tb i1 with i3 | i3
      · left
        refine List.eq_nil_iff_forall_not_mem.2 fun c hc => ?_
        have := (htw.primaryKey c).1 hc
        rw [i3] at this
        cases this
      · right
        intro c hc
        rw [g4] at hc
        exact (htw.primaryKey c).2 (i3 c hc)
  refine ⟨⟨hok, hC, fun h => ?_, hex, htg, hplan, hign, hdep, hall, hpk, hsrc, hcols, ?_,
    ⟨⟨hK.simple.one, hK.simple.roots⟩, hK.columns, hK.key, hK.single⟩⟩, ?_, hX.sub, ?_⟩
  · exact ⟨hck h, hcp h, fun hp n hn t kd td ht hd hm c hc => (hB.auto hp n (htab n hn) t kd td ht hd hm c hc).2.2⟩
  · refine ⟨hXok, hX.sub, fun m td hm => ?_, ?_, ?_, hr.differ, hB.circles, hr.srcCircles, fun n hn => ?_, ?_, ?_, ?_⟩
    · rcases hX.cases hm with g | ⟨g, -⟩
      · exact .inl g
      · obtain ⟨-, -, n', g1, t', g2, g3, g4⟩ := hX.each td g
        exact .inr ⟨n', g1, g3⟩
    · intro n hn k hk t ht
      obtain ⟨kd, g1, m, td, g2, g3⟩ := hX.all n hn
      rw [hXok.name_eq m td g2] at g2
      subst g3
      exact ⟨_, td, hn, hk, ht, g1, ⟨n, hn, _, g1, .inl ⟨hcreate, rfl⟩⟩, g2⟩
    · intro n k kd t td hc
      refine ⟨htwin n (htab n hc.planned) t kd td hc.source hc.dest hc.schema, ?_⟩
      obtain ⟨kd', g1, g2, -⟩ := hW.dest n (htab n hc.planned)
      rw [destOf_unique hc.dest g1]
      exact g2
    · rcases hn with hn | hn
      · exact hB.self n hn
      · exact hW.self n (htab n hn)
    · exact fun a fk b hfk n _ hn' hd td hm => hrefs a fk b hfk n (hpas n hn') hd td hm
    · rcases hW.dialect with g | g
      · exact .inl g
      · right
        refine List.eq_nil_iff_forall_not_mem.2 fun n hn => ?_
        have := hpas n hn
        dsimp only at g
        rw [g] at this
        cases this
    · intro hp n hn k t kd td hk ht hd hm c hc
      obtain ⟨g1, g2, g3⟩ := hautoX hp n (htab n hn) t kd td ht hd hm c hc
      refine ⟨?_, fun _ => g3⟩
      by_cases hnp : n ∈ j.plan.passthrough
      · exact hauto hp n hnp k t hk ht c g1 g2
      · obtain ⟨c', i1, -, i2, -⟩ := hK.key n hn hnp k t hk ht
        rw [i1, List.mem_singleton] at g1
        subst g1
        intro r hr
        obtain ⟨v, -, e⟩ := i2 r hr
        exact ⟨v, e⟩
  · refine ⟨hXok, hX.closed hok, hX.circles hok hr hcreate, fun n hn => ?_, htwin, hrefs, hautoX⟩
    obtain ⟨⟨m, td⟩, g1, g2⟩ := List.mem_map.1 hn
    dsimp only at g2
    subst g2
    rcases hX.cases g1 with g | ⟨g, rfl⟩
    · exact hB.self m (List.mem_map_of_mem (f := Prod.fst) g)
    · obtain ⟨-, -, n', i1, -, -, i3, -⟩ := hX.each td g
      obtain ⟨kd, i4, -, i5⟩ := hW.dest n' (htab n' i1)
      rw [destOf_unique i4 i3] at i5
      exact i5
  · intro m td hm
    rcases hX.cases hm with g | ⟨g, e⟩
    · exact .inl g
    · obtain ⟨-, -, n', g1, t', g2, g3, g4⟩ := hX.each td g
      exact .inr ⟨n', g1, t', g2, g3, e, g4⟩

end Subsetter
