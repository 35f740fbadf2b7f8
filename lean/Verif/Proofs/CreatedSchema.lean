import Verif.Proofs.RunStarts

/- The tables of the destination after missing ones were created. -/
namespace Subsetter
open Spec Props

variable {σ : Type} {C : RunConfig} {D : Setting σ} {p : Plan} {S : DbState} {s : σ}

/-- `X` are the tables of the destination and copies `ts` of planned tables it did not have. -/
structure Creation (C : RunConfig) (D : Setting σ) (p : Plan) (ts : List TableMeta) (X : Dict Str TableMeta) : Prop where
  schema : X = D.dstDb ++ ts.map fun t => (t.schema ++ '.' :: t.name, t)
  nodup : (ts.map fun t => (t.schema, t.name)).Nodup
  each : ∀ t ∈ ts, ¬ InDb D.dstDb (t.schema, t.name) ∧ t.revForeignKeys = [] ∧ ∃ n ∈ dkeys p.queries, ∃ t0, (n, t0) ∈ D.srcDb ∧
    DestOf C.remap n (t.schema, t.name) ∧ CopyOf C.remap (dkeys p.queries) t0 t
  all : ∀ n ∈ dkeys p.queries, ∃ k, DestOf C.remap n k ∧ InDb X k

theorem created_schema (hok : RunOK C D p) (hfil : ∀ n fs, (n, fs) ∈ C.filters → fs = []) (honce : C.mult.multiplier ≤ 1)
    (hr : Runnable C D p) (hcr : C.create = true) : ∃ ts, Creation C D p ts (sample C D p S s).schema := by
  obtain ⟨r, h1, hraw⟩ := startRun_unfiltered hok hfil honce hr
  obtain ⟨ts, hts⟩ := createdTables_succeeds hok hr hcr h1 hraw
  have h2 : createStep C D r = .ok (D.dstDb ++ (D.setOrder ts).map (fun t => (t.key.str, t)), ⟨r.dest.remapped, trackTables r.dest.tables (D.setOrder ts), r.dest.extra⟩) := by
    unfold createStep
    rw [if_pos hcr, hts]
  have hsch : (sample C D p S s).schema = D.dstDb ++ (D.setOrder ts).map (fun t => (t.key.str, t)) := by
    simp only [sample, h1, h2]
    repeat' split
    all_goals rfl
  have hperm := D.setOrder_perm ts
  obtain ⟨-, -, -, -, -, -, hd⟩ := startRun_ok h1
  obtain ⟨hm, hl⟩ := destInit_ok hd
  have hT := destInit_tables hok.dst hd
  obtain ⟨hlo, -⟩ := loads_of_init hok.dst hl
  have hF := created_facts hT hm hts
  have hfa := startRun_facts hok.src h1
  rw [hsch]
  refine ⟨D.setOrder ts, rfl, (hperm.map _).nodup_iff.2 hF.nodup, fun t ht => ?_, fun n hn => ?_⟩
  · have ht' := hperm.mem_iff.1 ht
    obtain ⟨n, i1, k0, t0, i2, -, i3, i4, i6, i5⟩ := hF.each t ht'
    obtain ⟨g4, -⟩ := hfa.sub k0 t0 i4
    rw [show k0.1 ++ '.' :: k0.2 = n from parse_str i3] at g4
    exact ⟨created_fresh hok hcr h1 hts ht', i6, n, i1, t0, g4, i2, i5⟩
  · obtain ⟨k, g1, g2⟩ := hF.all n hn
    refine ⟨k, g1, ?_⟩
    rcases g2 with g2 | ⟨t, g2, g3⟩
    · obtain ⟨t, g3⟩ := Option.isSome_iff_exists.1 g2
      obtain ⟨m, g4⟩ := hlo.sub _ _ (dget_some_mem g3)
      exact ⟨m, t, List.mem_append.2 (.inl g4), hT.key_eq _ _ (dget_some_mem g3)⟩
    · exact ⟨_, t, List.mem_append.2 (.inr (List.mem_map.2 ⟨t, hperm.mem_iff.2 g2, rfl⟩)), g3⟩

namespace Creation

variable {ts : List TableMeta} {X : Dict Str TableMeta}

theorem cases (h : Creation C D p ts X) {m : Str} {td : TableMeta} (hm : (m, td) ∈ X) :
    (m, td) ∈ D.dstDb ∨ td ∈ ts ∧ m = td.schema ++ '.' :: td.name := by
  rw [h.schema] at hm
  rcases List.mem_append.1 hm with g | g
  · exact .inl g
  · obtain ⟨t, g1, g2⟩ := List.mem_map.1 g
    cases g2
    exact .inr ⟨g1, rfl⟩

theorem sub (h : Creation C D p ts X) : ∀ e ∈ D.dstDb, e ∈ X := by
  intro e he
  rw [h.schema]
  exact List.mem_append.2 (.inl he)

theorem mem (h : Creation C D p ts X) {td : TableMeta} (ht : td ∈ ts) : (td.schema ++ '.' :: td.name, td) ∈ X := by
  rw [h.schema]
  exact List.mem_append.2 (.inr (List.mem_map.2 ⟨td, ht, rfl⟩))

theorem dbOK (hok : RunOK C D p) (h : Creation C D p ts X) : DbOK X := by
  have hnd : ∀ t ∈ ts, '.' ∉ t.schema := by
    intro t ht
    obtain ⟨-, -, n, -, t0, -, hd, -⟩ := h.each t ht
    exact destOf_nodot hd
  refine ⟨?_, fun m td hm => ?_, fun m td hm => ?_, fun m td hm => ?_, fun m td hm fk hfk => ?_⟩
  · rw [h.schema, List.map_append, List.nodup_append, List.map_map]
    refine ⟨hok.dst.names_nodup, ?_, ?_⟩
    · refine List.Nodup.map_on ?_ (List.Nodup.of_map _ h.nodup)
      intro a ha b hb e
      exact List.inj_on_of_nodup_map h.nodup ha hb
        (str_inj (k := (a.schema, a.name)) (k' := (b.schema, b.name)) (hnd a ha) (hnd b hb) e)
    · rintro a ha b hb rfl
      obtain ⟨⟨m, t⟩, g1, g2⟩ := List.mem_map.1 ha
      obtain ⟨t', g3, g4⟩ := List.mem_map.1 hb
      dsimp only [Function.comp] at g2 g4
      subst g2
      refine (h.each t' g3).1 ⟨m, t, g1, str_inj (k := (t.schema, t.name)) (k' := (t'.schema, t'.name)) (hok.dst.no_dot m t g1) (hnd t' g3) ?_⟩
      exact (hok.dst.name_eq m t g1).symm.trans g4.symm
  · rcases h.cases hm with g | ⟨-, g⟩
    · exact hok.dst.name_eq m td g
    · exact g
  · rcases h.cases hm with g | ⟨g, -⟩
    · exact hok.dst.no_dot m td g
    · exact hnd td g
  · rcases h.cases hm with g | ⟨g, -⟩
    · exact hok.dst.no_rev m td g
    · exact (h.each td g).2.1
  · rcases h.cases hm with g | ⟨g, -⟩
    · exact hok.dst.fk_cols m td g fk hfk
    · obtain ⟨-, -, n, -, t0, g1, -, g2⟩ := h.each td g
      obtain ⟨fk0, g3, g4, g5, n', -, -, g6⟩ := forall₂_mem_right g2.fks hfk
      obtain ⟨g7, g8, -⟩ := hok.src.fk_cols n t0 g1 fk0 g3
      rw [g4, g5]
      exact ⟨g7, g8, destOf_nodot g6⟩

/-- A foreign key belongs to the old tables or is that of a planned table. -/
theorem fk_cases (h : Creation C D p ts X) {a b : Key} {fk : ForeignKey} (hfk : DbFk X a fk b) :
    DbFk D.dstDb a fk b ∨ (¬ InDb D.dstDb a ∧ ∃ n ∈ dkeys p.queries, ∃ t0, (n, t0) ∈ D.srcDb ∧ DestOf C.remap n a ∧
      ∃ fk0 ∈ t0.foreignKeys, fk.columns = fk0.columns ∧ fk.dstColumns = fk0.dstColumns ∧
        fk0.dstSchema ++ '.' :: fk0.dstTable ∈ dkeys p.queries ∧ DestOf C.remap (fk0.dstSchema ++ '.' :: fk0.dstTable) b) := by
  obtain ⟨m, td, h1, rfl, h2, rfl⟩ := hfk
  rcases h.cases h1 with g | ⟨g, -⟩
  · exact .inl ⟨m, td, g, rfl, h2, rfl⟩
  · obtain ⟨g1, -, n, g2, t0, g3, g4, g5⟩ := h.each td g
    obtain ⟨fk0, g6, g7, g8, n', g9, rfl, g10⟩ := forall₂_mem_right g5.fks h2
    exact .inr ⟨g1, n, g2, t0, g3, g4, fk0, g6, g7, g8, g9, g10⟩

theorem closed (hok : RunOK C D p) (h : Creation C D p ts X) : DbClosed X := by
  rintro a b ⟨m, td, fk, h1, h2, h3, h4⟩
  rcases h.fk_cases ⟨m, td, h1, h2, h3, h4⟩ with ⟨m', td', g1, g2, g3, g4⟩ | ⟨-, -, -, -, -, -, fk0, -, -, -, g1, g2⟩
  · obtain ⟨n, t, i1, i2⟩ := hok.closed a b ⟨m', td', fk, g1, g2, g3, g4⟩
    exact ⟨n, t, h.sub _ i1, i2⟩
  · obtain ⟨k, i1, i2⟩ := h.all _ g1
    rw [destOf_unique g2 i1]
    exact i2

/-- Tables do not refer to each other in a circle. -/
theorem circles (hok : RunOK C D p) (hr : Runnable C D p) (hcr : C.create = true) (h : Creation C D p ts X) (k : Key) :
    ¬ Relation.TransGen (DbRef X) k k := by
  have hstep : ∀ a b, DbRef X a b → DbRef D.dstDb a b ∨ (¬ InDb D.dstDb a ∧ ∃ ka kb, DbRef D.srcDb ka kb ∧
      ka.1 ++ '.' :: ka.2 ∈ dkeys p.queries ∧ kb.1 ++ '.' :: kb.2 ∈ dkeys p.queries ∧
      DestOf C.remap (ka.1 ++ '.' :: ka.2) a ∧ DestOf C.remap (kb.1 ++ '.' :: kb.2) b ∧ '.' ∉ ka.1 ∧ '.' ∉ kb.1) := by
    rintro a b ⟨m, td, fk, h1, h2, h3, h4⟩
    rcases h.fk_cases ⟨m, td, h1, h2, h3, h4⟩ with ⟨m', td', g1, g2, g3, g4⟩ | ⟨g1, n, g2, t0, g3, g4, fk0, g5, -, -, g6, g7⟩
    · exact .inl ⟨m', td', fk, g1, g2, g3, g4⟩
    · have e := hok.src.name_eq n t0 g3
      subst e
      exact .inr ⟨g1, (t0.schema, t0.name), (fk0.dstSchema, fk0.dstTable), ⟨_, t0, fk0, g3, rfl, g5, rfl⟩, g2, g6, g4, g7,
        hok.src.no_dot _ t0 g3, (hok.src.fk_cols _ t0 g3 fk0 g5).2.2⟩
  have hpath : ∀ a b, Relation.TransGen (DbRef X) a b →
      (InDb D.dstDb a ∧ InDb D.dstDb b ∧ Relation.TransGen (DbRef D.dstDb) a b) ∨ (¬ InDb D.dstDb a ∧ (InDb D.dstDb b ∨
        ∃ ka kb, ka.1 ++ '.' :: ka.2 ∈ dkeys p.queries ∧ kb.1 ++ '.' :: kb.2 ∈ dkeys p.queries ∧
        DestOf C.remap (ka.1 ++ '.' :: ka.2) a ∧ DestOf C.remap (kb.1 ++ '.' :: kb.2) b ∧ ('.' ∉ ka.1 ∧ '.' ∉ kb.1) ∧
        Relation.TransGen (fun a b => DbRef D.srcDb a b ∧
          a.1 ++ '.' :: a.2 ∈ dkeys p.queries ∧ b.1 ++ '.' :: b.2 ∈ dkeys p.queries) ka kb)) := by
    intro a b hab
    induction hab with
    | single hb =>
      rcases hstep _ _ hb with g | ⟨g1, ka, kb, g2, g3, g4, g5, g6, g7, g8⟩
      · left
        have g' := g
        obtain ⟨n, t, fk, i1, i2, -⟩ := g'
        exact ⟨⟨n, t, i1, i2⟩, hok.closed _ _ g, .single g⟩
      · exact .inr ⟨g1, .inr ⟨ka, kb, g3, g4, g5, g6, ⟨g7, g8⟩, .single ⟨g2, g3, g4⟩⟩⟩
    | @tail b c hab hbc ih =>
      rcases hstep _ _ hbc with g | ⟨g1, kb', kc, g2, g3, g4, g5, g6, g7, g8⟩
      · rcases ih with ⟨i1, i2, i3⟩ | ⟨i1, i2⟩
        · exact .inl ⟨i1, hok.closed _ _ g, i3.tail g⟩
        · exact .inr ⟨i1, .inl (hok.closed _ _ g)⟩
      · rcases ih with ⟨i1, i2, i3⟩ | ⟨i1, i2⟩
        · exact absurd i2 g1
        · rcases i2 with i2 | ⟨ka, kb, j1, j2, j3, j4, j6, j5⟩
          · exact absurd i2 g1
          · have e := hr.differ _ j2 _ g3 _ j4 g5
            have hkb : kb = kb' := str_inj j6.2 g7 e
            subst hkb
            exact .inr ⟨i1, .inr ⟨ka, kc, j1, g4, j3, g6, ⟨j6.1, g8⟩, j5.tail ⟨g2, g3, g4⟩⟩⟩
  intro hkk
  rcases hpath k k hkk with ⟨-, -, g⟩ | ⟨g1, g2 | ⟨ka, kb, j1, j2, j3, j4, j6, j5⟩⟩
  · exact hr.circles k g
  · exact g1 g2
  · have e : ka = kb := str_inj j6.1 j6.2 (hr.differ _ j1 _ j2 _ j3 j4)
    subst e
    exact hr.srcCircles hcr ka j5

end Creation

end Subsetter
