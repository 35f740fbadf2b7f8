import Verif.Proofs.RunSucceeds

/- The steps before copying succeed. -/
namespace Subsetter
open Spec Props

variable {σ : Type} {C : RunConfig} {D : Setting σ} {p : Plan} {S : DbState} {s : σ}

theorem validateFilters_nil {W : Outside σ Val} {T : Tables} : ∀ {fs : List (Str × List (FilterCfg Val))},
    (∀ n f, (n, f) ∈ fs → f = []) → validateFilters W T fs = .ok ()
  | [], _ => rfl
  | (n, f) :: fs, h => by
    unfold validateFilters
    rw [h n f (by simp)]
    exact validateFilters_nil fun n f hf => h n f (by simp [hf])

theorem namedColumns_nil {T : Tables} {pass : List Str} : ∀ {cs : List (Str × List Str)} {cc : Dict Key (List Str)},
    (∀ n c, (n, c) ∈ cs → c = []) → namedColumns T pass cs cc = .ok cc
  | [], _, _ => rfl
  | (n, c) :: cs, cc, h => by
    unfold namedColumns
    rw [h n c (by simp), if_pos rfl]
    exact namedColumns_nil fun n f hf => h n f (by simp [hf])

/-- Planned tables are loaded if they exist and their names match themselves. -/
theorem source_loaded (hsrc : DbOK D.srcDb) (hs : ∀ n ∈ dkeys p.queries, n ∈ dkeys D.srcDb ∧ D.fnmatch n n = true) :
    ∃ l, fromEngine D.fnmatch D.srcDb (dkeys p.queries) false false = some (some l) ∧
      ∀ n ∈ dkeys p.queries, ∃ k t, parseTableName n = some k ∧ dget l.tables k = some t ∧ (n, t) ∈ D.srcDb := by
  rcases fromEngine_spec (fnmatch := D.fnmatch) hsrc (dkeys p.queries) false false with
    ⟨l, h1, h2, -, h4, h5⟩ | ⟨-, a, b, h1, h2, h3⟩
  · refine ⟨l, h1, fun n hn => ?_⟩
    obtain ⟨g1, g2⟩ := hs n hn
    obtain ⟨⟨n', t⟩, g3, rfl⟩ := List.mem_map.1 g1
    dsimp only at g2 hn ⊢
    have hm : (t.schema, t.name) ∈ l.tables.map Prod.fst :=
      (h5 _).2 ⟨_, ⟨n', t, g3, rfl, n', hn, g2⟩, .refl⟩
    obtain ⟨⟨k, t'⟩, g4, g5⟩ := List.mem_map.1 hm
    dsimp only at g5
    subst g5
    obtain ⟨⟨n2, g6⟩, g7⟩ := h4 _ _ g4
    have e1 := hsrc.name_eq n' t g3
    have e2 := hsrc.name_eq n2 t' g6
    obtain ⟨e3, e4⟩ := Prod.mk.inj g7
    have e5 : n2 = n' := by rw [e1, e2, e3, e4]
    subst e5
    refine ⟨_, t', ?_, dget_of_mem h2 g4, g6⟩
    rw [e1]
    exact parse_of_nodot (k := (t.schema, t.name)) (hsrc.no_dot _ _ g3)
  · exfalso
    apply h3
    rcases Relation.ReflTransGen.cases_tail h2 with rfl | ⟨c, -, h⟩
    · obtain ⟨n, t, g1, g2, -⟩ := h1
      exact ⟨n, t, g1, g2⟩
    · rcases h with ⟨h, -⟩ | ⟨h, -⟩ <;> cases h

theorem startRun_unfiltered (hok : RunOK C D p) (hfil : ∀ n fs, (n, fs) ∈ C.filters → fs = []) (honce : C.mult.multiplier ≤ 1)
    (hr : Runnable C D p) :
    ∃ r, startRun C D p = .ok r ∧ ∀ n ∈ dkeys p.queries, ∃ k t, parseTableName n = some k ∧ dget r.raw k = some t ∧
      (n, t) ∈ D.srcDb := by
  obtain ⟨l, h1, h2⟩ := source_loaded hok.src hr.source
  obtain ⟨x, hx⟩ : ∃ x, destInit D.fnmatch D.dstDb C.remap (dkeys p.queries) = .ok x := by
    cases hx : destInit D.fnmatch D.dstDb C.remap (dkeys p.queries) with
    | ok x => exact ⟨x, rfl⟩
    | error e =>
      rcases c37_refused hok.dst hx with ⟨-, n, g1, g2⟩ | ⟨n, g1, n', g2, g3, k, g4, g5, -⟩
      · obtain ⟨k, hk⟩ := hr.dest n g1
        exact absurd hk (g2 k)
      · exact absurd (hr.differ n' g2 n g1 k g5 g4) g3
  refine ⟨⟨l.tables, inferStep C.infer l.tables, [], x⟩, ?_, h2⟩
  unfold startRun
  rw [h1]; dsimp only
  rw [validateFilters_nil hfil]; dsimp only
  rw [c28_no_multiplier _ (by omega)]; dsimp only
  rw [hx]

theorem startRun_succeeds (hok : RunOK C D p) (hpl : Plain C) (hr : Runnable C D p) :
    ∃ r, startRun C D p = .ok r ∧ ∀ n ∈ dkeys p.queries, ∃ k t, parseTableName n = some k ∧ dget r.raw k = some t ∧
      (n, t) ∈ D.srcDb :=
  startRun_unfiltered hok hpl.filters hpl.once hr

/-! ### Creation -/

theorem tableObjs_succeeds {src T : Tables} : ∀ {m : Dict Str Str},
    (∀ r n, (r, n) ∈ m → (∃ k, parseTableName r = some k) ∧ ∃ k0 t0, parseTableName n = some k0 ∧ dget src k0 = some t0) →
    ∃ objs, tableObjs src T m = .ok objs
  | [], _ => ⟨[], rfl⟩
  | (r, n) :: rest, h => by
    obtain ⟨⟨k, h1⟩, k0, t0, h2, h3⟩ := h r n (by simp)
    obtain ⟨l, hl⟩ := tableObjs_succeeds (src := src) (T := T) (m := rest) fun r n hm => h r n (by simp [hm])
    unfold tableObjs
    rw [h1]; dsimp only
    cases h4 : dget T k with
    | some t => dsimp only; rw [hl]; exact ⟨_, rfl⟩
    | none =>
      dsimp only
      rw [h2]; dsimp only
      rw [h3]; dsimp only
      rw [hl]; exact ⟨_, rfl⟩

theorem copyFks_succeeds {objs : List (Str × TableMeta × Bool)} : ∀ {fks : List ForeignKey},
    (∀ fk ∈ fks, ∃ t b, dget objs fk.dst.str = some (t, b) ∧ ∀ c ∈ fk.dstColumns, c ∈ t.columns) →
    ∃ l, copyFks objs fks = .ok l
  | [], _ => ⟨[], rfl⟩
  | fk :: fks, h => by
    obtain ⟨t, b, h1, h2⟩ := h fk (by simp)
    obtain ⟨l, hl⟩ := copyFks_succeeds (objs := objs) (fks := fks) fun fk hf => h fk (by simp [hf])
    unfold copyFks
    rw [h1]; dsimp only
    rw [if_pos (by simpa using h2), hl]
    exact ⟨_, rfl⟩

theorem createLoop_succeeds {src : Tables} {objs : List (Str × TableMeta × Bool)} :
    ∀ {l : List (Str × TableMeta × Bool)}, (∀ n t, (n, t, true) ∈ l → ∃ k0 t0 fks, parseTableName n = some k0 ∧
      dget src k0 = some t0 ∧ copyFks objs t0.foreignKeys = .ok fks) → ∃ ts, createLoop src objs l = .ok ts
  | [], _ => ⟨[], rfl⟩
  | (n, t, false) :: rest, h => by
    unfold createLoop
    exact createLoop_succeeds fun n t hm => h n t (by simp [hm])
  | (n, t, true) :: rest, h => by
    obtain ⟨k0, t0, fks, h1, h2, h3⟩ := h n t (by simp)
    obtain ⟨ts, hts⟩ := createLoop_succeeds (src := src) (objs := objs) (l := rest) fun n t hm => h n t (by simp [hm])
    unfold createLoop
    rw [h1]; dsimp only
    rw [h2]; dsimp only
    rw [h3]; dsimp only
    rw [hts]
    exact ⟨_, rfl⟩

theorem forall₂_map_fst {α β γ : Type*} {R : α → β → Prop} {f : α → γ} {g : β → γ} (hR : ∀ a b, R a b → g b = f a)
    {l : List α} {l' : List β} (h : List.Forall₂ R l l') : l'.map g = l.map f := by
  induction h with
  | nil => rfl
  | cons h _ ih => rw [List.map_cons, List.map_cons, ih, hR _ _ h]

theorem createdTables_succeeds (hok : RunOK C D p) (hr : Runnable C D p) (hcr : C.create = true) {r : Started}
    (h : startRun C D p = .ok r) (hraw : ∀ n ∈ dkeys p.queries, ∃ k t, parseTableName n = some k ∧ dget r.raw k = some t ∧
      (n, t) ∈ D.srcDb) : ∃ ts, createdTables r.raw r.dest = .ok ts := by
  obtain ⟨-, -, -, -, -, -, hd⟩ := startRun_ok h
  obtain ⟨hm, hl⟩ := destInit_ok hd
  have hT := destInit_tables hok.dst hd
  obtain ⟨hnd, hall, hback⟩ := remapped_facts hm
  obtain ⟨hlo, hk⟩ := loads_of_init hok.dst hl
  obtain ⟨objs, ho⟩ := tableObjs_succeeds (src := r.raw) (T := r.dest.tables) (m := r.dest.remapped) (by
    intro a n hm
    obtain ⟨g1, k, g2, g3⟩ := hback a n (dget_of_mem hnd hm)
    refine ⟨⟨k, by rw [← g3]; exact parse_of_nodot (destOf_nodot g2)⟩, ?_⟩
    obtain ⟨k0, t0, g4, g5, -⟩ := hraw n g1
    exact ⟨k0, t0, g4, g5⟩)
  have hobj := tableObjs_ok ho
  have hnames : objs.map Prod.fst = r.dest.remapped.map Prod.snd := forall₂_map_fst (fun a b h => h.1) hobj
  -- an entry of `objs` for each planned table
  have hnd2 : (objs.map Prod.fst).Nodup := by
    rw [hnames]
    refine List.Nodup.map_on ?_ (List.Nodup.of_map _ hnd)
    rintro ⟨a, n⟩ h1 ⟨b, n'⟩ h2 e
    dsimp only at e
    subst e
    obtain ⟨-, k, g2, g3⟩ := hback a n (dget_of_mem hnd h1)
    obtain ⟨-, k', g4, g5⟩ := hback b n (dget_of_mem hnd h2)
    rw [← g3, ← g5, destOf_unique g2 g4]
  have hself := hok.self hcr
  have hin : ∀ n ∈ dkeys p.queries, ∀ k, DestOf C.remap n k → InDb D.dstDb k → (dget r.dest.tables k).isSome := by
    rintro n hn k hk' ⟨m, t, g1, g2⟩
    obtain ⟨k', g3, g4⟩ := hall n hn
    rw [destOf_unique g3 hk'] at g4
    have e : m = k.str := by rw [hok.dst.name_eq m t g1, ← g2]; rfl
    obtain ⟨t', ht'⟩ := (hk k).2 ⟨k, ⟨m, t, g1, g2, m, by rw [e]; exact List.mem_map.2 ⟨_, dget_some_mem g4, rfl⟩,
      hself m (List.mem_map_of_mem (f := Prod.fst) g1)⟩, .refl⟩
    exact dget_isSome_iff.2 (List.mem_map.2 ⟨_, ht', rfl⟩)
  obtain ⟨ts, hts⟩ := createLoop_succeeds (src := r.raw) (objs := objs) (l := objs) (by
    intro n t hnt
    obtain ⟨⟨a, n'⟩, g1, g2, k, g3, g4⟩ := forall₂_mem_right hobj hnt
    dsimp only at g2 g3 g4
    subst g2
    rcases g4 with ⟨g4, -⟩ | ⟨-, g4, k0, t0, g5, g6, g7⟩
    · cases g4
    obtain ⟨f1, k', f2, f3⟩ := hback a n (dget_of_mem hnd g1)
    have hkk : k' = k := by
      have := parse_of_nodot (destOf_nodot f2)
      rw [f3, g3] at this
      exact (Option.some.inj this).symm
    subst hkk
    obtain ⟨k1, t1, e1, e2, e3⟩ := hraw n f1
    rw [g5] at e1; cases e1
    rw [g6] at e2; cases e2
    have hno : ∀ d, DestOf C.remap n d → ¬ InDb D.dstDb d := by
      intro d hd' hin'
      have := hin n f1 d hd' hin'
      rw [← destOf_unique f2 hd', g4] at this
      cases this
    obtain ⟨fks, hf⟩ := copyFks_succeeds (objs := objs) (fks := t0.foreignKeys) (by
      intro fk hfk
      obtain ⟨i1, i2, i3⟩ := hr.keys hcr n f1 t0 e3 hno fk hfk
      obtain ⟨kd, j1, j2⟩ := hall _ i1
      obtain ⟨⟨n2, t2, b2⟩, j3, j4, k2, j5, j6⟩ := forall₂_mem_left hobj (dget_some_mem j2)
      dsimp only at j4 j5 j6
      subst j4
      refine ⟨t2, b2, dget_of_mem hnd2 j3, ?_⟩
      have hk2 : kd = k2 := by
        have := parse_of_nodot (destOf_nodot j1)
        rw [j5] at this
        exact (Option.some.inj this).symm
      subst hk2
      rcases j6 with ⟨-, j6⟩ | ⟨-, -, k3, t3, j7, j8, j9⟩
      · obtain ⟨n3, hn3⟩ := hlo.sub _ _ (dget_some_mem j6)
        exact i3 kd n3 t2 j1 hn3 (hT.key_eq _ _ (dget_some_mem j6))
      · obtain ⟨k4, t4, l1, l2, l3⟩ := hraw _ i1
        rw [j7] at l1; cases l1
        rw [j8] at l2; cases l2
        rw [j9]
        exact i2 t3 l3)
    exact ⟨k0, t0, fks, g5, g6, hf⟩)
  exact ⟨ts, by unfold createdTables; rw [ho]; exact hts⟩

/-- Created tables are not part of the database before. -/
theorem created_fresh (hok : RunOK C D p) (hcr : C.create = true) {r : Started} (h : startRun C D p = .ok r)
    {ts : List TableMeta} (hc : createdTables r.raw r.dest = .ok ts) {t : TableMeta} (ht : t ∈ ts) :
    ¬ InDb D.dstDb t.key := by
  obtain ⟨-, -, -, -, -, -, hd⟩ := startRun_ok h
  obtain ⟨hm, hl⟩ := destInit_ok hd
  have hT := destInit_tables hok.dst hd
  obtain ⟨hlo, hk⟩ := loads_of_init hok.dst hl
  obtain ⟨-, hall, -⟩ := remapped_facts hm
  rintro ⟨m, t0, g1, g2⟩
  obtain ⟨n, hn, k0, t1, hd', hno, -⟩ := (created_facts hT hm hc).each t ht
  obtain ⟨k', g3, g4⟩ := hall n hn
  rw [destOf_unique g3 hd'] at g4
  have e : m = t.key.str := by rw [hok.dst.name_eq m t0 g1, ← g2]; rfl
  obtain ⟨t', ht'⟩ := (hk t.key).2 ⟨t.key, ⟨m, t0, g1, g2, m, by rw [e]; exact List.mem_map.2 ⟨_, dget_some_mem g4, rfl⟩,
    hok.self hcr m (List.mem_map_of_mem (f := Prod.fst) g1)⟩, .refl⟩
  rw [dget_of_mem hT.keys_nodup ht'] at hno
  cases hno

/-- The tables loaded of the destination do not refer to each other in a circle. -/
theorem no_circle (hok : RunOK C D p) (hr : Runnable C D p) {r : Started} (h1 : startRun C D p = .ok r)
    {db : Dict Str TableMeta} {x : DestMeta} (h2 : createStep C D r = .ok (db, x)) (k : Key) :
    ¬ Relation.TransGen (Ref x.tables) k k := by
  have hf := prepared_run hok h1 h2
  have hold : ∀ {T : Tables}, TablesOK T → (∀ k t, (k, t) ∈ T → ∃ n, (n, t) ∈ D.dstDb) → ∀ a b, Ref T a b →
      DbRef D.dstDb a b := by
    rintro T hT hsub a b ⟨fk, t, g1, g2, g3⟩
    obtain ⟨n, hn⟩ := hsub a t g1
    exact ⟨n, t, fk, hn, hT.key_eq a t g1, g2, g3⟩
  obtain ⟨-, -, -, -, -, -, hd⟩ := startRun_ok h1
  obtain ⟨hm, hl⟩ := destInit_ok hd
  have hT := destInit_tables hok.dst hd
  obtain ⟨hlo, -⟩ := loads_of_init hok.dst hl
  have h2' := h2
  unfold createStep at h2
  split at h2
  · rename_i hcr
    cases hc : createdTables r.raw r.dest with
    | error e => rw [hc] at h2; cases h2
    | ok ts =>
      rw [hc] at h2
      cases h2
      have hF := created_facts hT hm hc
      have hperm := D.setOrder_perm ts
      have hnd : ((D.setOrder ts).map TableMeta.key).Nodup := (hperm.map _).nodup_iff.2 hF.nodup
      have hfa := startRun_facts hok.src h1
      -- a step starts at a created table and follows a foreign key of the source, or it stays in the old database
      have hstep : ∀ a b, Ref (trackTables r.dest.tables (D.setOrder ts)) a b →
          (DbRef D.dstDb a b) ∨ (¬ InDb D.dstDb a ∧ ∃ ka kb, DbRef D.srcDb ka kb ∧
            ka.1 ++ '.' :: ka.2 ∈ dkeys p.queries ∧ kb.1 ++ '.' :: kb.2 ∈ dkeys p.queries ∧
            DestOf C.remap (ka.1 ++ '.' :: ka.2) a ∧ DestOf C.remap (kb.1 ++ '.' :: kb.2) b ∧ '.' ∉ ka.1 ∧ '.' ∉ kb.1) := by
        rintro a b ⟨fk, t, g1, g2, g3⟩
        rcases (trackTables_get hnd a t).1 (dget_of_mem hf.tables.keys_nodup g1) with ⟨g4, g5⟩ | ⟨-, g4⟩
        · right
          subst g5
          have g6 := hperm.mem_iff.1 g4
          refine ⟨created_fresh hok hcr h1 hc g6, ?_⟩
          obtain ⟨n, i1, k0, t0, i2, -, i3, i4, -, i5⟩ := hF.each t g6
          obtain ⟨fk0, j1, -, -, n', j2, rfl, j3⟩ := forall₂_mem_right i5.fks g2
          obtain ⟨j4, j5⟩ := hfa.sub k0 t0 i4
          have en : n = k0.1 ++ '.' :: k0.2 := (parse_str i3).symm
          rw [en] at i1 i2
          exact ⟨k0, (fk0.dstSchema, fk0.dstTable), ⟨_, t0, fk0, j4, j5, j1, rfl⟩, i1, j2, i2, by rw [← g3]; exact j3,
            parse_fst_nodot i3, (hok.src.fk_cols _ t0 j4 fk0 j1).2.2⟩
        · left
          exact hold hT hlo.sub a b ⟨fk, t, dget_some_mem g4, g2, g3⟩
      have hpath : ∀ a b, Relation.TransGen (Ref (trackTables r.dest.tables (D.setOrder ts))) a b →
          (InDb D.dstDb a ∧ InDb D.dstDb b ∧ Relation.TransGen (DbRef D.dstDb) a b) ∨ (¬ InDb D.dstDb a ∧ (InDb D.dstDb b ∨
            ∃ ka kb, ka.1 ++ '.' :: ka.2 ∈ dkeys p.queries ∧ kb.1 ++ '.' :: kb.2 ∈ dkeys p.queries ∧
            DestOf C.remap (ka.1 ++ '.' :: ka.2) a ∧ DestOf C.remap (kb.1 ++ '.' :: kb.2) b ∧ ('.' ∉ ka.1 ∧ '.' ∉ kb.1) ∧
            Relation.TransGen (fun a b => DbRef D.srcDb a b ∧
              a.1 ++ '.' :: a.2 ∈ dkeys p.queries ∧ b.1 ++ '.' :: b.2 ∈ dkeys p.queries) ka kb)) := by
        intro a b hab
        induction hab with
        | single hb =>
          rcases hstep _ _ hb with g | ⟨g1, ka, kb, g2, g3, g4, g5, g6, g7, g8⟩
          · left
            have g' := g
            obtain ⟨n, t, fk, i1, i2, -⟩ := g'
            exact ⟨⟨n, t, i1, i2⟩, hok.closed _ _ g, .single g⟩
          · exact .inr ⟨g1, .inr ⟨ka, kb, g3, g4, g5, g6, ⟨g7, g8⟩, .single ⟨g2, g3, g4⟩⟩⟩
        | @tail b c hab hbc ih =>
          rcases hstep _ _ hbc with g | ⟨g1, kb', kc, g2, g3, g4, g5, g6, g7, g8⟩
          · rcases ih with ⟨i1, i2, i3⟩ | ⟨i1, i2⟩
            · exact .inl ⟨i1, hok.closed _ _ g, i3.tail g⟩
            · exact .inr ⟨i1, .inl (hok.closed _ _ g)⟩
          · rcases ih with ⟨i1, i2, i3⟩ | ⟨i1, i2⟩
            · exact absurd i2 g1
            · rcases i2 with i2 | ⟨ka, kb, j1, j2, j3, j4, j6, j5⟩
              · exact absurd i2 g1
              · have e := remapped_inj hm j2 g3 j4 g5
                have hkb : kb = kb' := str_inj j6.2 g7 e
                subst hkb
                exact .inr ⟨i1, .inr ⟨ka, kc, j1, g4, j3, g6, ⟨j6.1, g8⟩, j5.tail ⟨g2, g3, g4⟩⟩⟩
      intro hkk
      rcases hpath k k hkk with ⟨-, -, g⟩ | ⟨g1, g2 | ⟨ka, kb, j1, j2, j3, j4, j6, j5⟩⟩
      · exact hr.circles k g
      · exact g1 g2
      · have e : ka = kb := str_inj j6.1 j6.2 (remapped_inj hm j1 j2 j3 j4)
        subst e
        exact hr.srcCircles hcr ka j5
  · cases h2
    intro hkk
    exact hr.circles k (Relation.TransGen.mono (hold hT hlo.sub) k k hkk)

/-- A table copied to one that did not exist is copied to a copy of itself. -/
theorem created_copyOf (hok : RunOK C D p) {r : Started} (h1 : startRun C D p = .ok r) {db : Dict Str TableMeta}
    {x : DestMeta} (h2 : createStep C D r = .ok (db, x)) {n : Str} {k kd : Key} {t td : TableMeta}
    (hc : Copied C D p db n k kd t td) (hnew : kd.1 ++ '.' :: kd.2 ∉ dkeys D.dstDb) :
    CopyOf C.remap (dkeys p.queries) t td ∧ (td.schema, td.name) = kd := by
  have hf := prepared_run hok h1 h2
  obtain ⟨-, -, -, -, -, -, hd⟩ := startRun_ok h1
  obtain ⟨hm, hl⟩ := destInit_ok hd
  have hT := destInit_tables hok.dst hd
  have hfa := startRun_facts hok.src h1
  have hs := hc.schema
  unfold createStep at h2
  split at h2
  · cases hct : createdTables r.raw r.dest with
    | error e => rw [hct] at h2; cases h2
    | ok ts =>
      rw [hct] at h2
      cases h2
      have hF := created_facts hT hm hct
      rcases List.mem_append.1 hs with g | g
      · exact absurd (List.mem_map_of_mem (f := Prod.fst) g) hnew
      · obtain ⟨t', g1, g2⟩ := List.mem_map.1 g
        obtain ⟨g3, rfl⟩ := Prod.mk.inj g2
        obtain ⟨n', i1, k0, t0, i2, -, i3, i4, -, i5⟩ := hF.each t' ((D.setOrder_perm ts).mem_iff.1 g1)
        have hk : t'.key = kd := str_inj (destOf_nodot i2) (destOf_nodot hc.dest) g3
        rw [hk] at i2
        have hn : n' = n := remapped_inj hm i1 hc.planned i2 hc.dest
        subst hn
        obtain ⟨g4, -⟩ := hfa.sub k0 t0 i4
        have g5 : dget D.srcDb (Key.str k0) = some t0 := dget_of_mem hok.src.names_nodup g4
        have g6 := dget_of_mem hok.src.names_nodup hc.source
        rw [parse_str i3, g6] at g5
        cases g5
        exact ⟨i5, hk⟩
  · cases h2
    exact absurd (List.mem_map_of_mem (f := Prod.fst) hs) hnew

/-- All steps before copying succeed. -/
theorem steps_exist (hok : RunOK C D p) (hpl : Plain C) (hr : Runnable C D p) :
    ∃ r db x order states offs compact mat temps, Steps C D p S r db x order states offs compact mat temps := by
  obtain ⟨r, h1, hraw⟩ := startRun_succeeds hok hpl hr
  obtain ⟨db, x, h2⟩ : ∃ db x, createStep C D r = .ok (db, x) := by
    unfold createStep
    by_cases hcr : C.create = true
    · obtain ⟨ts, hts⟩ := createdTables_succeeds hok hr hcr h1 hraw
      rw [if_pos hcr, hts]
      exact ⟨_, _, rfl⟩
    · rw [if_neg hcr]
      exact ⟨_, _, rfl⟩
  have hf := prepared_run hok h1 h2
  obtain ⟨tp, h3⟩ : ∃ ts, metaToposort x.tables = .ok ts := by
    rcases metaToposort_spec hf.tables with ⟨ts, g1, -⟩ | ⟨-, a, g1⟩
    · exact ⟨ts, g1⟩
    · exact absurd (Relation.TransGen.mono (fun _ _ h => h.1) a a g1) (no_circle hok hr h1 h2 a)
  obtain ⟨order, h4⟩ : ∃ order, insertOrder x = .ok order := by
    unfold insertOrder; rw [h3]; exact ⟨_, rfl⟩
  obtain ⟨states, h5⟩ : ∃ states, truncateStep C x S = .ok states := by
    unfold truncateStep truncate
    split
    · rw [h3]; exact ⟨_, rfl⟩
    · exact ⟨_, rfl⟩
  have h6 : prepareStep C r.tables x ((states.reverse ++ [S]).head?.getD S) p = .ok [] := by
    unfold prepareStep
    rw [hpl.merge]
    rfl
  have h7 : getCompactColumns r.tables p.passthrough C.compact = .ok [] := by
    unfold getCompactColumns
    rw [namedColumns_nil hpl.compactColumns, hpl.compactKeys.1, hpl.compactKeys.2]
    rfl
  have hfa := startRun_facts hok.src h1
  have hkn : ∀ n ∈ dkeys p.queries, ∃ k, parseTableName n = some k ∧ (dget r.tables k).isSome := by
    intro n hn
    obtain ⟨k, t, g1, g2, -⟩ := hraw n hn
    exact ⟨k, g1, dget_isSome_iff.2 (by rw [hfa.same.keys]; exact dget_isSome_iff.1 (by rw [g2]; rfl))⟩
  have hpo : PlanOK r.tables p := by
    refine ⟨hok.plan, fun n q hn => hkn n (List.mem_map_of_mem (f := Prod.fst) hn), fun k q hq y hy => ?_, fun k d hd => ?_⟩
    · obtain ⟨q', n, g1, g2⟩ := hr.refs k q hq y hy
      obtain ⟨k', g3, g4⟩ := hkn n (List.mem_map_of_mem (f := Prod.fst) g1)
      rw [g2] at g3
      cases g3
      exact g4
    · obtain ⟨q, hq, y, hy, -, rfl⟩ := hd
      exact hr.refs k q hq y hy
  obtain ⟨mat, temps, h8, h9, -⟩ := Subsetter.materialized hpo hr.acyclic D.engine [] D.src D.reopen
  exact ⟨r, db, x, order, states, [], [], mat, temps, h1, h2, h4, h5, h6, h7, h8, h9⟩

/-- The run succeeds if the destination accepts the sample. -/
theorem sample_succeeds (hok : RunOK C D p) (hpl : Plain C) (hr : Runnable C D p) {B : DbState} {Smp : Key → List Row}
    (hb : Begins C D p S B) (hsmp : IsSample D.engine (dbTables D.srcDb) D.src p Smp)
    (ha : Accepts C D p (sample C D p S s).schema B Smp) : (sample C D p S s).err = none := by
  obtain ⟨r, db, x, order, states, offs, compact, mat, temps, hst⟩ := steps_exist (S := S) hok hpl hr
  have hrun : sample C D p S s = ⟨db, (copyAll D.world D.dialect (readTable C D r x offs compact p temps) order (states.reverse ++ [S]) s).1,
      (copyAll D.world D.dialect (readTable C D r x offs compact p temps) order (states.reverse ++ [S]) s).2.1,
      (copyAll D.world D.dialect (readTable C D r x offs compact p temps) order (states.reverse ++ [S]) s).2.2⟩ := by
    simp only [sample, hst.start, hst.create, hst.order, hst.truncate, hst.prepare, hst.compacted, hst.ordered, hst.materialized]
  rw [hrun] at ha ⊢
  exact hst.succeeds hpl hok hb hsmp ha

end Subsetter
