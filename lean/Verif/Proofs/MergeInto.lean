import Verif.Props.RunWorks
import Verif.Props.Conflict
import Verif.Spec.MergeInto

/- Merging samples into a database that has the same tables as the source. -/
namespace Subsetter
open Spec Props

variable {σ : Type} {C : RunConfig} {D : Setting σ} {p : Plan} {S : DbState} {s : σ}

theorem Spec.MergeOnly.not_compacts (hC : MergeOnly C) : ¬ Compacts C := by
  rintro (h | h | ⟨n, cs, c, h1, h2⟩)
  · rw [hC.compactKeys.1] at h; cases h
  · rw [hC.compactKeys.2] at h; cases h
  · rw [hC.compactColumns n cs h1] at h2; cases h2

theorem Spec.MergeOnly.merges (hC : MergeOnly C) : Merges C :=
  ⟨hC.filters, hC.compactColumns, hC.startKey, hC.once, hC.infer, hC.merge, hC.truncate, hC.strategy⟩

theorem Spec.Merges.not_multiplied (hC : Merges C) {n c : Str} : ¬ Multiplied C D p n c := by
  intro h
  have := h.1
  have := hC.once
  omega

theorem Spec.Merges.times (hC : Merges C) (n : Str) : timesWritten C p n = 1 := by
  unfold timesWritten
  rw [if_neg]
  intro h
  have := hC.once
  omega

theorem Spec.Merges.filtersOf (hC : Merges C) (n : Str) : filtersOf C n = [] := by
  unfold Spec.filtersOf
  cases h : dget C.filters n with
  | none => rfl
  | some fs => exact hC.filters n fs (dget_some_mem h)

theorem forall₂_chain {α β γ : Type*} {R : α → β → Prop} {Q : β → γ → Prop} {P : α → γ → Prop} {l : List α} {m : List β} {n : List γ}
    (h : List.Forall₂ R l m) (h' : List.Forall₂ Q m n) (hP : ∀ a b c, R a b → Q b c → P a c) : List.Forall₂ P l n := by
  induction h generalizing n with
  | nil => cases h'; exact .nil
  | cons h1 _ ih =>
    cases h' with
    | cons h2 h3 => exact .cons (hP _ _ _ h1 h2) (ih h3)

theorem forall₂_mem {α β : Type*} {R P : α → β → Prop} {l : List α} {m : List β} (h : List.Forall₂ R l m)
    (hP : ∀ a b, a ∈ l → R a b → P a b) : List.Forall₂ P l m := by
  induction h with
  | nil => exact .nil
  | cons h1 _ ih => exact .cons (hP _ _ (List.mem_cons_self ..) h1) (ih fun a b ha => hP a b (List.mem_cons_of_mem _ ha))

theorem zip_forall₂ {α β γ : Type*} {R : α × β → γ → Prop} {P : β → γ → Prop} {l : List α} {m : List β} {n : List γ}
    (hl : l.length = m.length) (h : List.Forall₂ R (l.zip m) n) (hP : ∀ a b c, R (a, b) c → P b c) : List.Forall₂ P m n := by
  have : List.Forall₂ (fun x c => P x.2 c) (l.zip m) n := h.imp fun x c hx => hP x.1 x.2 c hx
  rw [← List.map_snd_zip (show m.length ≤ l.length by omega), List.forall₂_map_left_iff]
  exact this

/-- What is sent when rows are merged. -/
theorem merge_rows (hC : Merges C) {schema : Dict Str TableMeta} {B : DbState}
    {Smp : Key → List Row} {ids : Key → List Int} {T : Tables} {mult : Dict Str (List Str)}
    {compact : Dict Key (List Str)} {offs : Dict Key (Dict Str Int)}
    (hder : Derived C D p schema B T mult compact offs) {n : Str} {k kd : Key} {t td : TableMeta}
    (hids : (ids k).length = (Smp k).length)
    (hnd : t.columns.Nodup) {ch : Chain Val} {rows : List Row} {outs : List (List Val)}
    (h : Sent C D p T mult compact offs Smp ids n k kd t td ch rows outs)
    (hlen : outs.length = rows.length * timesWritten C p n) (hcm : (target D kd td).computed = [])
    (huniq : ∀ c d dc, PointsTo T compact k c d dc → ¬ IsCompacted compact k c → UniqueIn (Smp d) dc) :
    writtenColumns ch (target D kd td) = t.columns ∧
    List.Forall₂ (fun x out => ∃ row, CompactedRow T compact Smp ids k t.columns x.2 x.1 row ∧ ∀ c ∈ t.columns,
      valueOf t.columns out c = some (shiftVal (dget ((dget offs kd).getD []) c) (row.get c))) ((ids k).zip (Smp k)) outs := by
  have hmu : ∀ c, c ∉ (dget mult n).getD [] := by
    intro c hc
    have := ((hder.mult n c).1 hc).1
    have := hC.once
    omega
  have hfl : (dget C.filters n).getD [] = [] := hC.filtersOf n
  have hfi := h.filter
  rw [hfl] at hfi
  have hch : ch = ⟨t.columns, t.columns, []⟩ := by
    unfold constructFilter constructLoop at hfi
    cases hfi; rfl
  have hrows := h.compacted huniq
  obtain ⟨s0, -, ss, -, hwr⟩ := h.written
  rw [hC.times n] at hwr hlen
  rw [Nat.mul_one] at hlen
  have hl1 : rows.length = (Smp k).length := by
    have := hrows.length_eq
    rw [List.length_zip, hids, Nat.min_self] at this
    exact this.symm
  have hw : writtenColumns ch (target D kd td) = t.columns := by
    unfold writtenColumns
    rw [hch, hcm]
    simp
  refine ⟨hw, List.forall₂_iff_get.2 ⟨by rw [hrows.length_eq]; omega, fun i hi hi2 => ?_⟩⟩
  have hi1 : i < rows.length := by omega
  have hc := hwr i 0 (t.columns.map (rows[i]).get) outs[i] (by rw [List.getElem?_map, List.getElem?_eq_getElem hi1]; rfl)
    (by omega) (by rw [Nat.mul_one, Nat.add_zero]; exact List.getElem?_eq_getElem hi2)
  obtain ⟨f, hc1, hc2, hc3⟩ := hc
  have hf : f = t.columns.map (rows[i]).get := by
    rw [hch] at hc1
    unfold Chain.run runViews at hc1
    exact (Prod.mk.inj (Except.ok.inj hc1)).1.symm
  refine ⟨rows[i], hrows.get (i := i) hi hi1, fun c hct => ?_⟩
  obtain ⟨v, h1, h2⟩ := hc3 c (by rw [hw]; exact hct)
  rw [hw] at h2
  have hv : v = (rows[i]).get c := by
    rw [hch, hf] at h1
    obtain ⟨a, ha⟩ := List.getElem?_of_mem hct
    rw [valueOf_eq hnd (by simp) ha, List.getElem?_map, ha] at h1
    cases h1; rfl
  simp only [List.get_eq_getElem]
  rw [h2]
  unfold outVal
  rw [if_neg (hmu c), hv]

/-- With `skip` rows that are there stay, and every key sent is there afterwards. -/
theorem commits_skip {dialect : Dialect} {d : DestTable} {cols : List Str} (hd : dialect ≠ .generic) (hsub : ∀ c ∈ d.pk, c ∈ cols) :
    ∀ {bs : List (List (List Val))} {T T' : List Row}, Commits (flushBuffer dialect .skip d cols) T bs T' →
    Fitting d cols bs.flatten → (d.pk ≠ [] → KeysUnique d.pk T) → ∃ new, T' = T ++ new ∧
      (d.pk ≠ [] → ∀ b ∈ bs.flatten, withKey d.pk T' (keyOf cols d.pk b) ≠ []) := by
  intro bs T T' h
  induction h with
  | nil T => exact fun _ _ => ⟨[], by simp, by simp⟩
  | @cons T T1 T2 b bs h1 h2 ih =>
    intro hf hu
    have hf1 : Fitting d cols b := ⟨hf.1, hf.2.1, fun x hx => hf.2.2 x (by simp [hx])⟩
    have hf2 : Fitting d cols bs.flatten := ⟨hf.1, hf.2.1, fun x hx => hf.2.2 x (by
      rw [List.flatten_cons]; exact List.mem_append.2 (.inr hx))⟩
    by_cases hpk : d.pk = []
    · obtain ⟨new, h3, -⟩ := c34_no_primary_key (dialect := dialect) (strategy := .skip) (T := T) hpk hf1
      rw [h1] at h3
      cases h3
      obtain ⟨new', rfl, -⟩ := ih hf2 (fun h => absurd hpk h)
      exact ⟨new ++ new', by simp, fun h => absurd hpk h⟩
    · obtain ⟨new, h3, h4, -, h5⟩ := c34_skip hd hpk hsub hf1 (hu hpk)
      rw [h1] at h3
      cases h3
      obtain ⟨new', rfl, h6⟩ := ih hf2 (fun _ => h4)
      refine ⟨new ++ new', by simp, fun _ x hx => ?_⟩
      rw [List.flatten_cons, List.mem_append] at hx
      rcases hx with hx | hx
      · intro h
        refine h5 x hx ?_
        unfold withKey at h ⊢
        rw [List.filter_append] at h
        exact (List.append_eq_nil_iff.1 h).1
      · exact h6 hpk x hx

theorem db_same {db : Dict Str TableMeta} (hok : DbOK db) {n : Str} {t t' : TableMeta} (h : (n, t) ∈ db) (h' : (n, t') ∈ db) : t = t' := by
  have := dget_of_mem hok.names_nodup h
  rw [dget_of_mem hok.names_nodup h'] at this
  exact (Option.some.inj this).symm

/-- What merging needs of the tables `X` of the destination, of which some may be created by the run. -/
structure TwinsIn (C : RunConfig) (D : Setting σ) (p : Plan) (X : Dict Str TableMeta) : Prop where
  dbOK : DbOK X
  sub : ∀ e ∈ D.dstDb, e ∈ X
  added : ∀ m td, (m, td) ∈ X → (m, td) ∈ D.dstDb ∨ ∃ n ∈ dkeys p.queries, DestOf C.remap n (td.schema, td.name)
  copied : ∀ {n : Str}, n ∈ dkeys p.queries → ∀ {k : Key}, parseTableName n = some k → ∀ {t : TableMeta}, (n, t) ∈ D.srcDb →
    ∃ kd td, Copied C D p X n k kd t td
  twin : ∀ {n : Str} {k kd : Key} {t td : TableMeta}, Copied C D p X n k kd t td → TwinOf C.remap t td ∧ D.computed kd = []
  differ : ∀ n ∈ dkeys p.queries, ∀ n' ∈ dkeys p.queries, ∀ k, DestOf C.remap n k → DestOf C.remap n' k → n = n'
  circles : ∀ k, ¬ Relation.TransGen (DbRef D.dstDb) k k
  srcCircles : C.create = true → ∀ k, ¬ Relation.TransGen (fun a b => DbRef D.srcDb a b ∧
    a.1 ++ '.' :: a.2 ∈ dkeys p.queries ∧ b.1 ++ '.' :: b.2 ∈ dkeys p.queries) k k
  self : ∀ n, n ∈ dkeys D.dstDb ∨ n ∈ dkeys p.queries → D.fnmatch n n = true
  stable : ∀ a fk b, DbFk X a fk b → ∀ n ∈ dkeys p.queries, n ∈ p.passthrough → DestOf C.remap n b →
    ∀ td, (b.1 ++ '.' :: b.2, td) ∈ X → td.primaryKey = [] ∨ ∀ c ∈ fk.dstColumns, c ∈ td.primaryKey
  dialect : D.dialect ≠ .generic ∨ p.passthrough = []
  auto : D.dialect = .postgresql → ∀ n ∈ dkeys p.queries, ∀ k t kd td, parseTableName n = some k → (n, t) ∈ D.srcDb →
    DestOf C.remap n kd → (kd.1 ++ '.' :: kd.2, td) ∈ X → ∀ c, td.autoincrement = some c →
      (∀ r ∈ D.src k, ∃ v : Int, r.get c = .int v) ∧ (Compacts C → ∀ fk ∈ t.foreignKeys, c ∉ fk.columns)

theorem TwinsIn.computed {X : Dict Str TableMeta} (hT : TwinsIn C D p X) {n : Str} {k kd : Key} {t td : TableMeta}
    (hc : Copied C D p X n k kd t td) : (target D kd td).computed = [] := by
  unfold target; split <;> [exact (hT.twin hc).2; rfl]

/-- Without creation these are the tables that were there. -/
theorem Spec.Twins.tables_in (hok : RunOK C D p) (hcr : C.create = false) (hco : Compacts C → CompactSound C D p)
    (hT : Twins C D p) : TwinsIn C D p D.dstDb := by
  refine ⟨hok.dst, fun _ h => h, fun _ _ h => .inl h, ?_, ?_, hT.differ, hT.circles, fun h => ?_, hT.self, hT.stable, hT.dialect,
    fun h n hn k t kd td h1 h2 h3 h4 c h5 => ⟨hT.auto h n hn k kd td h1 h3 h4 c h5, fun h' => (hco h').auto h n hn t kd td h2 h3 h4 c h5⟩⟩
  · intro n hn k hk t ht
    obtain ⟨kd, td, h1, h2, -, -⟩ := hT.tables n hn t ht
    have e : (td.schema, td.name) = kd :=
      str_inj (k := (td.schema, td.name)) (hok.dst.no_dot _ td h2) (destOf_nodot h1) (hok.dst.name_eq _ td h2).symm
    have hm : kd.1 ++ '.' :: kd.2 ∈ dkeys D.dstDb := List.mem_map_of_mem (f := Prod.fst) h2
    exact ⟨kd, td, hn, hk, ht, h1, ⟨n, hn, kd, h1, .inr ⟨kd, ⟨_, td, h2, e, _, List.mem_singleton.2 rfl, hT.self _ (.inl hm)⟩, .refl⟩⟩, h2⟩
  · intro n k kd t td hc
    obtain ⟨kd', td', h1, h2, h3, h4⟩ := hT.tables n hc.planned t hc.source
    have e := destOf_unique hc.dest h1
    subst e
    rw [db_same hok.dst hc.schema h2]
    exact ⟨h3, h4⟩
  · rw [hcr] at h; cases h

/-- References of planned tables lead to planned tables, those of tables passed through to such tables. -/
def RefsPlanned (D : Setting σ) (p : Plan) : Prop :=
  ∀ n ∈ dkeys p.queries, ∀ t, (n, t) ∈ D.srcDb → ∀ fk ∈ t.foreignKeys,
    fk.dstSchema ++ '.' :: fk.dstTable ∈ dkeys p.queries ∧
    (n ∈ p.passthrough → fk.dstSchema ++ '.' :: fk.dstTable ∈ p.passthrough)

/-- It is what the planner checks. -/
theorem refs_planned (hsrc : DbOK D.srcDb) {cfg : PlannerConfig} {T : Tables} {ign pass : List Key} {T₁ T₂ : Tables}
    {found ord : List Key} (hp : Planning cfg T p ign pass T₁ T₂ found ord) (hTdb : ∀ k t, (k, t) ∈ T → (k.1 ++ '.' :: k.2, t) ∈ D.srcDb)
    (hign : cfg.ignoreFks = []) (hdep : cfg.includeDependencies = true ∨ cfg.ignore = []) : RefsPlanned D p := by
  intro n hn t ht fk hfk
  rw [show dkeys p.queries = _ from hp.shape.keys, List.mem_map] at hn
  obtain ⟨k, h1, rfl⟩ := hn
  obtain ⟨t', ht'⟩ := Option.isSome_iff_exists.1 (hp.isSome_iff.1 (hp.shape.inT hp.ok h1))
  have e := db_same hsrc ht (hTdb k t' (dget_some_mem ht'))
  subst e
  have hu : UsedFk cfg T k fk (fk.dstSchema, fk.dstTable) := by
    refine .inl ⟨.inl ⟨t, dget_some_mem ht', hfk, rfl⟩, ?_⟩
    rintro ⟨y, hy, -⟩
    rw [hign] at hy; cases hy
  have hb : (fk.dstSchema, fk.dstTable) ∈ found ++ ord := by
    rcases hp.refs_planned h1 hu with h2 | ⟨h2, h3, -⟩
    · exact h2
    · rcases hdep with h4 | h4
      · rw [h4] at h2; cases h2
      · obtain ⟨m, h5, -⟩ := (hp.ign_iff _).1 h3
        rw [h4] at h5; cases h5
  refine ⟨?_, fun hpass => ?_⟩
  · rw [show dkeys p.queries = _ from hp.shape.keys, List.mem_map]
    exact ⟨_, hb, rfl⟩
  · rw [hp.shape.passthrough] at hpass ⊢
    obtain ⟨k', h2, h3⟩ := List.mem_map.1 hpass
    have e := str_inj (hp.nodot (List.mem_append.2 (.inl h2))) (hp.nodot h1) h3
    subst e
    obtain ⟨t', h4, h5, h6⟩ := (hp.used _ _ _).2 hu
    have := hp.shape.found_fks k' t' h2 (hp.ok.get.2 h4) fk h5
    exact List.mem_map.2 ⟨_, hp.mem_found.2 ⟨h6 ▸ this, hp.shape.inT hp.ok hb⟩, rfl⟩

/-- Tables that planned tables refer to are copied too. -/
theorem RefsPlanned.parent (hok : RunOK C D p) (hdb : ∀ n ∈ dkeys p.queries, n ∈ dkeys D.srcDb) {X : Dict Str TableMeta} (hT : TwinsIn C D p X)
    (hP : RefsPlanned D p) {n : Str} (hn : n ∈ dkeys p.queries) {t : TableMeta} (ht : (n, t) ∈ D.srcDb) {fk : ForeignKey}
    (hfk : fk ∈ t.foreignKeys) :
    ∃ tb kdb tdb, Copied C D p X (fk.dstSchema ++ '.' :: fk.dstTable) (fk.dstSchema, fk.dstTable) kdb tb tdb := by
  have h1 := (hP n hn t ht fk hfk).1
  obtain ⟨⟨m, tb⟩, h2, h3⟩ := List.mem_map.1 (hdb _ h1)
  dsimp only at h3
  subst h3
  obtain ⟨kdb, tdb, h4⟩ := hT.copied h1 (parse_of_nodot (k := (fk.dstSchema, fk.dstTable)) (hok.src.fk_cols n t ht fk hfk).2.2) h2
  exact ⟨tb, kdb, tdb, h4⟩

theorem shiftVal_moved (o : Option Int) (v : Val) : shiftVal o v = moved (o.getD 0) v := by cases v <;> rfl

/-- The offsets of merged tables. -/
theorem merge_offsets (hok : RunOK C D p) (hC : Merges C) (hdb : ∀ n ∈ dkeys p.queries, n ∈ dkeys D.srcDb)
    {X : Dict Str TableMeta} (hT : TwinsIn C D p X) (hP : RefsPlanned D p) (hK : MergeKeys D p) {B : DbState}
    {T : Tables} {mult : Dict Str (List Str)} {compact : Dict Key (List Str)} {offs : Dict Key (Dict Str Int)}
    (hder : Derived C D p X B T mult compact offs) :
    (∀ n k kd t td, Copied C D p X n k kd t td → n ∈ p.passthrough → (dget offs kd).getD [] = []) ∧
    ∃ off : Str → Int, ∀ n k kd t td, Copied C D p X n k kd t td → n ∉ p.passthrough →
      (∀ c ∈ t.primaryKey, IsOffset (B kd) c (off n) ∧ (dget ((dget offs kd).getD []) c).getD 0 = off n) ∧
      (∀ fk ∈ t.foreignKeys, fk.dstSchema ++ '.' :: fk.dstTable ∉ p.passthrough → ∀ c ∈ fk.columns,
        (dget ((dget offs kd).getD []) c).getD 0 = off (fk.dstSchema ++ '.' :: fk.dstTable)) ∧
      ∀ c, c ∉ t.primaryKey →
        (∀ fk ∈ t.foreignKeys, fk.dstSchema ++ '.' :: fk.dstTable ∉ p.passthrough → c ∉ fk.columns) →
        (dget ((dget offs kd).getD []) c).getD 0 = 0 := by
  obtain ⟨dest, hdest, hnot, hsh⟩ := hder.merged hC.merge
  have hTsrc : ∀ {k t}, (k, t) ∈ T → (k.1 ++ '.' :: k.2, t) ∈ D.srcDb := by
    intro k t h
    obtain ⟨t0, h1, -, h2⟩ := hder.source k t (dget_of_mem hder.tables h)
    rw [h2 hC.infer]
    exact h1
  have hsrcT : ∀ {n k t}, n ∈ dkeys p.queries → parseTableName n = some k → (n, t) ∈ D.srcDb → (k, t) ∈ T := by
    intro n k t h1 h2 h3
    obtain ⟨k', h4, h5⟩ := hder.known n h1
    rw [h2] at h4
    cases h4
    obtain ⟨t', h6⟩ := Option.isSome_iff_exists.1 h5
    have h7 := hTsrc (dget_some_mem h6)
    rw [show k.1 ++ '.' :: k.2 = n from parse_str h2] at h7
    rw [db_same hok.src h3 h7]
    exact dget_some_mem h6
  -- references by key columns are foreign keys of the source
  have href : ∀ {n k kd t td c n'}, Copied C D p X n k kd t td →
      KeyRef ⟨C.remap, T, dest, B, p.passthrough, dkeys p.queries⟩ n c n' →
      ∃ fk ∈ t.foreignKeys, fk.columns = [c] ∧ n' = fk.dstSchema ++ '.' :: fk.dstTable := by
    rintro n k kd t td c n' hc ⟨k', t', fk, q, h1, h2, h3, h4, -, -, h5⟩
    have h6 := hTsrc h2
    rw [show k'.1 ++ '.' :: k'.2 = n from parse_str h1] at h6
    rw [db_same hok.src hc.source h6]
    exact ⟨fk, h3, h4, h5⟩
  -- what is shifted
  have hshift : ∀ {n k kd t td c m}, Copied C D p X n k kd t td →
      Shifted ⟨C.remap, T, dest, B, p.passthrough, dkeys p.queries⟩ n c m → n ∉ p.passthrough ∧ t.primaryKey = [c] ∧ IsMax (B kd) c m := by
    rintro n k kd t td c m hc ⟨kd', td', ⟨-, h1, h2⟩, h3, h4, -, h5⟩
    have e := destOf_unique hc.dest h2
    subst e
    have e := db_same hT.dbOK hc.schema ((hdest _ _).1 h3).2
    subst e
    obtain ⟨c', h6, -⟩ := hK.key n hc.planned h1 k t hc.name hc.source
    have h7 := (hT.twin hc).1.single c' h6
    rw [h4] at h7
    cases h7
    exact ⟨h1, h6, h5⟩
  have hshifted : ∀ {n k kd t td c m}, Copied C D p X n k kd t td → n ∉ p.passthrough → t.primaryKey = [c] →
      IsMax (B kd) c m → Shifted ⟨C.remap, T, dest, B, p.passthrough, dkeys p.queries⟩ n c m := by
    intro n k kd t td c m hc hn hpk hm
    obtain ⟨c', h1, h2, -, -⟩ := hK.key n hc.planned hn k t hc.name hc.source
    rw [hpk] at h1
    cases h1
    have htw := (hT.twin hc).1
    exact ⟨kd, td, ⟨hc.planned, hn, hc.dest⟩, (hdest kd td).2 ⟨hc.reached, hc.schema⟩, htw.single c hpk,
      by rw [htw.intColumns]; exact h2, hm⟩
  have hown : ∀ {n k kd t td c}, Copied C D p X n k kd t td → n ∉ p.passthrough → t.primaryKey = [c] →
      IsOffset (B kd) c ((dget ((dget offs kd).getD []) c).getD 0) := by
    intro n k kd t td c hc hn hpk
    obtain ⟨c', h1, -, -, hno⟩ := hK.key n hc.planned hn k t hc.name hc.source
    rw [hpk] at h1
    cases h1
    rcases hsh n kd ⟨hc.planned, hn, hc.dest⟩ c with ⟨n', d, m, h1, -⟩ | ⟨-, ⟨m, h1, h2⟩ | ⟨h1, -⟩⟩
    · obtain ⟨fk, h2, h3, -⟩ := href hc h1
      exact absurd (by rw [h3]; simp) (hno fk h2)
    · rw [h2]
      have := (hshift hc h1).2.2
      cases m with
      | none => exact .inl ⟨this, rfl⟩
      | some m => exact .inr ⟨m, this, rfl⟩
    · exact absurd (hshifted hc hn hpk (colMax_isMax (B kd) c)) (h1 _)
  refine ⟨fun n k kd t td hc hn => hnot kd fun n' h => ?_, ?_⟩
  · rw [← hT.differ n hc.planned n' h.1 kd hc.dest h.2.2] at h
    exact h.2.1 hn
  have hoff : ∀ n, ∃ o : Int, ∀ k kd t td, Copied C D p X n k kd t td → n ∉ p.passthrough → ∀ c ∈ t.primaryKey,
      (dget ((dget offs kd).getD []) c).getD 0 = o := by
    intro n
    by_cases h : ∃ k kd t td, Copied C D p X n k kd t td ∧ n ∉ p.passthrough
    · obtain ⟨k, kd, t, td, hc, hn⟩ := h
      obtain ⟨c, hpk, -⟩ := hK.key n hc.planned hn k t hc.name hc.source
      refine ⟨(dget ((dget offs kd).getD []) c).getD 0, fun k' kd' t' td' hc' _ c' h' => ?_⟩
      rw [← db_same hok.src hc.source hc'.source, hpk, List.mem_singleton] at h'
      rw [h', destOf_unique hc'.dest hc.dest]
    · exact ⟨0, fun k kd t td hc hn => absurd ⟨k, kd, t, td, hc, hn⟩ h⟩
  choose off hoff using hoff
  refine ⟨off, fun n k kd t td hc hn => ?_⟩
  obtain ⟨a, hpk, -, -, hno⟩ := hK.key n hc.planned hn k t hc.name hc.source
  refine ⟨fun c hcc => ?_, fun fk hfk hnb c hcc => ?_, fun c hcc hnofk => ?_⟩
  · have e := hoff n k kd t td hc hn c hcc
    refine ⟨?_, e⟩
    rw [hpk, List.mem_singleton] at hcc
    subst hcc
    rw [← e]
    exact hown hc hn hpk
  · obtain ⟨tb, kdb, tdb, hb⟩ := hP.parent hok hdb hT hc.planned hc.source hfk
    obtain ⟨⟨c', h1⟩, h2⟩ := hK.single n hc.planned t hc.source fk hfk hnb
    have h2 := h2 tb hb.source
    obtain ⟨d, hpkb, -⟩ := hK.key _ hb.planned hnb _ tb hb.name hb.source
    rw [h1, List.mem_singleton] at hcc
    subst hcc
    rw [hpkb] at h2
    have ho := hown hb hnb hpkb
    rw [hoff _ _ _ _ _ hb hnb d (by rw [hpkb]; simp)] at ho
    have hkr : KeyRef ⟨C.remap, T, dest, B, p.passthrough, dkeys p.queries⟩ n c (fk.dstSchema ++ '.' :: fk.dstTable) :=
      ⟨k, t, fk, tb, hc.name, hsrcT hc.planned hc.name hc.source, hfk, h1, hsrcT hb.planned hb.name hb.source,
        by rw [h2, hpkb], rfl⟩
    rcases hsh n kd ⟨hc.planned, hn, hc.dest⟩ c with ⟨n', d', m, g1, g2, g3⟩ | ⟨g1, g2⟩
    · obtain ⟨fk', i1, i2, rfl⟩ := href hc g1
      obtain ⟨d'', hd''⟩ : ∃ d'', fk'.dstColumns = [d''] := by
        have := (hok.src.fk_cols n t hc.source fk' i1).1
        rw [i2] at this
        exact List.length_eq_one_iff.1 this.symm
      have e := (hK.simple.one n hc.planned t hc.source fk hfk fk' i1 c d d'' (by rw [h1, h2]; simp) (by rw [i2, hd'']; simp)).1
      obtain ⟨e1, e2⟩ := Prod.mk.inj e
      rw [← e1, ← e2] at g2
      obtain ⟨-, g4, g5⟩ := hshift hb g2
      rw [hpkb] at g4
      cases g4
      rw [g3]
      rcases ho with ⟨o1, -⟩ | ⟨m', o1, o2⟩
      · exact absurd (isMax_unique g5 o1) (by simp)
      · cases isMax_unique g5 o1
        exact o2.symm
    · rcases ho with ⟨-, o2⟩ | ⟨m', o1, -⟩
      · rw [o2]
        rcases g2 with ⟨m, g3, -⟩ | ⟨-, g3⟩
        · have := (hshift hc g3).2.1
          rw [hpk] at this
          cases this
          exact absurd (by rw [h1]; simp) (hno fk hfk)
        · rw [g3]; rfl
      · exact absurd (hshifted hb hnb hpkb o1) (g1 _ d m' hkr)
  · rcases hsh n kd ⟨hc.planned, hn, hc.dest⟩ c with ⟨n', d', m, g1, g2, -⟩ | ⟨-, ⟨m, g1, -⟩ | ⟨-, g1⟩⟩
    · obtain ⟨fk', i1, i2, rfl⟩ := href hc g1
      obtain ⟨-, -, ⟨-, g3, -⟩, -⟩ := g2
      exact absurd (by rw [i2]; simp) (hnofk fk' i1 g3)
    · exact absurd (by rw [(hshift hc g1).2.1]; simp) hcc
    · rw [g1]; rfl

end Subsetter
