import Verif.Props.RunIntact
import Verif.Spec.RunRefs

/- Compaction, multiplication and merging treat columns alike. -/
namespace Subsetter
open Spec Props

variable {σ : Type} {C : RunConfig} {D : Setting σ} {p : Plan} {S : DbState} {s : σ}

theorem multCol_congr {T T' : Tables} {cfg : MultConfig} {ignore names : List Str}
    (h : ∀ n ∈ names, ∀ t, TableOf T n t → TableOf T' n t) {n c : Str} (hm : MultCol T cfg ignore names n c) :
    MultCol T' cfg ignore names n c := by
  induction hm with
  | extra h1 h2 h3 h4 => exact .extra h1 h2 h3 h4
  | pk h1 h2 h3 h4 h5 => exact .pk h1 h2 (h _ h1 _ h3) h4 h5
  | fk h1 h2 h3 h4 h5 _ ih => exact .fk h1 h2 (h _ h1 _ h3) h4 h5 ih

theorem dbTables_iff {db : Dict Str TableMeta} (hdb : DbOK db) {k : Key} {t : TableMeta} (hk : '.' ∉ k.1) :
    dget (dbTables db) k = some t ↔ (k.1 ++ '.' :: k.2, t) ∈ db := by
  have hnd : ((dbTables db).map Prod.fst).Nodup := by
    unfold dbTables
    rw [List.map_map]
    refine List.Nodup.map_on ?_ hdb.names_nodup.of_map
    rintro ⟨n, t⟩ h1 ⟨n', t'⟩ h2 he
    have he : (t.schema, t.name) = (t'.schema, t'.name) := he
    obtain ⟨e1, e2⟩ := Prod.mk.inj he
    have e : n = n' := by rw [hdb.name_eq n t h1, hdb.name_eq n' t' h2, e1, e2]
    subst e
    have := dget_of_mem hdb.names_nodup h1
    rw [dget_of_mem hdb.names_nodup h2] at this
    rw [Option.some.inj this]
  constructor
  · intro h
    obtain ⟨⟨n, t'⟩, h1, h2⟩ := List.mem_map.1 (dget_some_mem h)
    obtain ⟨e1, e2⟩ := Prod.mk.inj h2
    dsimp only at e1 e2
    subst e1 e2
    dsimp only
    rw [← hdb.name_eq n t' h1]
    exact h1
  · intro h
    refine dget_of_mem hnd (List.mem_map.2 ⟨_, h, ?_⟩)
    dsimp only
    have := str_inj (k := (t.schema, t.name)) (k' := k) (hdb.no_dot _ t h) hk (hdb.name_eq _ t h).symm
    rw [this]

section
variable {schema : Dict Str TableMeta} {order : List Str} {B : DbState}
  {Smp : Key → List Row} {ids : Key → List Int} {T : Tables} {mult : Dict Str (List Str)}
  {compact : Dict Key (List Str)} {offs : Dict Key (Dict Str Int)}
  (hok : RunOK C D p) (hfo : LookupsFollow C D p)
  (hcp : Copying C D p S schema order B Smp ids T mult compact offs)
include hok hfo hcp

/-- The tables known to the run are those of the source. -/
theorem known_table {n : Str} {k : Key} {t : TableMeta} (hn : n ∈ dkeys p.queries) (hk : parseTableName n = some k)
    (ht : (n, t) ∈ D.srcDb) : dget T k = some t := by
  obtain ⟨k', h1, h2⟩ := hcp.derived.known n hn
  rw [hk] at h1
  cases h1
  obtain ⟨t', h2⟩ := Option.isSome_iff_exists.1 h2
  obtain ⟨t0, h3, -, h4⟩ := hcp.derived.source k t' h2
  rw [h2, h4 hfo.infer]
  rw [show k.1 ++ '.' :: k.2 = n from parse_str hk] at h3
  have := dget_of_mem hok.src.names_nodup h3
  rw [dget_of_mem hok.src.names_nodup ht] at this
  exact this.symm

omit hok in
theorem table_known {k : Key} {t : TableMeta} (h : dget T k = some t) : (k.1 ++ '.' :: k.2, t) ∈ D.srcDb := by
  obtain ⟨t0, h3, -, h4⟩ := hcp.derived.source k t h
  rw [h4 hfo.infer]
  exact h3

omit hok hfo in
theorem compacts_of {k : Key} {c : Str} (h : IsCompacted compact k c) : Compacts C := by
  rcases (hcp.derived.compact k c).1 h with ⟨tb, cols, h1, h2, -⟩ | ⟨t', -, -, -, -, h1⟩
  · exact .inr (.inr ⟨tb, cols, c, h1, h2⟩)
  · rcases h1 with h1 | ⟨h1, -⟩
    · exact .inl h1
    · exact .inr (.inl h1)

/-- Compaction treats a pair alike. -/
theorem pair_safe {n : Str} {k : Key} {t : TableMeta} (hn : n ∈ dkeys p.queries) (hk : parseTableName n = some k)
    (ht : (n, t) ∈ D.srcDb) {fk : ForeignKey} (hfk : fk ∈ t.foreignKeys) {e : Str × Str}
    (he : e ∈ fk.columns.zip fk.dstColumns) : PairSafe T compact k (fk.dstSchema, fk.dstTable) e := by
  have hT := known_table hok hfo hcp hn hk ht
  by_cases hcs : Compacts C
  swap
  · refine ⟨fun h => hcs (compacts_of hcp h), .inr ⟨fun h => hcs (compacts_of hcp h), ?_, ?_⟩⟩ <;>
    · rintro d' dc' ⟨-, -, -, -, -, -, h⟩
      exact hcs (compacts_of hcp h)
  have hsim := hfo.simple hcs
  refine ⟨fun h => ?_, ?_⟩
  · have hz := (List.of_mem_zip he).1
    have hkey : C.compact.primaryKeys = true ∨ C.compact.autoIncrementKeys = true → False := fun g =>
      (hcp.derived.compactRefs g k t hT fk hfk e.1 hz).elim fun g1 g2 => by
        rcases (hcp.derived.compact k e.1).1 h with h | h
        · exact g1 h
        · exact g2 h
    rcases (hcp.derived.compact k e.1).1 h with ⟨tb, cols, h1, h2, h3, -⟩ | ⟨t', -, -, -, -, h1⟩
    · have : tb = n := by rw [← parse_str h3, ← parse_str hk]
      subst this
      exact (hfo.named tb cols h1 e.1 h2 t ht).1 fk hfk hz
    · rcases h1 with h1 | ⟨h1, -⟩
      · exact hkey (.inl h1)
      · exact hkey (.inr h1)
  · have hone : ∀ d' dc', PointsTo T compact k e.1 d' dc' → d' = (fk.dstSchema, fk.dstTable) ∧ dc' = e.2 := by
      rintro d' dc' ⟨t', fk', g1, g2, g3, g4, -⟩
      rw [hT] at g1
      cases g1
      obtain ⟨g5, g6⟩ := hsim.one n hn t ht fk' g2 fk hfk e.1 dc' e.2 g4 he
      exact ⟨by rw [← g3]; exact g5, g6⟩
    by_cases hc : IsCompacted compact (fk.dstSchema, fk.dstTable) e.2
    · exact .inl ⟨hc, ⟨t, fk, hT, hfk, rfl, he, hc⟩, hone⟩
    · refine .inr ⟨hc, ?_, fun d' dc' h => ?_⟩
      · rintro d' dc' ⟨tb, fk', g1, g2, -, g4, -⟩
        exact hsim.roots n hn t ht fk hfk tb (table_known hfo hcp g1) e.2 (List.of_mem_zip he).2 fk' g2
          (List.of_mem_zip g4).1
      · obtain ⟨rfl, rfl⟩ := hone d' dc' h
        obtain ⟨-, -, -, -, -, -, h⟩ := h
        exact hc h

/-- Columns looked up have no value twice. -/
theorem lookups_unique {cfg : PlannerConfig} {T0 : Tables} (hI : Input cfg T0) (hplan : planInternal cfg T0 = .ok p)
    (hpk : PkOK (dbTables D.srcDb) D.src) {n : Str} {k kd : Key} {t td : TableMeta} (hc : Copied C D p schema n k kd t td)
    {c : Str} {d : Key} {dc : Str} (h : PointsTo T compact k c d dc) : UniqueIn (Smp d) dc := by
  obtain ⟨t', fk, h1, h2, rfl, h4, h5⟩ := h
  rw [known_table hok hfo hcp hc.planned hc.name hc.source] at h1
  cases h1
  have hcs := compacts_of hcp h5
  have hdot := (hok.src.fk_cols n t hc.source fk h2).2.2
  have hin := hfo.closed hcs n hc.planned t hc.source fk h2
  have hpl : ∃ q, Planned p (fk.dstSchema, fk.dstTable) q := by
    obtain ⟨⟨m, q⟩, g1, g2⟩ := List.mem_map.1 hin
    dsimp only at g2
    exact ⟨q, m, g1, by rw [g2]; exact parse_of_nodot (k := (fk.dstSchema, fk.dstTable)) hdot⟩
  obtain ⟨tb, g1, g2⟩ : ∃ tb, (fk.dstSchema ++ '.' :: fk.dstTable, tb) ∈ D.srcDb ∧ tb.primaryKey = [dc] := by
    rcases (hcp.derived.compact _ _).1 h5 with ⟨tn, cols, g1, g2, g3, g4, -⟩ | ⟨tb, g1, g2, -⟩
    · obtain ⟨tb, g4⟩ := Option.isSome_iff_exists.1 g4
      have g5 := table_known hfo hcp g4
      dsimp only at g5
      refine ⟨tb, g5, ?_⟩
      rw [show fk.dstSchema ++ '.' :: fk.dstTable = tn from parse_str g3] at g5
      refine ((hfo.named tn cols g1 dc g2 tb g5).2).resolve_right fun hcon => ?_
      exact hcon n t hc.source fk h2 (parse_str g3) (List.of_mem_zip h4).2
    · exact ⟨tb, table_known hfo hcp (dget_of_mem hcp.derived.tables g1), g2⟩
  have hnd := (c56_constraints_hold hI hplan hpk hcp.sample hpl ((dbTables_iff hok.src hdot).2 g1)).1 (by rw [g2]; simp)
  rw [g2] at hnd
  unfold UniqueIn
  refine (List.pairwise_map.1 hnd).imp ?_
  intro r r' hne _ he
  exact hne (by simp [he])

/-- The columns multiplied are those multiplied in the source. -/
theorem multiplied_iff (n c : Str) : c ∈ (dget mult n).getD [] ↔ Multiplied C D p n c := by
  rw [hcp.derived.mult n c]
  refine and_congr_right fun _ => ⟨multCol_congr ?_, multCol_congr ?_⟩
  · rintro n _ t ⟨k, h1, h2⟩
    exact ⟨k, h1, (dbTables_iff hok.src (parse_fst_nodot h1)).2 (table_known hfo hcp h2)⟩
  · rintro n hn t ⟨k, h1, h2⟩
    have := (dbTables_iff hok.src (parse_fst_nodot h1)).1 h2
    rw [show k.1 ++ '.' :: k.2 = n from parse_str h1] at this
    exact ⟨k, h1, known_table hok hfo hcp hn h1 this⟩

/-- References that may be followed by merging lead to one table. -/
theorem keyRef_facts {dest : Tables} {n : Str} {k : Key} {t : TableMeta} (hn : n ∈ dkeys p.queries)
    (hk : parseTableName n = some k) (ht : (n, t) ∈ D.srcDb) {c n' : Str}
    (h : KeyRef ⟨C.remap, T, dest, B, p.passthrough, dkeys p.queries⟩ n c n') :
    ∃ fk ∈ t.foreignKeys, ∃ d tb, fk.columns = [c] ∧ fk.dstColumns = [d] ∧ n' = fk.dstSchema ++ '.' :: fk.dstTable ∧
      (n', tb) ∈ D.srcDb ∧ tb.primaryKey = [d] := by
  obtain ⟨k', t', fk, tb, h1, h2, h3, h4, h5, h6, rfl⟩ := h
  rw [hk] at h1
  cases h1
  have h2 := dget_of_mem hcp.derived.tables h2
  rw [known_table hok hfo hcp hn hk ht] at h2
  cases h2
  have hlen := (hok.src.fk_cols n t ht fk h3).1
  rw [h4, List.length_singleton] at hlen
  obtain ⟨d, hd⟩ := List.length_eq_one_iff.1 hlen.symm
  have h5 := table_known hfo hcp (dget_of_mem hcp.derived.tables h5)
  exact ⟨fk, h3, d, tb, h4, hd, rfl, h5, by rw [← h6, hd]⟩

end

section
variable {schema schema0 : Dict Str TableMeta} {order : List Str} {B : DbState}
  {Smp : Key → List Row} {ids : Key → List Int} {T : Tables} {mult : Dict Str (List Str)}
  {compact : Dict Key (List Str)} {offs : Dict Key (Dict Str Int)}
  (hok : RunOK C D p) (hfo : IdsFollow C D p schema0)
  (hcp : Copying C D p S schema order B Smp ids T mult compact offs)
include hok hfo hcp

/-- Merging treats a pair alike. -/
theorem pair_shifted (hmg : C.merge = true) (hnames : (schema.map Prod.fst).Nodup)
    {n : Str} {k kd : Key} {t td : TableMeta} (hc : Copied C D p schema n k kd t td)
    {nb : Str} {kb kdb : Key} {tb tdb : TableMeta} (hcb : Copied C D p schema nb kb kdb tb tdb) {fk : ForeignKey}
    (hfk : fk ∈ t.foreignKeys) (hkb : (fk.dstSchema, fk.dstTable) = kb) (hal : MergedAlike p n nb td tb tdb fk)
    (hB : ∀ r ∈ B kd, (∀ c ∈ fk.columns, r.get c ≠ .null) → ∃ m ∈ B kdb, Refers fk.columns fk.dstColumns r m)
    {e : Str × Str} (he : e ∈ fk.columns.zip fk.dstColumns) :
    dget ((dget offs kd).getD []) e.1 = dget ((dget offs kdb).getD []) e.2 := by
  obtain ⟨dest, hdest, hnone, hsh⟩ := hcp.derived.merged hmg
  have hsim := hfo.simple (.inr hmg)
  have hnb : nb = fk.dstSchema ++ '.' :: fk.dstTable := by
    have := parse_str hcb.name
    rw [← hkb] at this
    exact this.symm
  -- tables of the destination
  have htab : ∀ {n k kd t td}, Copied C D p schema n k kd t td → ∀ t', (kd, t') ∈ dest → t' = td := by
    intro n k kd t td hc t' ht'
    have h1 := ((hdest kd t').1 ht').2
    have := dget_of_mem hnames h1
    rw [dget_of_mem hnames hc.schema] at this
    exact (Option.some.inj this).symm
  have hin : ∀ {n k kd t td}, Copied C D p schema n k kd t td → (kd, td) ∈ dest := fun hc =>
    (hdest _ _).2 ⟨hc.reached, hc.schema⟩
  have hmer : ∀ {n k kd t td}, Copied C D p schema n k kd t td → n ∉ p.passthrough →
      Merged ⟨C.remap, T, dest, B, p.passthrough, dkeys p.queries⟩ n kd := fun hc hp => ⟨hc.planned, hp, hc.dest⟩
  have hpass : ∀ {n k kd t td}, Copied C D p schema n k kd t td → n ∈ p.passthrough → (dget offs kd).getD [] = [] := by
    intro n k kd t td hc hp
    refine hnone kd fun n' ⟨g1, g2, g3⟩ => ?_
    exact g2 (by rw [hcp.derived.differ n' g1 n hc.planned kd g3 hc.dest]; exact hp)
  -- the column refers to `nb` only
  have honly : ∀ n', KeyRef ⟨C.remap, T, dest, B, p.passthrough, dkeys p.queries⟩ n e.1 n' → n' = nb ∧ tb.primaryKey = [e.2] := by
    intro n' h
    obtain ⟨fk1, g1, d1, tb1, g2, g3, g4, g5, g6⟩ := keyRef_facts hok hfo.lookups hcp hc.planned hc.name hc.source h
    obtain ⟨g7, g8⟩ := hsim.one n hc.planned t hc.source fk1 g1 fk hfk e.1 d1 e.2 (by rw [g2, g3]; simp) he
    obtain ⟨g9, g10⟩ := Prod.mk.inj g7
    have : n' = nb := by rw [hnb, g4, g9, g10]
    subst this
    have := dget_of_mem hok.src.names_nodup g5
    rw [dget_of_mem hok.src.names_nodup hcb.source] at this
    cases this
    exact ⟨rfl, by rw [g6, g8]⟩
  have hroot : ∀ n', ¬ KeyRef ⟨C.remap, T, dest, B, p.passthrough, dkeys p.queries⟩ nb e.2 n' := by
    intro n' h
    obtain ⟨fk1, g1, d1, tb1, g2, -⟩ := keyRef_facts hok hfo.lookups hcp hcb.planned hcb.name hcb.source h
    exact hsim.roots n hc.planned t hc.source fk hfk tb (by rw [← hnb]; exact hcb.source) e.2 (List.of_mem_zip he).2 fk1 g1
      (by rw [g2]; simp)
  have hshd : ∀ {n k kd t td c m}, Copied C D p schema n k kd t td →
      Shifted ⟨C.remap, T, dest, B, p.passthrough, dkeys p.queries⟩ n c m →
      n ∉ p.passthrough ∧ td.primaryKey = [c] ∧ c ∈ td.intColumns ∧ IsMax (B kd) c m := by
    rintro n k kd t td c m hc ⟨k', t', ⟨-, g1, g2⟩, g3, g4, g5, g6⟩
    cases destOf_unique g2 hc.dest
    cases htab hc t' g3
    exact ⟨g1, g4, g5, g6⟩
  rcases hal with ⟨a1, a2, c, d, a3, a4, a5, a6, a7⟩ | ⟨a1, a2⟩
  · rw [a3, a4] at he
    simp only [List.zip_cons_cons, List.zip_nil_right, List.mem_singleton] at he
    subst he
    dsimp only at honly hroot ⊢
    obtain ⟨mx, hmx⟩ : ∃ mx, IsMax (B kdb) d mx := ⟨_, colMax_isMax _ _⟩
    have hsb : Shifted ⟨C.remap, T, dest, B, p.passthrough, dkeys p.queries⟩ nb d mx :=
      ⟨_, tdb, hmer hcb a2, hin hcb, a6, a7, hmx⟩
    have href : KeyRef ⟨C.remap, T, dest, B, p.passthrough, dkeys p.queries⟩ n c nb := by
      refine ⟨k, t, fk, tb, hc.name, dget_some_mem (known_table hok hfo.lookups hcp hc.planned hc.name hc.source), hfk,
        a3, ?_, by rw [a4, a5], hnb⟩
      rw [hkb]
      exact dget_some_mem (known_table hok hfo.lookups hcp hcb.planned hcb.name hcb.source)
    have hBo : dget ((dget offs kdb).getD []) d = mx.map (· + 1) := by
      rcases hsh nb _ (hmer hcb a2) d with ⟨n', d', m, h1, -⟩ | ⟨-, ⟨m, h1, h2⟩ | ⟨h1, -⟩⟩
      · exact absurd h1 (hroot n')
      · rw [h2, isMax_unique (hshd hcb h1).2.2.2 hmx]
      · exact absurd hsb (h1 mx)
    rw [hBo]
    rcases hsh n kd (hmer hc a1) c with ⟨n', d', m, h1, h2, h3⟩ | ⟨h1, h2⟩
    · obtain ⟨rfl, -⟩ := honly n' h1
      obtain ⟨-, h5, -, h6⟩ := hshd hcb h2
      rw [a6] at h5
      cases h5
      rw [h3, isMax_unique hmx h6]
      rfl
    · cases mx with
      | some mx => exact absurd hsb (h1 nb d mx href)
      | none =>
        rcases h2 with ⟨m, h2, h3⟩ | ⟨-, h3⟩
        · rw [h3]
          obtain ⟨-, -, -, h4⟩ := hshd hc h2
          cases m with
          | none => rfl
          | some m =>
            obtain ⟨⟨r, h5, h6⟩, -⟩ := h4
            obtain ⟨q, h7, h8⟩ := hB r h5 fun c' hc' => by
              rw [a3] at hc'
              rw [List.mem_singleton.1 hc', h6]
              simp
            have := (h8 (c, d) (by rw [a3, a4]; simp)).2
            dsimp only at this
            rw [h6] at this
            exact absurd this.symm (hmx q h7 m)
        · rw [h3]; rfl
  · have hl : dget ((dget offs kd).getD []) e.1 = none := by
      by_cases hp : n ∈ p.passthrough
      · rw [hpass hc hp]; rfl
      rcases hsh n kd (hmer hc hp) e.1 with ⟨n', d', m, h1, h2, -⟩ | ⟨-, ⟨m, h1, -⟩ | ⟨-, h1⟩⟩
      · obtain ⟨rfl, h3⟩ := honly n' h1
        obtain ⟨g1, g2, g3, -⟩ := hshd hcb h2
        obtain ⟨g4, g5⟩ := a1.resolve_left g1 d' g2 g3
        rw [h3] at g5
        cases g5
        exact absurd (List.of_mem_zip he).2 g4
      · obtain ⟨g1, g2, g3, -⟩ := hshd hc h1
        exact absurd g3 (a2.resolve_left g1 e.1 (List.of_mem_zip he).1 g2)
      · exact h1
    have hr : dget ((dget offs kdb).getD []) e.2 = none := by
      by_cases hp : nb ∈ p.passthrough
      · rw [hpass hcb hp]; rfl
      rcases hsh nb _ (hmer hcb hp) e.2 with ⟨n', d', m, h1, h2, -⟩ | ⟨-, ⟨m, h1, -⟩ | ⟨-, h1⟩⟩
      · exact absurd h1 (hroot n')
      · obtain ⟨g1, g2, g3, -⟩ := hshd hcb h1
        exact absurd (List.of_mem_zip he).2 (a1.resolve_left g1 e.2 g2 g3).1
      · exact h1
    rw [hl, hr]

/-- Columns of a foreign key of the source are treated as those they refer to. -/
theorem follow_pair {n : Str} {k kd : Key} {t td : TableMeta} (hc : Copied C D p schema n k kd t td)
    (hnames : (schema.map Prod.fst).Nodup)
    {nb : Str} {kb kdb : Key} {tb tdb : TableMeta} (hcb : Copied C D p schema nb kb kdb tb tdb) {fk : ForeignKey}
    (hfk : fk ∈ t.foreignKeys) (hkb : (fk.dstSchema, fk.dstTable) = kb)
    (hal : C.merge = true → MergedAlike p n nb td tb tdb fk)
    (hB : ∀ r ∈ B kd, (∀ c ∈ fk.columns, r.get c ≠ .null) → ∃ m ∈ B kdb, Refers fk.columns fk.dstColumns r m) :
    Alike C p T mult compact offs n k kd nb kb kdb (fk.columns.zip fk.dstColumns) := by
  have hnb : fk.dstSchema ++ '.' :: fk.dstTable = nb := by
    have := parse_str hcb.name
    rw [← hkb] at this
    exact this
  have hm : ∀ e ∈ fk.columns.zip fk.dstColumns, (Multiplied C D p n e.1 ↔ Multiplied C D p nb e.2) ∧
      (Multiplied C D p n e.1 → timesWritten C p n = timesWritten C p nb) := by
    intro e he
    have := hfo.mult n hc.planned t hc.source fk hfk (by rw [hnb]; exact hcb.planned) e he
    rwa [hnb] at this
  refine ⟨fun e he => ?_, fun e he => ?_, ?_, fun e he => ?_⟩
  · rw [← hkb]
    exact pair_safe hok hfo.lookups hcp hc.planned hc.name hc.source hfk he
  · rw [multiplied_iff hok hfo.lookups hcp, multiplied_iff hok hfo.lookups hcp]
    exact (hm e he).1
  · by_cases h : ∃ e ∈ fk.columns.zip fk.dstColumns, Multiplied C D p n e.1
    · obtain ⟨e, he, h⟩ := h
      exact .inl ((hm e he).2 h)
    · exact .inr fun e he h' => h ⟨e, he, (multiplied_iff hok hfo.lookups hcp n e.1).1 h'⟩
  · by_cases hmg : C.merge = true
    · exact pair_shifted hok hfo hcp hmg hnames hc hcb hfk hkb (hal hmg) hB he
    · have := hcp.derived.unmerged (by simpa using hmg)
      rw [this, this]; rfl

end

section
variable {schema : Dict Str TableMeta} {order : List Str} {B : DbState}
  {Smp : Key → List Row} {ids : Key → List Int} {T : Tables} {mult : Dict Str (List Str)}
  {compact : Dict Key (List Str)} {offs : Dict Key (Dict Str Int)}
  (hok : RunOK C D p) (hfo : IdsFollow C D p schema)
  (hcp : Copying C D p S schema order B Smp ids T mult compact offs)
include hok hfo hcp

/-- Columns of foreign keys are treated as those they refer to. -/
theorem follow_alike {cfg : PlannerConfig} {T0 : Tables} (hmir : Mirrored C D cfg T0 p schema) (hB : Intact schema B)
    (hnames : (schema.map Prod.fst).Nodup)
    (hkey : ∀ n k kd t td, Copied C D p schema n k kd t td → (td.schema, td.name) = kd) :
    RefsAlike C D p schema T mult compact offs := by
  intro n k kd t td hc fk hfk nb kb tb tdb hcb
  obtain ⟨-, fk0, kb', nb', m1, -, m3, m4, m5, m6, m7, -⟩ := hmir n k kd t td hc fk hfk
  have e := hcp.derived.differ nb' m5 nb hcb.planned _ m7 hcb.dest
  subst e
  rw [hcb.name] at m6
  cases m6
  have hfk0 : fk0 ∈ t.foreignKeys ∧ (fk0.dstSchema, fk0.dstTable) = kb := by
    obtain ⟨n0, t0, g1, g2, g3, g4⟩ := m1
    have : n0 = n := by
      rw [hok.src.name_eq n0 t0 g1, ← parse_str hc.name, ← g2]; rfl
    subst this
    have := dget_of_mem hok.src.names_nodup g1
    rw [dget_of_mem hok.src.names_nodup hc.source] at this
    cases this
    exact ⟨g3, g4⟩
  obtain ⟨hfk0, hkb⟩ := hfk0
  rw [← m3, ← m4]
  refine follow_pair hok hfo hcp hc hnames hcb hfk0 hkb (fun hmg => ?_) ?_
  · have := hfo.merge hmg n k kd t td hc fk hfk nb' kb tb tdb hcb
    unfold MergedAlike at this ⊢
    rw [m3, m4]
    exact this
  · rw [m3, m4]
    exact hB kd fk _ ⟨_, td, hc.schema, hkey n k kd t td hc, hfk, rfl⟩

end
end Subsetter
