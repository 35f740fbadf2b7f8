import Verif.Proofs.RunRefs
import Verif.Proofs.KeyConflict
import Verif.Spec.RunKeys
import Verif.Props.Merge

/- The keys a run writes differ. -/
namespace Subsetter
open Spec Props

variable {σ : Type} {C : RunConfig} {D : Setting σ} {p : Plan} {S : DbState} {s : σ}

theorem outVal_inj {mult : List Str} {m j j' : Nat} (hj : j < m) (hj' : j' < m) {offsets : Dict Str Int} {c : Str}
    {v v' : Val} (h : outVal mult m j offsets c v = outVal mult m j' offsets c v') :
    v = v' ∧ (c ∈ mult → (∃ x, v = .int x) → j = j') := by
  have hint : ∀ (x : Int) (i : Nat), ∃ y, outVal mult m i offsets c (.int x) = .int y := by
    intro x i
    unfold outVal
    split
    · exact ⟨_, rfl⟩
    · exact ⟨_, rfl⟩
  have hne : ∀ (w : Val) (i : Nat), (∀ x, w ≠ .int x) → outVal mult m i offsets c w = w := by
    intro w i hw
    unfold outVal
    cases w with
    | int x => exact absurd rfl (hw x)
    | null => split <;> rfl
    | str x => split <;> rfl
    | other x => split <;> rfl
  by_cases h1 : ∃ x, v = .int x
  · obtain ⟨x, rfl⟩ := h1
    by_cases h2 : ∃ x', v' = .int x'
    · obtain ⟨x', rfl⟩ := h2
      obtain ⟨g1, g2⟩ := c29_distinct (by omega) (by omega) (by omega) (by omega) h
      exact ⟨by rw [g1], fun hc _ => by have := g2 hc; omega⟩
    · obtain ⟨y, hy⟩ := hint x j
      rw [hy, hne v' j' fun x' e => h2 ⟨x', e⟩] at h
      exact absurd ⟨y, h.symm⟩ h2
  · refine ⟨?_, fun _ h2 => absurd h2 h1⟩
    rw [hne v j fun x e => h1 ⟨x, e⟩] at h
    by_cases h2 : ∃ x', v' = .int x'
    · obtain ⟨x', rfl⟩ := h2
      obtain ⟨y, hy⟩ := hint x' j'
      rw [hy] at h
      exact absurd ⟨y, h⟩ h1
    · rw [hne v' j' fun x' e => h2 ⟨x', e⟩] at h
      exact h

theorem zip_inj {ids : List Int} {rows : List Row} (hnd : ids.Nodup) {i : Int} {r r' : Row} (h : (i, r) ∈ ids.zip rows)
    (h' : (i, r') ∈ ids.zip rows) : r = r' := by
  induction ids generalizing rows with
  | nil => cases h
  | cons x ids ih =>
    cases rows with
    | nil => cases h
    | cons y rows =>
      rw [List.nodup_cons] at hnd
      rw [List.zip_cons_cons, List.mem_cons] at h h'
      rcases h with h | h
      · cases h
        rcases h' with h' | h'
        · cases h'; rfl
        · exact absurd (List.of_mem_zip h').1 hnd.1
      · rcases h' with h' | h'
        · cases h'
          exact absurd (List.of_mem_zip h).1 hnd.1
        · exact ih hnd.2 h h'

section
variable {schema : Dict Str TableMeta} {order : List Str} {B : DbState}
  {Smp : Key → List Row} {ids : Key → List Int} {T : Tables} {mult : Dict Str (List Str)}
  {compact : Dict Key (List Str)} {offs : Dict Key (Dict Str Int)}
  (hok : RunOK C D p) (hfo : LookupsFollow C D p)
  (hcp : Copying C D p S schema order B Smp ids T mult compact offs)
  {cfg : PlannerConfig} {T0 : Tables} (hI : Input cfg T0) (hplan : planInternal cfg T0 = .ok p)
  (hall : Compacts C → ∀ n y, dget cfg.targets n = some y → y.all = true → y.amount = none)
  (hpk : PkOK (dbTables D.srcDb) D.src) (hsrc : Compacts C → Intact D.srcDb D.src)
include hok hfo hcp hI hplan hall hpk hsrc

/-- How a column is compacted if the rows it refers to are sampled: it is given the identifier of the row, or that of the
row referred to, or left alone. -/
theorem found_column {n : Str} {k kd : Key} {t td : TableMeta} (hc : Copied C D p schema n k kd t td) {c : Str}
    (hcol : c ∈ t.columns)
    (hfound : Compacts C → ∀ fk ∈ t.foreignKeys, c ∈ fk.columns →
      (∀ r ∈ D.src k, ∀ c' ∈ fk.columns, r.get c' ≠ .null) ∧ UsedFk cfg T0 k fk (fk.dstSchema, fk.dstTable)) :
    (∀ r id row, (id, r) ∈ (ids k).zip (Smp k) → CompactedRow T compact Smp ids k t.columns r id row → row.get c = .int id) ∨
    (∃ d dc, ∀ r id row, (id, r) ∈ (ids k).zip (Smp k) → CompactedRow T compact Smp ids k t.columns r id row →
      ∃ j m, (j, m) ∈ (ids d).zip (Smp d) ∧ r.get c = m.get dc ∧ row.get c = .int j) ∨
    ∀ r id row, (id, r) ∈ (ids k).zip (Smp k) → CompactedRow T compact Smp ids k t.columns r id row →
      row.get c = r.get c := by
  have hplanned : ∃ q, Planned p k q := by
    obtain ⟨⟨m, q⟩, g1, g2⟩ := List.mem_map.1 hc.planned
    dsimp only at g2
    exact ⟨q, m, g1, by rw [g2]; exact hc.name⟩
  by_cases h1 : IsCompacted compact k c
  · exact .inl fun r id row _ hrow => hrow.own c hcol h1
  by_cases h2 : ∃ d dc, PointsTo T compact k c d dc
  · obtain ⟨d, dc, h2⟩ := h2
    right; left
    refine ⟨d, dc, fun r id row hz hrow => ?_⟩
    have hpt := h2
    obtain ⟨t', fk, g1, g2, g3, g4, g5⟩ := h2
    have hT := known_table hok hfo hcp hc.planned hc.name hc.source
    rw [hT] at g1
    cases g1
    have hcs := compacts_of hcp g5
    obtain ⟨f1, f2⟩ := hfound hcs fk g2 (List.of_mem_zip g4).1
    have hr := c07_sample_from_source hI hplan hpk hcp.sample hplanned _ (List.of_mem_zip hz).2
    have huniq : ∀ d' dc', PointsTo T compact k c d' dc' → d' = d ∧ dc' = dc := by
      rcases (pair_safe hok hfo hcp hc.planned hc.name hc.source g2 g4).2 with ⟨-, -, u⟩ | ⟨-, -, u⟩
      · rw [g3] at u; exact u
      · exact absurd hpt (u d dc)
    have hkey : (t.schema, t.name) = k := str_inj (hok.src.no_dot _ t hc.source) (parse_fst_nodot hc.name)
      ((hok.src.name_eq n t hc.source).symm.trans (parse_str hc.name).symm)
    obtain ⟨m0, u1, u2⟩ := hsrc hcs k fk d ⟨n, t, hc.source, hkey, g2, g3⟩ r hr (f1 r hr)
    have hdot := (hok.src.fk_cols n t hc.source fk g2).2.2
    have hpd : ∃ q, Planned p d q := by
      obtain ⟨⟨m, q⟩, w1, w2⟩ := List.mem_map.1 (hfo.closed hcs n hc.planned t hc.source fk g2)
      dsimp only at w2
      exact ⟨q, m, w1, by rw [w2, ← g3]; exact parse_of_nodot (k := (fk.dstSchema, fk.dstTable)) hdot⟩
    rw [g3] at f2
    obtain ⟨m1, w1, w2⟩ := c07_referential_integrity_partial hI hplan (hall hcs) hpk hcp.sample f2 hplanned hpd r
      (List.of_mem_zip hz).2 ⟨m0, u1, u2⟩
    obtain ⟨i, hi⟩ := List.getElem?_of_mem w1
    have hilt := (List.getElem?_eq_some_iff.1 hi).1
    have hlen := (hcp.ids d).1
    have hzz : ((ids d)[i]'(by omega), m1) ∈ (ids d).zip (Smp d) := List.mem_of_getElem? (i := i) (by
      rw [List.getElem?_zip_eq_some]
      exact ⟨List.getElem?_eq_getElem (by omega), hi⟩)
    have he := (w2 _ g4).2
    exact ⟨_, m1, hzz, he, hrow.found c hcol h1 d dc hpt huniq _ m1 hzz (f1 r hr c (List.of_mem_zip g4).1) he⟩
  · right; right
    exact fun r id row _ hrow => hrow.kept c hcol h1 fun d dc h => h2 ⟨d, dc, h⟩

/-- The same of columns of the primary key. -/
theorem key_column {n : Str} {k kd : Key} {t td : TableMeta} (hc : Copied C D p schema n k kd t td)
    (hka : KeysApart C D cfg T0 p S schema n k kd t td) {c : Str} (hcc : c ∈ t.primaryKey) :
    (∀ r id row, (id, r) ∈ (ids k).zip (Smp k) → CompactedRow T compact Smp ids k t.columns r id row → row.get c = .int id) ∨
    (∃ d dc, ∀ r id row, (id, r) ∈ (ids k).zip (Smp k) → CompactedRow T compact Smp ids k t.columns r id row →
      ∃ j m, (j, m) ∈ (ids d).zip (Smp d) ∧ r.get c = m.get dc ∧ row.get c = .int j) ∨
    ∀ r id row, (id, r) ∈ (ids k).zip (Smp k) → CompactedRow T compact Smp ids k t.columns r id row →
      row.get c = r.get c :=
  found_column hok hfo hcp hI hplan hall hpk hsrc hc (hka.kept c hcc).1 fun hcs fk hfk hcf => by
    obtain ⟨f1, f2⟩ := hka.found hcs fk hfk ⟨c, hcf, hcc⟩
    exact ⟨fun r hr c' hc' => hka.notNull hcs r hr c' (f1 c' hc'), f2⟩

omit hI hplan hall hpk hsrc in
/-- What the destination holds in a column shifted is below the offset. -/
theorem below_offset {n : Str} {k kd : Key} {t td : TableMeta} (hc : Copied C D p schema n k kd t td)
    (hnames : (schema.map Prod.fst).Nodup) (hmg : C.merge = true) (hp : n ∉ p.passthrough) {c : Str}
    (hor : td.primaryKey = [c] ∧ c ∈ td.intColumns ∨ ∃ kb d, KeyPair C D p schema t c kb d)
    (hcov : ∀ kb d, KeyPair C D p schema t c kb d → ∀ r ∈ B kd, r.get c ≠ .null → ∃ q ∈ B kb, q.get d = r.get c)
    {r : Row} (hr : r ∈ B kd) {w : Int} (hw : r.get c = .int w) :
    ∃ o, dget ((dget offs kd).getD []) c = some o ∧ w < o := by
  obtain ⟨dest, hdest, -, hsh⟩ := hcp.derived.merged hmg
  have hnn : r.get c ≠ .null := by rw [hw]; simp
  have htab : ∀ {n k kd t td}, Copied C D p schema n k kd t td → ∀ t', (kd, t') ∈ dest → t' = td := by
    intro n k kd t td hc t' ht'
    have h1 := ((hdest kd t').1 ht').2
    have := dget_of_mem hnames h1
    rw [dget_of_mem hnames hc.schema] at this
    exact (Option.some.inj this).symm
  rcases hsh n kd ⟨hc.planned, hp, hc.dest⟩ c with ⟨n', d, m, h1, h2, h3⟩ | ⟨h1, h2⟩
  · refine ⟨_, h3, ?_⟩
    obtain ⟨k', t', g1, g2, g3, g4, g5⟩ := h2
    obtain ⟨k2, t2, fk, tb, f1, f2, f3, f4, f5, f6, rfl⟩ := h1
    rw [hc.name] at f1
    cases f1
    have f2 := dget_of_mem hcp.derived.tables f2
    rw [known_table hok hfo hcp hc.planned hc.name hc.source] at f2
    cases f2
    have hdot := (hok.src.fk_cols n t hc.source fk f3).2.2
    obtain ⟨g6, g7⟩ := (hdest k' t').1 g2
    obtain ⟨q, hq, e⟩ := hcov k' d ⟨fk, f3, _, tb, t', f4, f6, ⟨g1.1, parse_of_nodot (k := (fk.dstSchema, fk.dstTable)) hdot,
      table_known hfo hcp (dget_of_mem hcp.derived.tables f5), g1.2.2, g6, g7⟩, g1.2.1, g3, g4⟩ r hr hnn
    rw [hw] at e
    have := g5.2 q hq w e
    omega
  · rcases hor with ⟨h4, h5⟩ | ⟨kb, d, hkp⟩
    · rcases h2 with ⟨m, ⟨k', t', g1, g2, g3, g4, g5⟩, h6⟩ | ⟨h6, -⟩
      · cases destOf_unique g1.2.2 hc.dest
        cases m with
        | none => exact absurd hw (g5 r hr w)
        | some m =>
          refine ⟨_, h6, ?_⟩
          have := g5.2 r hr w hw
          show w < m + 1
          omega
      · exact absurd ⟨kd, td, ⟨hc.planned, hp, hc.dest⟩, (hdest kd td).2 ⟨hc.reached, hc.schema⟩, h4, h5, colMax_isMax _ _⟩ (h6 _)
    · obtain ⟨q, hq, e⟩ := hcov kb d hkp r hr hnn
      obtain ⟨fk, f1, k0, tb, tdb, f2, f3, f4, f5, f6, f7⟩ := hkp
      have hshd : Shifted ⟨C.remap, T, dest, B, p.passthrough, dkeys p.queries⟩ (fk.dstSchema ++ '.' :: fk.dstTable) d
          (colMax (B kb) d) :=
        ⟨kb, tdb, ⟨f4.planned, f5, f4.dest⟩, (hdest kb tdb).2 ⟨f4.reached, f4.schema⟩, f6, f7, colMax_isMax _ _⟩
      have href : KeyRef ⟨C.remap, T, dest, B, p.passthrough, dkeys p.queries⟩ n c (fk.dstSchema ++ '.' :: fk.dstTable) := by
        refine ⟨k, t, fk, tb, hc.name, dget_some_mem (known_table hok hfo hcp hc.planned hc.name hc.source), f1, f2, ?_, f3, rfl⟩
        have hdot := (hok.src.fk_cols n t hc.source fk f1).2.2
        have : some (fk.dstSchema, fk.dstTable) = some k0 := (parse_of_nodot (k := (fk.dstSchema, fk.dstTable)) hdot).symm.trans f4.name
        cases this
        exact dget_some_mem (known_table hok hfo hcp f4.planned f4.name f4.source)
      cases hm : colMax (B kb) d with
      | some m =>
        rw [hm] at hshd
        exact absurd hshd (h1 _ d m href)
      | none =>
        have := colMax_isMax (B kb) d
        rw [hm] at this
        rw [hw] at e
        exact absurd e (this q hq w)

/-- The keys sent to a table differ from each other and from those it held. -/
theorem sent_keys (hnames : (schema.map Prod.fst).Nodup) {n : Str} {k kd : Key} {t td : TableMeta}
    (hc : Copied C D p schema n k kd t td) (hka : KeysApart C D cfg T0 p S schema n k kd t td)
    (hne : td.primaryKey ≠ []) (hu : KeysUnique td.primaryKey (S kd)) {ch : Chain Val} {rows : List Row}
    {outs : List (List Val)} (h : Sent C D p T mult compact offs Smp ids n k kd t td ch rows outs) :
    KeysUnique (target D kd td).pk (B kd ++ fullRows (target D kd td) (writtenColumns ch (target D kd td)) outs) := by
  have hpkeq : (target D kd td).pk = td.primaryKey := by unfold target; split <;> rfl
  have hlook : ∀ c d dc, PointsTo T compact k c d dc → ¬ IsCompacted compact k c → UniqueIn (Smp d) dc :=
    fun c d dc h _ => lookups_unique hok hfo hcp hI hplan hpk hc h
  have hplanned : ∃ q, Planned p k q := by
    obtain ⟨⟨m, q⟩, g1, g2⟩ := List.mem_map.1 hc.planned
    dsimp only at g2
    exact ⟨q, m, g1, by rw [g2]; exact hc.name⟩
  have hne' : t.primaryKey ≠ [] := by
    intro e
    cases h1 : td.primaryKey with
    | nil => exact hne h1
    | cons c l =>
      have := (hka.same c).1 (by rw [h1]; simp)
      rw [e] at this
      cases this
  have hsnd : ((Smp k).map fun r => t.primaryKey.map r.get).Nodup :=
    (c56_constraints_hold hI hplan hpk hcp.sample hplanned (t := t) (by
      rw [dbTables_iff hok.src (parse_fst_nodot hc.name), show k.1 ++ '.' :: k.2 = n from parse_str hc.name]
      exact hc.source)).1 hne'
  obtain ⟨hrl, hwc, hval⟩ := sent_copy hcp (hok.srcColumns n t hc.source) hlook h
  have hpos := timesWritten_pos C p n
  -- the values of key columns in a row written
  have hget : ∀ (i : Nat) (b : List Val), outs[i]? = some b →
      ∃ (r row : Row) (id : Int), (Smp k)[i / timesWritten C p n]? = some r ∧ (id, r) ∈ (ids k).zip (Smp k) ∧
        CompactedRow T compact Smp ids k t.columns r id row ∧ ∀ c ∈ t.primaryKey,
          (fullRow (target D kd td) ((writtenColumns ch (target D kd td)).zip b)).get c =
            outVal ((dget mult n).getD []) (timesWritten C p n) ((i % timesWritten C p n : Nat) : Int)
              ((dget offs kd).getD []) c (row.get c) := by
    intro i b hb
    obtain ⟨r, row, id, h1, h2, h3, h4⟩ := hval (i / timesWritten C p n) (i % timesWritten C p n) b (Nat.mod_lt _ hpos)
      (by rw [Nat.div_add_mod']; exact hb)
    refine ⟨r, row, id, h1, h2, h3, fun c hcc => ?_⟩
    have := (fullRow_stored h.fitting (List.mem_of_getElem? hb)).2.1 c (hwc c (hka.kept c hcc))
    rw [h4 c (hka.kept c hcc)] at this
    exact (Option.some.inj this).symm
  unfold KeysUnique at hu ⊢
  rw [hpkeq, List.map_append, List.nodup_append]
  refine ⟨?_, ?_, ?_⟩
  · by_cases hd : C.truncate = true
    · rw [hcp.begins.emptied hd kd hc.reached]; simp
    · rw [hcp.begins.kept kd fun g => absurd g hd]; exact hu
  · unfold fullRows
    rw [List.map_map, List.nodup_iff_getElem?_ne_getElem?]
    intro i i' hlt hi' he
    rw [List.getElem?_map, List.getElem?_map] at he
    rw [List.length_map] at hi'
    rw [List.getElem?_eq_getElem (show i < outs.length by omega), List.getElem?_eq_getElem hi'] at he
    have he := Option.some.inj he
    simp only [Function.comp] at he
    obtain ⟨r, row, id, h1, h2, h3, h4⟩ := hget i _ (List.getElem?_eq_getElem (by omega))
    obtain ⟨r', row', id', h1', h2', h3', h4'⟩ := hget i' _ (List.getElem?_eq_getElem hi')
    have hval2 : ∀ c ∈ t.primaryKey, row.get c = row'.get c ∧ (c ∈ (dget mult n).getD [] → (∃ x, row.get c = .int x) →
        i % timesWritten C p n = i' % timesWritten C p n) := by
      intro c hcc
      refine outVal_inj (offsets := (dget offs kd).getD []) (Nat.mod_lt _ hpos) (Nat.mod_lt _ hpos) ?_
      rw [← h4 c hcc, ← h4' c hcc]
      exact List.map_inj_left.1 he c ((hka.same c).2 hcc)
    have hrr : ∀ c ∈ t.primaryKey, r.get c = r'.get c := by
      intro c hcc
      have e := (hval2 c hcc).1
      rcases key_column hok hfo hcp hI hplan hall hpk hsrc hc hka hcc with g | ⟨d, dc, g⟩ | g
      · rw [g r id row h2 h3, g r' id' row' h2' h3'] at e
        cases e
        rw [zip_inj (hcp.ids k).2.1 h2 h2']
      · obtain ⟨j, m, g1, g2, g3⟩ := g r id row h2 h3
        obtain ⟨j', m', g1', g2', g3'⟩ := g r' id' row' h2' h3'
        rw [g3, g3'] at e
        cases e
        rw [g2, g2', zip_inj (hcp.ids d).2.1 g1 g1']
      · rw [g r id row h2 h3, g r' id' row' h2' h3'] at e
        exact e
    have hdiv : i / timesWritten C p n = i' / timesWritten C p n := by
      by_contra hcon
      have hlt1 := (List.getElem?_eq_some_iff.1 h1).1
      have hlt2 := (List.getElem?_eq_some_iff.1 h1').1
      have hle : i / timesWritten C p n ≤ i' / timesWritten C p n := Nat.div_le_div_right (by omega)
      refine List.nodup_iff_getElem?_ne_getElem?.1 hsnd _ _ (by omega : i / timesWritten C p n < i' / timesWritten C p n) (by rw [List.length_map]; exact hlt2) ?_
      rw [List.getElem?_map, List.getElem?_map, h1, h1']
      simp only [Option.map_some, Option.some.injEq]
      exact List.map_congr_left hrr
    have hmod : i % timesWritten C p n = i' % timesWritten C p n := by
      by_cases h1t : 1 < timesWritten C p n
      · obtain ⟨c, hcc, hm, hint⟩ := hka.copies h1t
        refine (hval2 c hcc).2 ((multiplied_iff hok hfo hcp n c).2 hm) ?_
        have hr := c07_sample_from_source hI hplan hpk hcp.sample hplanned _ (List.of_mem_zip h2).2
        rcases key_column hok hfo hcp hI hplan hall hpk hsrc hc hka hcc with g | ⟨d, dc, g⟩ | g
        · exact ⟨_, g r id row h2 h3⟩
        · obtain ⟨j, -, -, -, g3⟩ := g r id row h2 h3
          exact ⟨j, g3⟩
        · rw [g r id row h2 h3]
          exact hint r hr
      · have : timesWritten C p n = 1 := by omega
        rw [this, Nat.mod_one, Nat.mod_one]
    have e1 := Nat.div_add_mod i (timesWritten C p n)
    have e2 := Nat.div_add_mod i' (timesWritten C p n)
    rw [hdiv, hmod] at e1
    omega
  · intro x hx y hy e
    subst e
    obtain ⟨q, hq, rfl⟩ := List.mem_map.1 hx
    unfold fullRows at hy
    rw [List.map_map] at hy
    obtain ⟨b, hb, e⟩ := List.mem_map.1 hy
    simp only [Function.comp] at e
    obtain ⟨i, hi⟩ := List.getElem?_of_mem hb
    obtain ⟨r, row, id, h1, h2, h3, h4⟩ := hget i b hi
    by_cases htr : C.truncate = true
    · rw [hcp.begins.emptied htr kd hc.reached] at hq
      cases hq
    have hBS : ∀ k', B k' = S k' := fun k' => hcp.begins.kept k' fun g => absurd g htr
    rcases hka.apart with g | g | ⟨hmg, hp, hst0, c, hcc, hnat, hor, hcov⟩
    · rw [hBS, g] at hq; cases hq
    · exact htr g
    have hx : ∃ x : Int, 0 ≤ x ∧ row.get c = .int x := by
      rcases key_column hok hfo hcp hI hplan hall hpk hsrc hc hka hcc with g | ⟨d, dc, g⟩ | g
      · refine ⟨id, ?_, g r id row h2 h3⟩
        have := (((hcp.ids k).2.2 id).1 (List.of_mem_zip h2).1).1
        omega
      · obtain ⟨j, m, g1, -, g3⟩ := g r id row h2 h3
        refine ⟨j, ?_, g3⟩
        have := (((hcp.ids d).2.2 j).1 (List.of_mem_zip g1).1).1
        omega
      · rw [g r id row h2 h3]
        exact hnat r (c07_sample_from_source hI hplan hpk hcp.sample hplanned _ (List.of_mem_zip h2).2)
    obtain ⟨x, hx0, hx⟩ := hx
    have h5 := List.map_inj_left.1 e c ((hka.same c).2 hcc)
    rw [h4 c hcc, hx] at h5
    obtain ⟨y, hy0, hy⟩ : ∃ y : Int, 0 ≤ y ∧ outVal ((dget mult n).getD []) (timesWritten C p n)
        ((i % timesWritten C p n : Nat) : Int) ((dget offs kd).getD []) c (.int x) =
          .int (y + (dget ((dget offs kd).getD []) c).getD 0) := by
      unfold outVal
      split
      · refine ⟨x * (timesWritten C p n) + ((i % timesWritten C p n : Nat) : Int), ?_, rfl⟩
        have := Int.mul_nonneg hx0 (Int.natCast_nonneg (timesWritten C p n))
        omega
      · exact ⟨x, hx0, rfl⟩
    rw [hy] at h5
    obtain ⟨o, ho, hlt⟩ := below_offset hok hfo hcp hc hnames hmg hp hor (fun kb d hkp r hr hn => by
      rw [hBS] at hr ⊢
      exact hcov kb d hkp r hr hn) hq h5.symm
    rw [ho] at hlt
    simp only [Option.getD_some] at hlt
    omega

end
end Subsetter
