import Verif.Proofs.RunKeys
import Verif.Spec.Unique
import Verif.Props.Counts
import Verif.Props.Random

/- Values unique in the source are unique in the destination. -/
namespace Subsetter
open Spec Props

variable {σ : Type} {C : RunConfig} {D : Setting σ} {p : Plan} {S : DbState} {s : σ}

/-- Rows that agree in `u` have the same primary key, and the strategy lets one of them remain. -/
def Tolerates (st : Strategy) (pk u : List Str) (r r' : Row) : Prop :=
  (∀ c ∈ u, r.get c ≠ .null) → (∀ c ∈ u, r.get c = r'.get c) →
    st ≠ .error ∧ pk ≠ [] ∧ ∀ c ∈ pk, r.get c = r'.get c

theorem tolerates_symm {st : Strategy} {pk u : List Str} {r r' : Row} (h : Tolerates st pk u r r') :
    Tolerates st pk u r' r := by
  intro h1 h2
  obtain ⟨g1, g2, g3⟩ := h (fun c hc => by rw [← h2 c hc]; exact h1 c hc) fun c hc => (h2 c hc).symm
  exact ⟨g1, g2, fun c hc => (g3 c hc).symm⟩

theorem tolerates_of_mem {st : Strategy} {pk u : List Str} {rows : List Row} (h : rows.Pairwise (Tolerates st pk u))
    (hst : st ≠ .error) (hpk : pk ≠ []) {r r' : Row} (hr : r ∈ rows) (hr' : r' ∈ rows) : Tolerates st pk u r r' := by
  have : Std.Symm (Tolerates st pk u) := ⟨fun _ _ g => tolerates_symm g⟩
  exact h.forall_of_forall (fun _ _ _ _ => ⟨hst, hpk, fun _ _ => rfl⟩) hr hr'

theorem distinguishes_of {st : Strategy} {pk u : List Str} {rows : List Row} (h : rows.Pairwise (Tolerates st pk u))
    (hst : st = .error ∨ pk = []) : Distinguishes u rows := by
  refine h.imp fun {r r'} hrr hn => ?_
  by_contra hcon
  have : ∀ c ∈ u, r.get c = r'.get c := fun c hc => by
    by_contra hne
    exact hcon ⟨c, hc, hne⟩
  obtain ⟨h1, h2, -⟩ := hrr hn this
  rcases hst with h | h
  · exact h1 h
  · exact h2 h

/-- Batches keep columns unique. -/
theorem commits_distinguish {dialect : Dialect} {st : Strategy} {d : DestTable} {cols u : List Str}
    {bs : List (List (List Val))} {old new : List Row} (h : Commits (flushBuffer dialect st d cols) old bs new)
    (hf : Fitting d cols bs.flatten) (hold : TableHolds d old) (hu : ∀ c ∈ u, c ∈ cols)
    (hd : Distinguishes u old)
    (hall : (old ++ fullRows d cols bs.flatten).Pairwise (Tolerates st d.pk u)) : Distinguishes u new := by
  by_cases hst : st = .error ∨ d.pk = []
  · rw [commits_append h (hst.imp id .inl)]
    exact distinguishes_of hall hst
  · have h1 : st ≠ .error := fun e => hst (.inl e)
    have h2 : d.pk ≠ [] := fun e => hst (.inr e)
    cases bs with
    | nil => cases h; exact hd
    | cons b bs =>
      have hpk : ∀ c ∈ d.pk, c ∈ cols := by
        cases h with
        | cons g1 _ =>
          unfold flushBuffer at g1
          cases g2 : conflictInit st d.pk cols with
          | error e => rw [g2] at g1; cases g1
          | ok x =>
            unfold conflictInit at g2
            split at g2
            · rename_i g3
              exact absurd (List.isEmpty_iff.1 g3) h2
            · split at g2
              · rename_i g3
                simpa using g3
              · cases g2
      obtain ⟨a1, -, -, -, a5⟩ := commits_facts h hf hold.1 hold.2
      have a1 := a1 h2
      have hor : ∀ x ∈ new, ∃ r ∈ old ++ fullRows d cols (b :: bs).flatten, ∀ c ∈ cols, x.get c = r.get c := by
        intro x hx
        rcases a5 x hx with ⟨r, g1, g2⟩ | ⟨y, hy, m, g1, g2⟩
        · exact ⟨r, List.mem_append_left _ g1, fun c hc => g2 c fun _ => .inr hc⟩
        · refine ⟨fullRow d (cols.zip y), List.mem_append_right _ (List.mem_map.2 ⟨y, hy, rfl⟩), fun c hc => ?_⟩
          rw [g2 c fun _ => .inr hc]
          exact StoredAs.get_eq g1 (fullRow_stored hf hy) c
      unfold KeysUnique at a1
      rw [List.Nodup, List.pairwise_map] at a1
      refine (List.Pairwise.and_mem.1 a1).imp fun {x x'} hxx hn => ?_
      obtain ⟨hx, hx', hne⟩ := hxx
      by_contra hcon
      have hag : ∀ c ∈ u, x.get c = x'.get c := fun c hc => by
        by_contra hne
        exact hcon ⟨c, hc, hne⟩
      obtain ⟨r, g1, g2⟩ := hor x hx
      obtain ⟨r', g1', g2'⟩ := hor x' hx'
      obtain ⟨-, -, g3⟩ := tolerates_of_mem hall h1 h2 g1 g1' (fun c hc => by rw [← g2 c (hu c hc)]; exact hn c hc)
        fun c hc => by rw [← g2 c (hu c hc), ← g2' c (hu c hc)]; exact hag c hc
      exact hne (List.map_congr_left fun c hc => by rw [g2 c (hpk c hc), g2' c (hpk c hc)]; exact g3 c hc)

theorem outVal_not_null {mult : List Str} {m i : Int} {o : Dict Str Int} {c : Str} {v : Val}
    (h : outVal mult m i o c v ≠ .null) : v ≠ .null := by
  rintro rfl
  exact h (outVal_null ..)

section
variable {schema : Dict Str TableMeta} {order : List Str} {B : DbState}
  {Smp : Key → List Row} {ids : Key → List Int} {T : Tables} {mult : Dict Str (List Str)}
  {compact : Dict Key (List Str)} {offs : Dict Key (Dict Str Int)}
  (hok : RunOK C D p) (hfo : LookupsFollow C D p)
  (hcp : Copying C D p S schema order B Smp ids T mult compact offs)
include hok hfo hcp

/-- How a column is compacted: it is given the identifier of the row, or that of the row referred to if it was sampled, or
left alone. -/
theorem any_column {n : Str} {k kd : Key} {t td : TableMeta} (hc : Copied C D p schema n k kd t td) {c : Str}
    (hcol : c ∈ t.columns) :
    (∀ r id row, CompactedRow T compact Smp ids k t.columns r id row → row.get c = .int id) ∨
    (∃ d dc, ∀ r id row, CompactedRow T compact Smp ids k t.columns r id row →
      row.get c = .null ∨ ∃ j m, (j, m) ∈ (ids d).zip (Smp d) ∧ r.get c ≠ .null ∧ r.get c = m.get dc ∧ row.get c = .int j) ∨
    ∀ r id row, CompactedRow T compact Smp ids k t.columns r id row → row.get c = r.get c := by
  by_cases h1 : IsCompacted compact k c
  · exact .inl fun r id row hrow => hrow.own c hcol h1
  by_cases h2 : ∃ d dc, PointsTo T compact k c d dc
  · obtain ⟨d, dc, h2⟩ := h2
    right; left
    refine ⟨d, dc, fun r id row hrow => ?_⟩
    have hpt := h2
    obtain ⟨t', fk, g1, g2, g3, g4, g5⟩ := h2
    rw [known_table hok hfo hcp hc.planned hc.name hc.source] at g1
    cases g1
    have huniq : ∀ d' dc', PointsTo T compact k c d' dc' → d' = d ∧ dc' = dc := by
      rcases (pair_safe hok hfo hcp hc.planned hc.name hc.source g2 g4).2 with ⟨-, -, u⟩ | ⟨-, -, u⟩
      · rw [g3] at u; exact u
      · exact absurd hpt (u d dc)
    by_cases hm : ∃ m ∈ Smp d, r.get c ≠ .null ∧ r.get c = m.get dc
    · obtain ⟨m, w1, w2, w3⟩ := hm
      obtain ⟨i, hi⟩ := List.getElem?_of_mem w1
      have hilt := (List.getElem?_eq_some_iff.1 hi).1
      have hlen := (hcp.ids d).1
      have hzz : ((ids d)[i]'(by omega), m) ∈ (ids d).zip (Smp d) := List.mem_of_getElem? (i := i) (by
        rw [List.getElem?_zip_eq_some]
        exact ⟨List.getElem?_eq_getElem (by omega), hi⟩)
      exact .inr ⟨_, m, hzz, w2, w3, hrow.found c hcol h1 d dc hpt huniq _ m hzz w2 w3⟩
    · refine .inl (hrow.lost c hcol h1 d dc hpt huniq fun m hm' => ?_)
      by_contra hcon
      exact hm ⟨m, hm', fun e => hcon (.inl e), by
        by_contra e
        exact hcon (.inr e)⟩
  · right; right
    exact fun r id row hrow => hrow.kept c hcol h1 fun d dc h => h2 ⟨d, dc, h⟩

/-- Rows sent to a table differ in unique columns from each other and from those it held, or are the same. -/
theorem sent_unique {cfg : PlannerConfig} {T0 : Tables} (hI : Input cfg T0) (hplan : planInternal cfg T0 = .ok p)
    (hpk : PkOK (dbTables D.srcDb) D.src) (hnames : (schema.map Prod.fst).Nodup) {n : Str} {k kd : Key}
    {t td : TableMeta} (hc : Copied C D p schema n k kd t td) {u : List Str}
    (hun : StaysUnique C D p S schema n k kd t td u) {ch : Chain Val} {rows : List Row} {outs : List (List Val)}
    (h : Sent C D p T mult compact offs Smp ids n k kd t td ch rows outs) :
    (∀ c ∈ u, c ∈ writtenColumns ch (target D kd td)) ∧
    (B kd ++ fullRows (target D kd td) (writtenColumns ch (target D kd td)) outs).Pairwise
      (Tolerates (strategyFor C p n) (target D kd td).pk u) := by
  have hpkeq : (target D kd td).pk = td.primaryKey := by unfold target; split <;> rfl
  have hlook : ∀ c d dc, PointsTo T compact k c d dc → ¬ IsCompacted compact k c → UniqueIn (Smp d) dc :=
    fun c d dc h _ => lookups_unique hok hfo hcp hI hplan hpk hc h
  have hplanned : ∃ q, Planned p k q := by
    obtain ⟨⟨m, q⟩, g1, g2⟩ := List.mem_map.1 hc.planned
    dsimp only at g2
    exact ⟨q, m, g1, by rw [g2]; exact hc.name⟩
  have hsd : Distinguishes u (Smp k) := by
    refine subperm_pairwise (fun r r' hrr hn => ?_) (c56_subperm hI hplan hpk hcp.sample hplanned) hun.source
    by_contra hcon
    have hag : ∀ c ∈ u, r'.get c = r.get c := fun c hc => by
      by_contra hne
      exact hcon ⟨c, hc, hne⟩
    obtain ⟨c, h1, h2⟩ := hrr fun c hc => by rw [← hag c hc]; exact hn c hc
    exact h2 (hag c h1).symm
  obtain ⟨hrl, hwc, hval⟩ := sent_copy_at hcp (hok.srcColumns n t hc.source) hlook h
  have hpos := timesWritten_pos C p n
  -- the values in a row written
  have hget : ∀ (i : Nat) (b : List Val), outs[i]? = some b →
      ∃ (r row : Row) (id : Int), (Smp k)[i / timesWritten C p n]? = some r ∧
        (ids k)[i / timesWritten C p n]? = some id ∧ (id, r) ∈ (ids k).zip (Smp k) ∧
        CompactedRow T compact Smp ids k t.columns r id row ∧ ∀ c, KeptColumn C D n t kd td c →
          (fullRow (target D kd td) ((writtenColumns ch (target D kd td)).zip b)).get c =
            outVal ((dget mult n).getD []) (timesWritten C p n) ((i % timesWritten C p n : Nat) : Int)
              ((dget offs kd).getD []) c (row.get c) := by
    intro i b hb
    obtain ⟨r, row, id, h1, h0, h2, h3, h4⟩ := hval (i / timesWritten C p n) (i % timesWritten C p n) b (Nat.mod_lt _ hpos)
      (by rw [Nat.div_add_mod']; exact hb)
    refine ⟨r, row, id, h1, h0, h2, h3, fun c hcc => ?_⟩
    have := (fullRow_stored h.fitting (List.mem_of_getElem? hb)).2.1 c (hwc c hcc)
    rw [h4 c hcc] at this
    exact (Option.some.inj this).symm
  refine ⟨fun c hcu => hwc c (hun.kept c hcu), ?_⟩
  rw [List.pairwise_append]
  refine ⟨?_, ?_, ?_⟩
  · have hB : Distinguishes u (B kd) := by
      by_cases hd : C.truncate = true
      · rw [hcp.begins.emptied hd kd hc.reached]; exact .nil
      · rw [hcp.begins.kept kd fun g => absurd g hd]; exact hun.before
    refine hB.imp fun {r r'} hrr hn hag => ?_
    obtain ⟨c, h1, h2⟩ := hrr hn
    exact absurd (hag c h1) h2
  · rw [List.pairwise_iff_getElem]
    intro i i' hi hi' hlt hn hag
    exfalso
    unfold fullRows at hi hi'
    rw [List.length_map] at hi hi'
    simp only [fullRows, List.getElem_map] at hn hag
    obtain ⟨r, row, id, h1, h0, h2, h3, h4⟩ := hget i _ (List.getElem?_eq_getElem hi)
    obtain ⟨r', row', id', h1', h0', h2', h3', h4'⟩ := hget i' _ (List.getElem?_eq_getElem hi')
    have hnn : ∀ c ∈ u, row.get c ≠ .null := fun c hcu => by
      have := hn c hcu
      rw [h4 c (hun.kept c hcu)] at this
      exact outVal_not_null this
    have hval2 : ∀ c ∈ u, row.get c = row'.get c ∧ (c ∈ (dget mult n).getD [] → (∃ x, row.get c = .int x) →
        i % timesWritten C p n = i' % timesWritten C p n) := by
      intro c hcc
      refine outVal_inj (offsets := (dget offs kd).getD []) (Nat.mod_lt _ hpos) (Nat.mod_lt _ hpos) ?_
      rw [← h4 c (hun.kept c hcc), ← h4' c (hun.kept c hcc)]
      exact hag c hcc
    have hdiv : i / timesWritten C p n = i' / timesWritten C p n := by
      by_contra hcon
      have hlt1 := (List.getElem?_eq_some_iff.1 h1).1
      have hlt2 := (List.getElem?_eq_some_iff.1 h1').1
      have hle : i / timesWritten C p n ≤ i' / timesWritten C p n := Nat.div_le_div_right (by omega)
      have hpair := List.pairwise_iff_getElem.1 hsd _ _ hlt1 hlt2 (by omega)
      rw [(List.getElem?_eq_some_iff.1 h1).2, (List.getElem?_eq_some_iff.1 h1').2] at hpair
      by_cases hown : ∃ c ∈ u, ∀ r id row, CompactedRow T compact Smp ids k t.columns r id row → row.get c = .int id
      · obtain ⟨c, hcc, g⟩ := hown
        have e := (hval2 c hcc).1
        rw [g r id row h3, g r' id' row' h3'] at e
        cases e
        have hlen := (hcp.ids k).1
        refine List.nodup_iff_getElem?_ne_getElem?.1 (hcp.ids k).2.1 _ _
          (by omega : i / timesWritten C p n < i' / timesWritten C p n) (by omega) ?_
        rw [h0, h0']
      · have hrr : ∀ c ∈ u, r.get c ≠ .null ∧ r.get c = r'.get c := by
          intro c hcc
          have e := (hval2 c hcc).1
          have hn1 := hnn c hcc
          rcases any_column hok hfo hcp hc (hun.kept c hcc).1 with g | ⟨d, dc, g⟩ | g
          · exact absurd ⟨c, hcc, g⟩ hown
          · rcases g r id row h3 with g0 | ⟨j, m, g1, g2, g3, g4⟩
            · exact absurd g0 hn1
            · rcases g r' id' row' h3' with g0 | ⟨j', m', g1', g2', g3', g4'⟩
              · rw [g0] at e; exact absurd e hn1
              · rw [g4, g4'] at e
                cases e
                exact ⟨g2, by rw [g3, g3', zip_inj (hcp.ids d).2.1 g1 g1']⟩
          · rw [g r id row h3] at hn1
            rw [g r id row h3, g r' id' row' h3'] at e
            exact ⟨hn1, e⟩
        obtain ⟨c, hcc, hne⟩ := hpair fun c hcc => (hrr c hcc).1
        exact hne (hrr c hcc).2
    have hmod : i % timesWritten C p n = i' % timesWritten C p n := by
      by_cases h1t : 1 < timesWritten C p n
      · obtain ⟨c, hcc, hm, hint⟩ := hun.copies h1t
        refine (hval2 c hcc).2 ((multiplied_iff hok hfo hcp n c).2 hm) ?_
        have hr := c07_sample_from_source hI hplan hpk hcp.sample hplanned _ (List.of_mem_zip h2).2
        rcases any_column hok hfo hcp hc (hun.kept c hcc).1 with g | ⟨d, dc, g⟩ | g
        · exact ⟨_, g r id row h3⟩
        · rcases g r id row h3 with g | ⟨j, -, -, -, -, g3⟩
          · exact absurd g (hnn c hcc)
          · exact ⟨j, g3⟩
        · rcases hint r hr with e | e
          · exact absurd ((g r id row h3).trans e) (hnn c hcc)
          · rw [g r id row h3]; exact e
      · have : timesWritten C p n = 1 := by omega
        rw [this, Nat.mod_one, Nat.mod_one]
    have e1 := Nat.div_add_mod i (timesWritten C p n)
    have e2 := Nat.div_add_mod i' (timesWritten C p n)
    rw [hdiv, hmod] at e1
    omega
  · intro q hq x hx hn hag
    unfold fullRows at hx
    obtain ⟨b, hb, rfl⟩ := List.mem_map.1 hx
    obtain ⟨i, hi⟩ := List.getElem?_of_mem hb
    obtain ⟨r, row, id, h1, h0, h2, h3, h4⟩ := hget i b hi
    have hnn : ∀ c ∈ u, row.get c ≠ .null := fun c hcu => by
      have := hn c hcu
      rw [hag c hcu, h4 c (hun.kept c hcu)] at this
      exact outVal_not_null this
    have hr := c07_sample_from_source hI hplan hpk hcp.sample hplanned _ (List.of_mem_zip h2).2
    by_cases htr : C.truncate = true
    · rw [hcp.begins.emptied htr kd hc.reached] at hq
      cases hq
    have hBS : ∀ k', B k' = S k' := fun k' => hcp.begins.kept k' fun g => absurd g htr
    rcases hun.apart with g | g | ⟨c, hcc, hmg, hp, hst0, hnat, hor, hcov⟩ | ⟨hid, hsame⟩
    · rw [hBS, g] at hq; cases hq
    · exact absurd g htr
    · exfalso
      have hx : ∃ x : Int, 0 ≤ x ∧ row.get c = .int x := by
        rcases any_column hok hfo hcp hc (hun.kept c hcc).1 with g | ⟨d, dc, g⟩ | g
        · refine ⟨id, ?_, g r id row h3⟩
          have := (((hcp.ids k).2.2 id).1 (List.of_mem_zip h2).1).1
          omega
        · rcases g r id row h3 with g | ⟨j, m, g1, -, -, g3⟩
          · exact absurd g (hnn c hcc)
          · refine ⟨j, ?_, g3⟩
            have := (((hcp.ids d).2.2 j).1 (List.of_mem_zip g1).1).1
            omega
        · rcases hnat r hr with e | e
          · exact absurd ((g r id row h3).trans e) (hnn c hcc)
          · rw [g r id row h3]
            exact e
      obtain ⟨x, hx0, hx⟩ := hx
      have h5 := hag c hcc
      rw [h4 c (hun.kept c hcc), hx] at h5
      obtain ⟨y, hy0, hy⟩ : ∃ y : Int, 0 ≤ y ∧ outVal ((dget mult n).getD []) (timesWritten C p n)
          ((i % timesWritten C p n : Nat) : Int) ((dget offs kd).getD []) c (.int x) =
            .int (y + (dget ((dget offs kd).getD []) c).getD 0) := by
        unfold outVal
        split
        · refine ⟨x * (timesWritten C p n) + ((i % timesWritten C p n : Nat) : Int), ?_, rfl⟩
          have := Int.mul_nonneg hx0 (Int.natCast_nonneg (timesWritten C p n))
          omega
        · exact ⟨x, hx0, rfl⟩
      rw [hy] at h5
      obtain ⟨o, ho, hlt⟩ := below_offset hok hfo hcp hc hnames hmg hp hor (fun kb d hkp r hr hn => by
        rw [hBS] at hr ⊢
        exact hcov kb d hkp r hr hn) hq h5
      rw [ho] at hlt
      simp only [Option.getD_some] at hlt
      omega
    · rw [hBS] at hq
      have hco := not_compacted hid hcp
      have hplain : ∀ c, KeptColumn C D n t kd td c →
          (fullRow (target D kd td) ((writtenColumns ch (target D kd td)).zip b)).get c = r.get c := by
        intro c hkc
        rw [h4 c hkc, h3.kept c hkc.1 (hco _ _) (by
          rintro d dc ⟨-, -, -, -, -, -, h1⟩
          exact hco d dc h1)]
        have hmu : c ∉ (dget mult n).getD [] := by
          intro hc
          have := ((hcp.derived.mult n c).1 hc).1
          have := hid.once
          omega
        unfold outVal
        rw [if_neg hmu, hcp.derived.unmerged hid.merge]
        unfold shiftVal
        cases r.get c <;> simp [dget]
      obtain ⟨g1, g2, g3⟩ := hsame q hq r hr fun c hcu => ⟨hn c hcu, by
        rw [hag c hcu, hplain c (hun.kept c hcu)]⟩
      exact ⟨g1, by rw [hpkeq]; exact g2, fun c hcp' => by
        rw [hpkeq] at hcp'
        rw [(g3 c hcp').2, hplain c (g3 c hcp').1]⟩

/-- Columns without NULL are written without NULL. -/
theorem sent_filled {cfg : PlannerConfig} {T0 : Tables} (hI : Input cfg T0) (hplan : planInternal cfg T0 = .ok p)
    (hall : Compacts C → ∀ n y, dget cfg.targets n = some y → y.all = true → y.amount = none)
    (hpk : PkOK (dbTables D.srcDb) D.src) (hsrc : Compacts C → Intact D.srcDb D.src) {n : Str} {k kd : Key}
    {t td : TableMeta} (hc : Copied C D p schema n k kd t td) {c : Str} (hf : StaysFilled C D cfg T0 S n k kd t td c)
    {ch : Chain Val} {rows : List Row} {outs : List (List Val)}
    (h : Sent C D p T mult compact offs Smp ids n k kd t td ch rows outs) :
    c ∈ writtenColumns ch (target D kd td) ∧
    ∀ b ∈ outs, ∀ v, valueOf (writtenColumns ch (target D kd td)) b c = some v → v ≠ .null := by
  have hlook : ∀ c d dc, PointsTo T compact k c d dc → ¬ IsCompacted compact k c → UniqueIn (Smp d) dc :=
    fun c d dc h _ => lookups_unique hok hfo hcp hI hplan hpk hc h
  obtain ⟨hrl, hwc, hval⟩ := sent_copy hcp (hok.srcColumns n t hc.source) hlook h
  have hpos := timesWritten_pos C p n
  have hplanned : ∃ q, Planned p k q := by
    obtain ⟨⟨m, q⟩, g1, g2⟩ := List.mem_map.1 hc.planned
    dsimp only at g2
    exact ⟨q, m, g1, by rw [g2]; exact hc.name⟩
  refine ⟨hwc c hf.kept, fun b hb v hv => ?_⟩
  obtain ⟨i, hi⟩ := List.getElem?_of_mem hb
  obtain ⟨r, row, id, h1, h2, h3, h4⟩ := hval (i / timesWritten C p n) (i % timesWritten C p n) b (Nat.mod_lt _ hpos)
    (by rw [Nat.div_add_mod']; exact hi)
  rw [h4 c hf.kept] at hv
  cases hv
  have hr := c07_sample_from_source hI hplan hpk hcp.sample hplanned _ (List.of_mem_zip h2).2
  have hne : row.get c ≠ .null := by
    rcases found_column hok hfo hcp hI hplan hall hpk hsrc hc hf.kept.1 hf.found with g | ⟨d, dc, g⟩ | g
    · rw [g r id row h2 h3]; simp
    · obtain ⟨j, m, -, -, g3⟩ := g r id row h2 h3
      rw [g3]; simp
    · rw [g r id row h2 h3]; exact hf.source r hr
  intro e
  unfold outVal at e
  cases hrc : row.get c with
  | null => exact hne hrc
  | int x => rw [hrc] at e; split at e <;> cases e
  | str x => rw [hrc] at e; split at e <;> cases e
  | other x => rw [hrc] at e; split at e <;> cases e

omit hok hfo hcp in
/-- What holds of the contents of a table at all times of a run. -/
theorem table_any_time (hok : RunOK C D p) {n : Str} {k kd : Key} {t td : TableMeta}
    (hc : Copied C D p (sample C D p S s).schema n k kd t td) {P : List Row → Prop} (hS : P (S kd))
    (hnil : C.truncate = true → P [])
    (hw : ∀ {order B Smp ids T mult compact offs},
      Copying C D p S (sample C D p S s).schema order B Smp ids T mult compact offs → P (B kd) →
      (B kd = S kd ∨ B kd = []) → ∀ {ch rows bs new},
      Sent C D p T mult compact offs Smp ids n k kd t td ch rows bs.flatten →
      Commits (flushBuffer D.dialect (strategyFor C p n) (target D kd td) (writtenColumns ch (target D kd td))) (B kd) bs new →
      P new) :
    ∀ X ∈ (sample C D p S s).hist, P (X kd) := by
  have hclean : ∀ {X : DbState}, (X kd = S kd ∨ (C.truncate = true ∧ Reached C D p kd ∧ X kd = [])) → P (X kd) := by
    intro X hX
    rcases hX with hX | ⟨ht, -, hX⟩
    · rw [hX]; exact hS
    · rw [hX]; exact hnil ht
  intro X hX
  rcases c62_any_time (S := S) (s := s) hok with h1 | ⟨order, B, Smp, ids, T, mult, compact, offs, h1, h2⟩
  · exact hclean (h1 X hX kd)
  · rcases h2 X hX with h3 | ⟨done, todo, h3⟩
    · exact hclean (h3 kd)
    · have hB : P (B kd) ∧ (B kd = S kd ∨ B kd = []) := by
        by_cases ht : C.truncate = true
        · rw [h1.begins.emptied ht kd hc.reached]; exact ⟨hnil ht, .inr rfl⟩
        · rw [h1.begins.kept kd fun h => absurd h ht]; exact ⟨hS, .inl rfl⟩
      have hmem : n ∈ done ++ todo := by rw [← h3.order_eq]; exact (h1.all n).2 ⟨k, kd, t, td, hc⟩
      rcases List.mem_append.1 hmem with hd | hd
      · obtain ⟨ch, rows, bs, g1, -, -, g2⟩ := h3.full n k kd t td hc hd
        exact hw h1 hB.1 hB.2 g1 g2
      · cases todo with
        | nil => cases hd
        | cons m rest =>
          rcases List.mem_cons.1 hd with rfl | hd
          · rcases h3.part n k kd t td hc rfl with g1 | ⟨ch, rows, bs, g1, -, g2⟩
            · rw [g1]; exact hB.1
            · exact hw h1 hB.1 hB.2 g1 g2
          · rw [h3.untouched n k kd t td hc hd]; exact hB.1

end
end Subsetter
