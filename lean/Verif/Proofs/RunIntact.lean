import Verif.Proofs.RunWritten
import Verif.Props.Planner

/- Foreign keys of the destination during a run. -/
namespace Subsetter
open Spec Props

variable {σ : Type} {C : RunConfig} {D : Setting σ} {p : Plan} {S : DbState} {s : σ}

/-- What several batches do to a table. -/
theorem commits_facts {dialect : Dialect} {st : Strategy} {d : DestTable} {cols : List Str} :
    ∀ {bs : List (List (List Val))} {T T' : List Row}, Commits (flushBuffer dialect st d cols) T bs T' →
    Fitting d cols bs.flatten → (d.pk ≠ [] → KeysUnique d.pk T) → Shaped d T →
    FlushFacts st d cols bs.flatten T T'
  | [], T, T', h, _, hu, hs => by
    cases h
    exact ⟨hu, hs, fun r hr => ⟨r, hr, fun _ _ => rfl⟩, by simp, fun r hr => .inl ⟨r, hr, fun _ _ => rfl⟩⟩
  | b :: bs, T, T', h, hf, hu, hs => by
    cases h with
    | @cons _ T1 _ _ _ h1 h2 =>
      have hfb : Fitting d cols b := ⟨hf.1, hf.2.1, fun x hx => hf.2.2 x (by simp [hx])⟩
      have hfbs : Fitting d cols bs.flatten := ⟨hf.1, hf.2.1, fun x hx => hf.2.2 x (by
        rw [List.flatten_cons]; exact List.mem_append_right _ hx)⟩
      obtain ⟨a1, a2, a3, a4, a5⟩ := flush_facts hfb hu hs h1
      obtain ⟨b1, b2, b3, b4, b5⟩ := commits_facts h2 hfbs a1 a2
      refine ⟨b1, b2, fun r hr => ?_, fun x hx m hm => ?_, fun r hr => ?_⟩
      · obtain ⟨r1, h3, h4⟩ := a3 r hr
        obtain ⟨r2, h5, h6⟩ := b3 r1 h3
        exact ⟨r2, h5, fun c hc => (h6 c hc).trans (h4 c hc)⟩
      · rw [List.flatten_cons] at hx
        rcases List.mem_append.1 hx with hx | hx
        · obtain ⟨r1, h3, h4⟩ := a4 x hx m hm
          obtain ⟨r2, h5, h6⟩ := b3 r1 h3
          exact ⟨r2, h5, fun c hc => (h6 c hc).trans (h4 c hc)⟩
        · exact b4 x hx m hm
      · rw [List.flatten_cons]
        rcases b5 r hr with ⟨r1, h3, h4⟩ | ⟨x, hx, m, h3, h4⟩
        · rcases a5 r1 h3 with ⟨r2, h5, h6⟩ | ⟨x, hx, m, h5, h6⟩
          · exact .inl ⟨r2, h5, fun c hc => (h4 c hc).trans (h6 c hc)⟩
          · exact .inr ⟨x, List.mem_append_left _ hx, m, h5, fun c hc => (h4 c hc).trans (h6 c hc)⟩
        · exact .inr ⟨x, List.mem_append_right _ hx, m, h3, h4⟩

section
variable {schema : Dict Str TableMeta} {order : List Str} {B : DbState}
  {Smp : Key → List Row} {ids : Key → List Int} {T : Tables} {mult : Dict Str (List Str)}
  {compact : Dict Key (List Str)} {offs : Dict Key (Dict Str Int)}
  (hid : SameIds C) (hcp : Copying C D p S schema order B Smp ids T mult compact offs)
include hid hcp

theorem not_compacted (d : Key) (c : Str) : ¬ IsCompacted compact d c := by
  intro hd
  rcases (hcp.derived.compact d c).1 hd with ⟨tb, cols, h1, h2, -⟩ | ⟨t', -, -, -, -, h1⟩
  · rw [hid.compactColumns tb cols h1] at h2; cases h2
  · rw [hid.compactKeys.1, hid.compactKeys.2] at h1
    rcases h1 with h1 | ⟨h1, -⟩ <;> cases h1

omit hcp in
theorem written_once (n : Str) : timesWritten C p n = 1 := by
  unfold timesWritten
  rw [if_neg]
  intro h1
  have := hid.once
  omega

/-- Identifiers are not changed. -/
theorem sameIds_pair (n : Str) (k kd : Key) (nb : Str) (kb kdb : Key) (es : List (Str × Str)) :
    Alike C p T mult compact offs n k kd nb kb kdb es := by
  have hco := not_compacted hid hcp
  have hpt : ∀ a c d dc, ¬ PointsTo T compact a c d dc := by
    rintro a c d dc ⟨-, -, -, -, -, -, h1⟩
    exact hco d dc h1
  have hmu : ∀ n c, c ∉ (dget mult n).getD [] := by
    intro n c hc
    have := ((hcp.derived.mult n c).1 hc).1
    have := hid.once
    omega
  have hof := hcp.derived.unmerged hid.merge
  refine ⟨fun e _ => ⟨hco _ _, .inr ⟨hco _ _, fun d dc => hpt _ _ d dc, fun d dc => hpt _ _ d dc⟩⟩, fun e _ => ?_,
    .inr fun e _ => hmu _ _, fun e _ => ?_⟩
  · simp [hmu]
  · rw [hof, hof]; rfl

theorem sameIds_alike : RefsAlike C D p schema T mult compact offs :=
  fun n k kd _ _ _ _ _ nb kb _ _ _ => sameIds_pair hid hcp n k kd nb kb _ _

theorem sameIds_lookups (k : Key) (c : Str) (d : Key) (dc : Str) (h : PointsTo T compact k c d dc) : UniqueIn (Smp d) dc := by
  obtain ⟨-, -, -, -, -, -, h1⟩ := h
  exact absurd h1 (not_compacted hid hcp d dc)

end

theorem timesWritten_pos (C : RunConfig) (p : Plan) (n : Str) : 0 < timesWritten C p n := by
  unfold timesWritten
  split <;> omega

theorem outVal_null (mult : List Str) (m i : Int) (o : Dict Str Int) (c : Str) : outVal mult m i o c .null = .null := by
  unfold outVal
  split <;> simp [copyVal, shiftVal] <;> cases dget o c <;> rfl

/-- What is written in columns not touched by filters. -/
theorem sent_copy_at {schema : Dict Str TableMeta} {order : List Str} {B : DbState}
    {Smp : Key → List Row} {ids : Key → List Int} {T : Tables} {mult : Dict Str (List Str)}
    {compact : Dict Key (List Str)} {offs : Dict Key (Dict Str Int)}
    (hcp : Copying C D p S schema order B Smp ids T mult compact offs)
    {n : Str} {k kd : Key} {t td : TableMeta} (hnd : t.columns.Nodup) {ch : Chain Val}
    {rows : List Row} {outs : List (List Val)}
    (hlook : ∀ c d dc, PointsTo T compact k c d dc → ¬ IsCompacted compact k c → UniqueIn (Smp d) dc)
    (h : Sent C D p T mult compact offs Smp ids n k kd t td ch rows outs) :
    rows.length = (Smp k).length ∧ (∀ c, KeptColumn C D n t kd td c → c ∈ writtenColumns ch (target D kd td)) ∧
    ∀ (a j : Nat) (b : List Val), j < timesWritten C p n → outs[a * timesWritten C p n + j]? = some b →
      ∃ (r row : Row) (id : Int), (Smp k)[a]? = some r ∧ (ids k)[a]? = some id ∧ (id, r) ∈ (ids k).zip (Smp k) ∧
        CompactedRow T compact Smp ids k t.columns r id row ∧ ∀ c, KeptColumn C D n t kd td c →
          valueOf (writtenColumns ch (target D kd td)) b c =
            some (outVal ((dget mult n).getD []) (timesWritten C p n) j ((dget offs kd).getD []) c (row.get c)) := by
  have hrows := h.compacted hlook
  have hrl : rows.length = (Smp k).length := by
    have := hrows.length_eq
    rw [List.length_zip, (hcp.ids k).1, Nat.min_self] at this
    exact this.symm
  have hfw : ∀ {c}, KeptColumn C D n t kd td c → ∀ f ∈ (dget C.filters n).getD [], c ∉ FilterCfg.writes f := by
    intro c hc f hf
    cases h1 : dget C.filters n with
    | none => rw [h1] at hf; cases hf
    | some fs =>
      rw [h1] at hf
      exact hc.2.1 fs (dget_some_mem h1) f hf
  have hwr : ∀ c, KeptColumn C D n t kd td c → c ∈ writtenColumns ch (target D kd td) := by
    intro c hc
    refine List.mem_filter.2 ⟨?_, decide_eq_true hc.2.2⟩
    rw [c40_columns_out h.filter, List.mem_filter]
    refine ⟨hc.1, decide_eq_true fun h1 => ?_⟩
    have : ∀ {fs : List (FilterCfg Val)}, c ∈ omitted fs → ∃ f ∈ fs, c ∈ FilterCfg.writes f := by
      intro fs
      induction fs with
      | nil => intro h2; cases h2
      | cons f fs ih =>
        intro h2
        unfold omitted at h2
        split at h2
        · cases h2
        · rename_i cs fs' e
          cases e
          rcases List.mem_append.1 h2 with h2 | h2
          · exact ⟨.simple (.«omit» cs), by simp, h2⟩
          · obtain ⟨f, h3, h4⟩ := ih h2
            exact ⟨f, by simp [h3], h4⟩
        · rename_i e
          cases e
          obtain ⟨f, h3, h4⟩ := ih h2
          exact ⟨f, by simp [h3], h4⟩
    obtain ⟨f, h2, h3⟩ := this h1
    exact hfw hc f h2 h3
  refine ⟨hrl, hwr, fun a j b hj hb => ?_⟩
  obtain ⟨s0, hle, ss, -, hcop⟩ := h.written
  rw [List.length_map] at hle
  have hi2 : a * timesWritten C p n + j < outs.length := (List.getElem?_eq_some_iff.1 hb).1
  have hi1 : a < rows.length := by
    by_contra hcon
    have : rows.length * timesWritten C p n ≤ a * timesWritten C p n := Nat.mul_le_mul_right _ (by omega)
    omega
  have hi : a < (Smp k).length := by omega
  have hi3 : a < ((ids k).zip (Smp k)).length := by rw [List.length_zip, (hcp.ids k).1, Nat.min_self]; exact hi
  obtain ⟨f, hc1, hc2, hc3⟩ := hcop a j (t.columns.map (rows[a]).get) b
    (by rw [List.getElem?_map, List.getElem?_eq_getElem hi1]; rfl) hj hb
  have hcr := hrows.get (i := a) hi3 hi1
  have hmem : ((ids k)[a]'(by rw [(hcp.ids k).1]; exact hi), (Smp k)[a]) ∈ (ids k).zip (Smp k) := by
    have := List.getElem_mem hi3
    rwa [List.getElem_zip] at this
  simp only [List.get_eq_getElem, List.getElem_zip] at hcr
  refine ⟨(Smp k)[a], rows[a], _, List.getElem?_eq_getElem hi, List.getElem?_eq_getElem (by rw [(hcp.ids k).1]; exact hi), hmem, hcr, fun c hc => ?_⟩
  obtain ⟨-, hkeep⟩ := c40_unnamed_columns_kept h.filter hnd (by simp) hc1
  obtain ⟨v, h1, h2⟩ := hc3 c (hwr c hc)
  rw [h2]
  have hv : v = (rows[a]).get c := by
    rw [(hkeep c hc.1 (hfw hc)).2] at h1
    obtain ⟨x, hx⟩ := List.getElem?_of_mem hc.1
    rw [valueOf_eq hnd (by simp) hx, List.getElem?_map, hx] at h1
    cases h1; rfl
  rw [hv]

theorem sent_copy {schema : Dict Str TableMeta} {order : List Str} {B : DbState}
    {Smp : Key → List Row} {ids : Key → List Int} {T : Tables} {mult : Dict Str (List Str)}
    {compact : Dict Key (List Str)} {offs : Dict Key (Dict Str Int)}
    (hcp : Copying C D p S schema order B Smp ids T mult compact offs)
    {n : Str} {k kd : Key} {t td : TableMeta} (hnd : t.columns.Nodup) {ch : Chain Val}
    {rows : List Row} {outs : List (List Val)}
    (hlook : ∀ c d dc, PointsTo T compact k c d dc → ¬ IsCompacted compact k c → UniqueIn (Smp d) dc)
    (h : Sent C D p T mult compact offs Smp ids n k kd t td ch rows outs) :
    rows.length = (Smp k).length ∧ (∀ c, KeptColumn C D n t kd td c → c ∈ writtenColumns ch (target D kd td)) ∧
    ∀ (a j : Nat) (b : List Val), j < timesWritten C p n → outs[a * timesWritten C p n + j]? = some b →
      ∃ (r row : Row) (id : Int), (Smp k)[a]? = some r ∧ (id, r) ∈ (ids k).zip (Smp k) ∧
        CompactedRow T compact Smp ids k t.columns r id row ∧ ∀ c, KeptColumn C D n t kd td c →
          valueOf (writtenColumns ch (target D kd td)) b c =
            some (outVal ((dget mult n).getD []) (timesWritten C p n) j ((dget offs kd).getD []) c (row.get c)) := by
  obtain ⟨h1, h2, h3⟩ := sent_copy_at hcp hnd hlook h
  refine ⟨h1, h2, fun a j b hj hb => ?_⟩
  obtain ⟨r, row, id, g1, -, g2⟩ := h3 a j b hj hb
  exact ⟨r, row, id, g1, g2⟩

theorem target_pk (D : Setting σ) (k : Key) (t : TableMeta) : (target D k t).pk = t.primaryKey := by
  unfold target; split <;> rfl

section
variable {r : Started} {db : Dict Str TableMeta} {x : DestMeta} {order : List Str} {states : List DbState}
  {offs : Dict Key (Dict Str Int)} {compact : Dict Key (List Str)} {mat : List (Key × Nat)} {temps : Temps}

/-- The tables created are not those of the destination. -/
theorem created_new (hok : RunOK C D p) (h1 : startRun C D p = .ok r) (h2 : createStep C D r = .ok (db, x))
    (h0 : Intact D.dstDb S) (hnew : ∀ k, ¬ InDb D.dstDb k → S k = []) : Intact db S := by
  have hf := prepared_run hok h1 h2
  rintro a fk b ⟨n, t, hn, ha, hfk, hb⟩ q hq
  have hpre : D.dstDb <+: db := by
    unfold createStep at h2
    split at h2
    · split at h2
      · cases h2
      · cases h2; exact List.prefix_append _ _
    · cases h2; exact List.prefix_refl _
  by_cases hin : InDb D.dstDb a
  · obtain ⟨n', t', h3, h4⟩ := hin
    have e1 := hf.name_eq n t hn
    have e2 := hok.dst.name_eq n' t' h3
    have e : n = n' := by
      rw [e1, e2]
      rw [← ha] at h4
      obtain ⟨e3, e4⟩ := Prod.mk.inj h4
      rw [e3, e4]
    subst e
    have h5 := dget_of_mem hf.names hn
    rw [dget_of_mem hf.names (hpre.subset h3)] at h5
    cases h5
    exact h0 a fk b ⟨n, t, h3, ha, hfk, hb⟩ q hq
  · rw [hnew a hin] at hq; cases hq

/-- A table referred to by a copied one is copied too. -/
theorem Steps.referred (hst : Steps C D p S r db x order states offs compact mat temps) (hok : RunOK C D p)
    (hself : ∀ n ∈ dkeys D.dstDb, D.fnmatch n n = true) {nb : Str} {b : Key} (hnb : nb ∈ dkeys p.queries)
    (hd : DestOf C.remap nb b) {a : Key} (hab : DbRef db a b) : nb ∈ order := by
  have hf := prepared_run hok hst.start hst.create
  have hre := reached_iff hok (prepared_of_step hst.start hst.create)
  rw [(hf.order hst.order).2.1]
  refine ⟨hnb, b, hd, (hre b).2 ?_⟩
  cases hc : C.create with
  | true => exact ⟨nb, hnb, b, hd, .inl ⟨hc, rfl⟩⟩
  | false =>
    have e : db = D.dstDb := by
      have := hst.create
      unfold createStep at this
      rw [hc] at this
      cases this; rfl
    rw [e] at hab
    obtain ⟨n, t, h1, h2⟩ := hok.closed a b hab
    refine ⟨nb, hnb, b, hd, .inr ⟨b, ⟨n, t, h1, h2, _, List.mem_singleton.2 rfl, ?_⟩, .refl⟩⟩
    have e2 := hok.dst.name_eq n t h1
    rw [← h2]
    dsimp only
    rw [← e2]
    exact hself n (List.mem_map.2 ⟨_, h1, rfl⟩)

/-- A row written for a sampled row refers to a row of a complete table, by a foreign key that is treated alike on both
sides. -/
theorem new_refers {schema : Dict Str TableMeta} (hok : RunOK C D p) {cfg : PlannerConfig} {T : Tables} (hI : Input cfg T)
    (hplan : planInternal cfg T = .ok p)
    (hall : ∀ n y, dget cfg.targets n = some y → y.all = true → y.amount = none)
    (hpk : PkOK (dbTables D.srcDb) D.src)
    {B : DbState} {Smp : Key → List Row} {ids : Key → List Int} {Ts : Tables} {mult : Dict Str (List Str)}
    (hcp : Copying C D p S schema order B Smp ids Ts mult compact offs)
    {n : Str} {k a : Key} {t td : TableMeta} (hc : Copied C D p schema n k a t td)
    {nb : Str} {kb b : Key} {tb tdb : TableMeta} (hcb : Copied C D p schema nb kb b tb tdb)
    {fk : ForeignKey} (hlen : fk.columns.length = fk.dstColumns.length) (hused : UsedFk cfg T k fk kb)
    (hsrc : ∀ r ∈ D.src k, (∀ c ∈ fk.columns, r.get c ≠ .null) → ∃ m ∈ D.src kb, Refers fk.columns fk.dstColumns r m)
    (hkc : ∀ c ∈ fk.columns, KeptColumn C D n t a td c) (hkcb : ∀ c ∈ fk.dstColumns, KeptColumn C D nb tb b tdb c)
    (hal : Alike C p Ts mult compact offs n k a nb kb b (fk.columns.zip fk.dstColumns))
    (hlook : ∀ c d dc, PointsTo Ts compact k c d dc → ¬ IsCompacted compact k c → UniqueIn (Smp d) dc)
    (hlookb : ∀ c d dc, PointsTo Ts compact kb c d dc → ¬ IsCompacted compact kb c → UniqueIn (Smp d) dc)
    {ch : Chain Val} {rows : List Row} {outs : List (List Val)}
    (hsent : Sent C D p Ts mult compact offs Smp ids n k a t td ch rows outs) {y : List Val} (hy : y ∈ outs) {m : Row}
    (h1 : StoredAs (target D a td) (writtenColumns ch (target D a td)) y m) {q : Row}
    (h2 : ∀ c ∈ fk.columns, q.get c = m.get c) (hnn : ∀ c ∈ fk.columns, q.get c ≠ .null)
    {Xb : List Row} (hfull : FullyWritten C D p Ts mult compact offs Smp ids nb kb b tb tdb (B b) Xb)
    (hhb : TableHolds (target D b tdb) (B b))
    (hstable : ∀ c ∈ fk.dstColumns, Stable (strategyFor C p nb) (target D b tdb) c) :
    ∃ w ∈ Xb, Refers fk.columns fk.dstColumns q w := by
  have hplanned : ∀ n k kd t td, Copied C D p schema n k kd t td → ∃ q, Planned p k q := by
    intro n k kd t td hc
    obtain ⟨⟨n', q⟩, h1, h2⟩ := List.mem_map.1 hc.planned
    dsimp only at h2
    subst h2
    exact ⟨q, n', h1, hc.name⟩
  obtain ⟨hrl, hwc, hval⟩ := sent_copy hcp (hok.srcColumns n t hc.source) hlook hsent
  -- a row of the sample
  obtain ⟨i, hi⟩ := List.getElem?_of_mem hy
  have hpos1 := timesWritten_pos C p n
  have hji : i % timesWritten C p n < timesWritten C p n := Nat.mod_lt _ hpos1
  obtain ⟨rr, row, id, hra, hid, hrow, hvr⟩ := hval (i / timesWritten C p n) (i % timesWritten C p n) y hji
    (by rw [Nat.div_add_mod']; exact hi)
  have hmem : rr ∈ Smp k := List.mem_of_getElem? hra
  have hq0 : ∀ c ∈ fk.columns, q.get c = outVal ((dget mult n).getD []) (timesWritten C p n)
      ((i % timesWritten C p n : Nat) : Int) ((dget offs a).getD []) c (row.get c) := by
    intro c hcc
    have := h1.2.1 c (hwc c (hkc c hcc))
    rw [hvr c (hkc c hcc)] at this
    rw [h2 c hcc]
    exact (Option.some.inj this).symm
  have hrow0 : ∀ c ∈ fk.columns, row.get c ≠ .null := by
    intro c hcc h0
    refine hnn c hcc ?_
    rw [hq0 c hcc, h0, outVal_null]
  have hzl : ∀ c ∈ fk.columns, ∃ c', (c, c') ∈ fk.columns.zip fk.dstColumns := by
    intro c hcc
    obtain ⟨x, hx⟩ := List.getElem?_of_mem hcc
    have hx' := (List.getElem?_eq_some_iff.1 hx).1
    exact ⟨fk.dstColumns[x]'(by omega), List.mem_of_getElem? (i := x) (by
      rw [List.getElem?_zip_eq_some]
      exact ⟨hx, List.getElem?_eq_getElem (by omega)⟩)⟩
  have hr0 : ∀ c ∈ fk.columns, rr.get c ≠ .null := by
    intro c hcc h0
    obtain ⟨c', hz⟩ := hzl c hcc
    obtain ⟨s1, s2⟩ := hal.compacted _ hz
    refine hrow0 c hcc ?_
    rcases s2 with ⟨s3, s4, s5⟩ | ⟨-, -, s5⟩
    · exact hrow.lost c (hkc c hcc).1 s1 _ _ s4 s5 fun _ _ => .inl h0
    · rw [hrow.kept c (hkc c hcc).1 s1 s5]; exact h0
  obtain ⟨m0, g1, g2⟩ := hsrc rr (c07_sample_from_source hI hplan hpk hcp.sample (hplanned n k a t td hc) _ hmem) hr0
  obtain ⟨m1', g3, g4⟩ := c07_referential_integrity_partial hI hplan hall hpk hcp.sample hused (hplanned n k a t td hc)
    (hplanned nb kb b tb tdb hcb) _ hmem ⟨m0, g1, g2⟩
  obtain ⟨i', hi'⟩ := List.getElem?_of_mem g3
  have hi'lt := (List.getElem?_eq_some_iff.1 hi').1
  obtain ⟨chb, rowsb, bsb, f1, f2, -, f3⟩ := hfull
  have hfb := commits_facts f3 f1.fitting hhb.1 hhb.2
  obtain ⟨hrlb, hwcb, hvalb⟩ := sent_copy hcp (hok.srcColumns nb tb hcb.source) hlookb f1
  have hpos2 := timesWritten_pos C p nb
  -- the copy of the row referred to
  obtain ⟨j, hj1, hj2⟩ : ∃ j, j < timesWritten C p nb ∧ (j = i % timesWritten C p n ∧ timesWritten C p n = timesWritten C p nb ∨
      ∀ e ∈ fk.columns.zip fk.dstColumns, e.1 ∉ (dget mult n).getD []) := by
    rcases hal.copies with g | g
    · exact ⟨i % timesWritten C p n, by rw [← g]; exact hji, .inl ⟨rfl, g⟩⟩
    · exact ⟨0, hpos2, .inr g⟩
  have hi'b : i' * timesWritten C p nb + j < bsb.flatten.length := by
    rw [f2, hrlb]
    have : (i' + 1) * timesWritten C p nb ≤ (Smp kb).length * timesWritten C p nb := Nat.mul_le_mul_right _ (by omega)
    rw [Nat.add_mul, Nat.one_mul] at this
    omega
  obtain ⟨rb, rowb, idb, u1, u2, u3, u4⟩ := hvalb i' j _ hj1 (List.getElem?_eq_getElem hi'b)
  rw [hi'] at u1
  cases u1
  have href : Refers fk.columns fk.dstColumns row rowb := by
    refine (c32_reference_kept_partial (hcp.ids kb).2.1 (hcp.ids kb).1 (fun e he => ⟨(hkc _ (List.of_mem_zip he).1).1,
      (hkcb _ (List.of_mem_zip he).2).1, hal.compacted e he⟩) hrow u2 u3).2 g4
  obtain ⟨w, hw1, hw2⟩ := hfb.new _ (List.getElem_mem hi'b) _ (fullRow_stored f1.fitting (List.getElem_mem hi'b))
  refine ⟨w, hw1, fun z hz => ?_⟩
  have hz1 := (List.of_mem_zip hz).1
  have hz2 := (List.of_mem_zip hz).2
  refine ⟨hnn _ hz1, ?_⟩
  rw [hq0 _ hz1, hw2 _ (hstable _ hz2)]
  have hkb := hkcb z.2 hz2
  have hst := (fullRow_stored f1.fitting (List.getElem_mem hi'b)).2.1 z.2 (hwcb z.2 hkb)
  rw [u4 z.2 hkb] at hst
  rw [← Option.some.inj hst]
  unfold outVal
  rw [hal.shifted z hz, (href z hz).2]
  congr 1
  rcases hj2 with ⟨rfl, g⟩ | g
  · simp only [hal.multiplied z hz, g]
  · rw [if_neg (g z hz), if_neg fun hcon => g z hz ((hal.multiplied z hz).2 hcon)]

/-- At any time of copying the foreign keys hold. -/
theorem Steps.intact (hst : Steps C D p S r db x order states offs compact mat temps) (hok : RunOK C D p)
    (hself : ∀ n ∈ dkeys D.dstDb, D.fnmatch n n = true)
    {cfg : PlannerConfig} {T : Tables} (hI : Input cfg T) (hplan : planInternal cfg T = .ok p)
    (hall : ∀ n y, dget cfg.targets n = some y → y.all = true → y.amount = none)
    (hpk : PkOK (dbTables D.srcDb) D.src) (hsrc : Intact D.srcDb D.src)
    (hmir : Mirrored C D cfg T p db) (hstab : RefsStable C D p db)
    {B : DbState} {Smp : Key → List Row} {ids : Key → List Int}
    (hcp : Copying C D p S db order B Smp ids r.tables r.mult compact offs) (hB : Intact db B)
    (hold : ∀ n k kd t td, Copied C D p db n k kd t td → TableHolds (target D kd td) (B kd))
    (hlike : RefsAlike C D p db r.tables r.mult compact offs)
    (hlook : ∀ n k kd t td, Copied C D p db n k kd t td → ∀ c d dc, PointsTo r.tables compact k c d dc →
      ¬ IsCompacted compact k c → UniqueIn (Smp d) dc)
    {X : DbState} {done todo : List Str}
    (hw : WhileCopying C D p db order B Smp ids r.tables r.mult compact offs X done todo) : Intact db X := by
  have hplanned : ∀ n k kd t td, Copied C D p db n k kd t td → ∃ q, Planned p k q := by
    intro n k kd t td hc
    obtain ⟨⟨n', q⟩, h1, h2⟩ := List.mem_map.1 hc.planned
    dsimp only at h2
    subst h2
    exact ⟨q, n', h1, hc.name⟩
  -- what has been written to a copied table
  have hpart : ∀ n k kd t td, Copied C D p db n k kd t td → X kd = B kd ∨
      ∃ ch rows outs, Sent C D p r.tables r.mult compact offs Smp ids n k kd t td ch rows outs ∧
        FlushFacts (strategyFor C p n) (target D kd td) (writtenColumns ch (target D kd td)) outs (B kd) (X kd) ∧
        (n ∈ done ∨ todo.head? = some n) := by
    intro n k kd t td hc
    have hn := (hcp.all n).2 ⟨k, kd, t, td, hc⟩
    have hh := hold n k kd t td hc
    rw [hw.order_eq] at hn
    by_cases hd : n ∈ done
    · obtain ⟨ch, rows, bs, g1, -, -, g3⟩ := hw.full n k kd t td hc hd
      exact .inr ⟨ch, rows, _, g1, commits_facts g3 g1.fitting hh.1 hh.2, .inl hd⟩
    · have hn := (List.mem_append.1 hn).resolve_left hd
      cases todo with
      | nil => cases hn
      | cons m l =>
        rcases List.mem_cons.1 hn with rfl | hn
        · rcases hw.part n k kd t td hc rfl with g | ⟨ch, rows, bs, g1, -, g3⟩
          · exact .inl g
          · exact .inr ⟨ch, rows, _, g1, commits_facts g3 g1.fitting hh.1 hh.2, .inr rfl⟩
        · exact .inl (hw.untouched n k kd t td hc hn)
  rintro a fk b hfk q hq hnn
  have hstable : ∀ n k t td, Copied C D p db n k b t td → ∀ c ∈ fk.dstColumns, Stable (strategyFor C p n) (target D b td) c := by
    intro n k t td hc c hcc
    rcases hstab a fk b hfk n k t td hc with h | h | h
    · exact .inl h
    · exact .inr (.inl (by rw [target_pk]; exact h))
    · exact .inr (.inr (by rw [target_pk]; exact h c hcc))
  have hkeep : ∀ m ∈ B b, ∃ m' ∈ X b, ∀ c ∈ fk.dstColumns, m'.get c = m.get c := by
    intro m hm
    by_cases hc : ∃ n k t td, Copied C D p db n k b t td
    · obtain ⟨n, k, t, td, hc⟩ := hc
      rcases hpart n k b t td hc with h | ⟨ch, rows, outs, -, h, -⟩
      · exact ⟨m, by rw [h]; exact hm, fun _ _ => rfl⟩
      · obtain ⟨m', h1, h2⟩ := h.old m hm
        exact ⟨m', h1, fun c hcc => h2 c (hstable n k t td hc c hcc)⟩
    · push Not at hc
      rw [hw.others b hc]
      exact ⟨m, hm, fun _ _ => rfl⟩
  -- a row agreeing with one present when copying began
  have hfromB : ∀ q0 ∈ B a, (∀ c ∈ fk.columns, q.get c = q0.get c) → ∃ m ∈ X b, Refers fk.columns fk.dstColumns q m := by
    intro q0 h1 h2
    obtain ⟨m, h3, h4⟩ := hB a fk b hfk q0 h1 fun c hc => by rw [← h2 c hc]; exact hnn c hc
    obtain ⟨m', h5, h6⟩ := hkeep m h3
    refine ⟨m', h5, fun z hz => ?_⟩
    have hz1 := (List.of_mem_zip hz).1
    have hz2 := (List.of_mem_zip hz).2
    rw [h2 _ hz1, h6 _ hz2]
    exact h4 z hz
  by_cases hc : ∃ n k t td, Copied C D p db n k a t td
  swap
  · push Not at hc
    rw [hw.others a hc] at hq
    exact hfromB q hq fun _ _ => rfl
  obtain ⟨n, k, t, td, hc⟩ := hc
  rcases hpart n k a t td hc with h | ⟨ch, rows, outs, hsent, hfl, hpos⟩
  · rw [h] at hq
    exact hfromB q hq fun _ _ => rfl
  have hfk' := hfk
  obtain ⟨n', t', e1, e2, e3, e4⟩ := hfk'
  have etd : t' = td := by
    have hf := prepared_run hok hst.start hst.create
    have h1 := hf.name_eq n' t' e1
    rw [← e2] at hc
    have h2 := hc.schema
    dsimp only at h2
    rw [← h1] at h2
    have h3 := dget_of_mem hf.names h2
    rw [dget_of_mem hf.names e1] at h3
    exact Option.some.inj h3
  subst etd
  obtain ⟨hkc, fk0, kb, nb, m1, m2, m3, m4, m5, m6, m7, m8⟩ := hmir n k a t t' hc fk e3
  rw [e4] at m7 m8
  obtain ⟨hrl, hwc, hval⟩ := sent_copy hcp (hok.srcColumns n t hc.source) (hlook n k a t t' hc) hsent
  have hown : ∀ c ∈ fk.columns, Own (strategyFor C p n) (target D a t') (writtenColumns ch (target D a t')) c :=
    fun c hcc _ => .inr (hwc c (hkc c hcc))
  rcases hfl.orig q hq with ⟨q0, h1, h2⟩ | ⟨y, hy, m, h1, h2⟩
  · exact hfromB q0 h1 fun c hcc => h2 c (hown c hcc)
  have hnbo : nb ∈ order := hst.referred hok hself m5 m7 ⟨n', t', fk, e1, e2, e3, e4⟩
  obtain ⟨kb', b', tb, tdb, hcb⟩ := (hcp.all nb).1 hnbo
  have eb := destOf_unique hcb.dest m7
  subst eb
  have ek : kb' = kb := by
    have := hcb.name
    rw [m6] at this
    exact (Option.some.inj this).symm
  subst ek
  have hal := hlike n k a t t' hc fk e3 nb kb' tb tdb (by rw [e4]; exact hcb)
  rw [e4] at hal
  -- the table referred to is complete
  have hnb : nb ∈ done := by
    have hbef := hcp.parents a b' n nb ⟨n', t', fk, e1, e2, e3, e4⟩ hc.dest m7 ((hcp.all n).2 ⟨k, a, t, t', hc⟩) hnbo
    obtain ⟨l₁, l₂, l₃, he⟩ := hbef
    have hnd := hcp.nodup
    by_contra hcon
    have hnt : nb ∈ todo := by
      rw [hw.order_eq] at hnbo
      exact (List.mem_append.1 hnbo).resolve_left hcon
    rcases hpos with hpos | hpos
    · obtain ⟨d1, d2, rfl⟩ := List.append_of_mem hpos
      obtain ⟨u1, u2, rfl⟩ := List.append_of_mem hnt
      have h5 := hw.order_eq
      rw [he] at h5 hnd
      exact before_asymm hnd ⟨d1, d2 ++ u1, u2, by rw [h5]; simp⟩ ⟨l₁, l₂, l₃, rfl⟩
    · cases todo with
      | nil => cases hpos
      | cons m l =>
        simp only [List.head?_cons, Option.some.injEq] at hpos
        subst hpos
        have h5 := hw.order_eq
        rcases List.mem_cons.1 hnt with e | hnt
        · subst e
          rw [he] at hnd
          rw [List.nodup_append] at hnd
          have := (List.nodup_cons.1 hnd.2.1).1
          simp at this
        · obtain ⟨u1, u2, rfl⟩ := List.append_of_mem hnt
          rw [he] at h5 hnd
          exact before_asymm hnd ⟨done, u1, u2, by rw [h5]⟩ ⟨l₁, l₂, l₃, rfl⟩
  have hlen : fk0.columns.length = fk0.dstColumns.length := by
    obtain ⟨n0, t0, w1, -, w3, -⟩ := m1
    exact (hok.src.fk_cols n0 t0 w1 fk0 w3).1
  rw [← m3, ← m4] at hal ⊢
  refine new_refers hok hI hplan hall hpk hcp hc hcb hlen m2 (hsrc k fk0 kb' m1) (by rw [m3]; exact hkc)
    (by rw [m4]; exact m8 kb' tb tdb hcb) hal (hlook n k a t t' hc) (hlook nb kb' b' tb tdb hcb) hsent hy h1 ?_ ?_
    (hw.full nb kb' b' tb tdb hcb hnb) (hold nb kb' b' tb tdb hcb) (by rw [m4]; exact hstable nb kb' tb tdb hcb)
  · rw [m3]; exact fun c hcc => h2 c (hown c hcc)
  · rw [m3]; exact hnn

end
end Subsetter
