import Verif.Proofs.Sequences
import Verif.Props.RunCreated
import Verif.Props.RunKeys
import Verif.Props.RunWorks
import Verif.Proofs.Unique

/-
Property C85: after a run, rows can be added to tables of PostgreSQL whose keys are generated by sequences.
-/
namespace Subsetter.Props
open Subsetter Spec

variable {σ : Type} {C : RunConfig} {D : Setting σ} {p : Plan} {S : DbState} {s : σ}

/-- Runs with sequences copy what runs copy. -/
theorem c85_same_rows (cur : Key → Option Int) (Q : Key → Sequence) : (sampleSeq C D p S s cur Q).1 = sample C D p S s :=
  sampleSeq_fst cur Q

theorem column_sent {n : Str} {kd : Key} {t td : TableMeta} {c : Str} (hcol : c ∈ t.columns) (hom : c ∉ omitted (filtersOf C n))
    (hgen : c ∉ (target D kd td).computed) {ch : Chain Val}
    (h : constructFilter D.world t.columns ((dget C.filters n).getD []) = .ok ch) :
    c ∈ writtenColumns ch (target D kd td) := by
  refine List.mem_filter.2 ⟨?_, decide_eq_true hgen⟩
  rw [c40_columns_out h, List.mem_filter]
  exact ⟨hcol, decide_eq_true hom⟩

/-- What is written is behind the sequence, so it is enough to look at what the table held. -/
theorem ahead_of_old (hok : RunOK C D p) {cur : Key → Option Int} {Q : Key → Sequence} (herr : (sample C D p S s).err = none)
    (hpg : D.dialect = .postgresql) {n : Str} {k kd : Key} {t td : TableMeta}
    (hc : Copied C D p (sample C D p S s).schema n k kd t td) {c : Str} (hauto : td.autoincrement = some c)
    (hcol : c ∈ t.columns) (hom : c ∉ omitted (filtersOf C n)) (hgen : c ∉ (target D kd td).computed)
    (hgiven : Given (cur kd) (Q kd)) :
    ∃ order B Smp ids T mult compact offs ch rows outs i m,
      Copying C D p S (sample C D p S s).schema order B Smp ids T mult compact offs ∧
      Sent C D p T mult compact offs Smp ids n k kd t td ch rows outs ∧
      firstIndex c (writtenColumns ch (target D kd td)) = some i ∧ AutoInv i m outs ∧
      (sampleSeq C D p S s cur Q).2 kd = autoincrementUpdate (cur kd) (autoValue m) (Q kd) ∧
      (Ahead ((sampleSeq C D p S s cur Q).2 kd) (B kd) c →
        Ahead ((sampleSeq C D p S s cur Q).2 kd) ((sample C D p S s).final kd) c) := by
  obtain ⟨order, B, Smp, ids, T, mult, compact, offs, ch, rows, bs, m, hcp, hsent, hcom, hinv, hq⟩ :=
    sampleSeq_table (cur := cur) (Q := Q) hok herr hpg hc hauto
  have hw := column_sent (D := D) hcol hom hgen hsent.filter
  cases hi : firstIndex c (writtenColumns ch (target D kd td)) with
  | none =>
    exfalso
    obtain ⟨x, hx⟩ := List.getElem?_of_mem hw
    have : ∀ {cols : List Str}, c ∈ cols → firstIndex c cols ≠ none := by
      intro cols
      induction cols with
      | nil => intro h; cases h
      | cons a cols ih =>
        intro h e
        unfold firstIndex at e
        split at e
        · cases e
        · rename_i hne
          rcases List.mem_cons.1 h with h | h
          · exact hne (by simp [h])
          · exact ih h (by simpa using e)
    exact this hw hi
  | some i =>
    refine ⟨order, B, Smp, ids, T, mult, compact, offs, ch, rows, bs.flatten, i, m, hcp, hsent, hi, hinv i hi, hq, fun hold => ?_⟩
    refine commits_all (P := fun x => ∀ v : Int, x = .int v → v < ((sampleSeq C D p S s cur Q).2 kd).next) hw hcom hsent.fitting
      (fun x hx v hv w hw => ?_) hold
    subst hw
    rw [valueOf_firstIndex, hi] at hv
    rw [hq]
    exact update_ahead (hinv i hi) hgiven x hx w hv

/-- C85. After a successful run the sequence of a table is ahead of all its rows, if the table was empty or emptied, or if
`currval` is the last value of the sequence and it was ahead of the rows the table held.  Without this it may fall back
(`c85_falls_back`). -/
theorem c85_ahead_partial (hok : RunOK C D p) {cur : Key → Option Int} {Q : Key → Sequence}
    (herr : (sample C D p S s).err = none) (hpg : D.dialect = .postgresql) {n : Str} {k kd : Key} {t td : TableMeta}
    (hc : Copied C D p (sample C D p S s).schema n k kd t td) {c : Str} (hauto : td.autoincrement = some c)
    (hcol : c ∈ t.columns) (hom : c ∉ omitted (filtersOf C n)) (hgen : c ∉ (target D kd td).computed)
    (hgiven : Given (cur kd) (Q kd))
    (hold : S kd = [] ∨ C.truncate = true ∨ cur kd = some (Q kd).last ∧ Ahead (Q kd) (S kd) c) :
    Ahead ((sampleSeq C D p S s cur Q).2 kd) ((sample C D p S s).final kd) c := by
  obtain ⟨order, B, Smp, ids, T, mult, compact, offs, ch, rows, outs, i, m, hcp, -, -, -, hq, hgoal⟩ :=
    ahead_of_old (cur := cur) (Q := Q) hok herr hpg hc hauto hcol hom hgen hgiven
  refine hgoal ?_
  by_cases htr : C.truncate = true
  · rw [hcp.begins.emptied htr kd hc.reached]
    exact fun _ h => (nomatch h)
  · rw [hcp.begins.kept kd fun h => absurd h htr]
    rcases hold with h | h | ⟨h1, h2⟩
    · rw [h]
      exact fun _ h => (nomatch h)
    · exact absurd h htr
    · intro r hr v hv
      have h3 := h2 r hr v hv
      rw [hq]
      exact lt_of_lt_of_le h3 (update_back h1)

/-- C85. The same of tables the run creates. -/
theorem c85_created (hok : RunOK C D p) (hfree : DestinationFree C D p S) {cur : Key → Option Int} {Q : Key → Sequence}
    (herr : (sample C D p S s).err = none) (hpg : D.dialect = .postgresql) {n : Str} {k kd : Key} {t td : TableMeta}
    (hc : Copied C D p (sample C D p S s).schema n k kd t td) {c : Str} (hcols : c ∈ t.columns)
    (hkey : td.primaryKey = [c]) (hint : c ∈ t.intColumns) (hfk : ∀ fk ∈ t.foreignKeys, c ∉ fk.columns)
    (hom : c ∉ omitted (filtersOf C n)) (hgiven : Given (cur kd) (Q kd)) :
    Ahead ((sampleSeq C D p S s cur Q).2 kd) ((sample C D p S s).final kd) c := by
  obtain ⟨hcopy, hgen, -⟩ := created_copy hok hfree hc
  refine c85_ahead_partial hok herr hpg hc ((hcopy.auto c).2 ⟨hkey, by rw [hcopy.ints]; exact hint, ?_⟩) hcols hom
    (by rw [hgen]; simp) hgiven (.inl (hfree.free n hc.planned kd hc.dest).2)
  intro fk hf hm
  obtain ⟨i, hi, rfl⟩ := List.getElem_of_mem hf
  have hl := hcopy.fks.length_eq
  have := (hcopy.fks.get (i := i) (by omega) hi).1
  simp only [List.get_eq_getElem] at this
  rw [this] at hm
  exact hfk _ (List.getElem_mem _) hm

/-- C85. Merging: whatever `currval` gives, the sequence stays ahead, since the keys written are larger than those the table
held. -/
theorem c85_merged (hok : RunOK C D p) (hfo : LookupsFollow C D p) {cfg : PlannerConfig} {T0 : Tables} (hI : Input cfg T0)
    (hplan : planInternal cfg T0 = .ok p)
    (hall : Compacts C → ∀ n y, dget cfg.targets n = some y → y.all = true → y.amount = none)
    (hpk : PkOK (dbTables D.srcDb) D.src) (hsrc : Compacts C → Intact D.srcDb D.src) {cur : Key → Option Int}
    {Q : Key → Sequence} (herr : (sample C D p S s).err = none) (hpg : D.dialect = .postgresql) {n : Str} {k kd : Key}
    {t td : TableMeta} (hc : Copied C D p (sample C D p S s).schema n k kd t td)
    (hka : KeysApart C D cfg T0 p S (sample C D p S s).schema n k kd t td) {c : Str} (hauto : td.autoincrement = some c)
    (hkey : td.primaryKey = [c]) (hgiven : Given (cur kd) (Q kd)) (hold : Ahead (Q kd) (S kd) c) :
    Ahead ((sampleSeq C D p S s cur Q).2 kd) ((sample C D p S s).final kd) c := by
  have hkept := hka.kept c ((hka.same c).1 (by rw [hkey]; simp))
  have hom : c ∉ omitted (filtersOf C n) := by
    intro h
    obtain ⟨f, h1, h2⟩ := omitted_writes h
    unfold filtersOf at h1
    cases h3 : dget C.filters n with
    | none => rw [h3] at h1; cases h1
    | some fs =>
      rw [h3] at h1
      exact hkept.2.1 fs (dget_some_mem h3) f h1 h2
  obtain ⟨order, B, Smp, ids, T, mult, compact, offs, ch, rows, outs, i, m, hcp, hsent, hi, hinv, hq, hgoal⟩ :=
    ahead_of_old (cur := cur) (Q := Q) hok herr hpg hc hauto hkept.1 hom hkept.2.2 hgiven
  refine hgoal ?_
  by_cases htr : C.truncate = true
  · rw [hcp.begins.emptied htr kd hc.reached]
    exact fun _ h => (nomatch h)
  · have hBS := hcp.begins.kept kd fun h => absurd h htr
    rcases hka.apart with h | h | hpast
    · rw [hBS, h]
      exact fun _ h => (nomatch h)
    · exact absurd h htr
    · intro r hr v hv
      cases hout : outs with
      | nil =>
        rw [hout] at hinv
        rw [hq, update_none hinv (by simp)]
        rw [hBS] at hr
        exact hold r hr v hv
      | cons b l =>
        have hb : b ∈ outs := by rw [hout]; simp
        obtain ⟨w, h1, h2⟩ := sent_past hok hfo hcp hI hplan hall hpk hsrc (schema_names hok) hc hka htr hpast hkey hsent hb hr hv
        rw [valueOf_firstIndex, hi] at h1
        rw [hq]
        exact lt_trans h2 (update_ahead hinv hgiven b hb w h1)

/-- C85. Sequences of tables that are not copied, or not generated by a sequence, are left alone, and so are all of them in
other databases, whether or not the run succeeds. -/
theorem c85_others (hok : RunOK C D p) (cur : Key → Option Int) (Q : Key → Sequence) {kd : Key}
    (h : D.dialect = .postgresql → ∀ n k t td, Copied C D p (sample C D p S s).schema n k kd t td → td.autoincrement = none) :
    (sampleSeq C D p S s cur Q).2 kd = Q kd := by
  rcases sampleSeq_cases C D p S s cur Q with ⟨g, -⟩ | ⟨r, db, x, order, states, offs, compact, mat, temps, hst, hsch, hcopy⟩
  · rw [g]
  · rw [hsch] at h
    obtain ⟨B, rest, Smp, ids, hB, hcp, hinj, hsent, -⟩ := hst.copying hok
    rw [hB] at hcopy
    obtain ⟨X, rest', done, todo, k1, k2, k3, k4, k5, k6⟩ := copyAllSeq_spec hcp.nodup hinj hcopy
    by_cases hd : ∃ n ∈ done, ∃ j, readTable C D r x offs compact p temps n = .ok (some j) ∧ j.key = kd
    · obtain ⟨n, hn, j, hj, rfl⟩ := hd
      obtain ⟨k, kd', t, td, hc⟩ := (hcp.all n).1 (by rw [k2]; simp [hn])
      have e := (hsent n k kd' t td hc j hj).1
      subst e
      obtain ⟨o, s1, s2, bs, m, -, -, -, -, e5⟩ := k4 n hn j hj
      obtain ⟨td', d1, d2⟩ := read_auto hj
      have htd := schema_get (prepared_run hok hst.start hst.create) hc.schema d1
      subst htd
      have : j.input.autoincrement = none := by
        rw [d2]
        split
        · exact h (by assumption) n k t td' hc
        · rfl
      rw [e5, this]
      rfl
    · exact k6 kd fun n hn j hj e => hd ⟨n, hn, j, hj, e⟩

/-! ### Examples -/

/-- The tables of the destination, with keys generated by sequences. -/
def sqDst : Dict Str TableMeta := [(str! "m.o", { rxO (str! "m") with autoincrement := some (str! "id") }), (str! "m.u", { rxU (str! "m") with autoincrement := some (str! "id") })]

/-- PostgreSQL, with rows sent one by one. -/
def sqSetting (dst : Dict Str TableMeta) : Setting Int := { rxSetting dst with dialect := .postgresql, buffer := 0 }

/-- Error, contents of users and orders, and the next values of their sequences. -/
def sqShow (R : RunResult × (Key → Sequence)) : Option RunErr × List (List Row) × List Int :=
  (R.1.err, [R.1.final (str! "m", str! "u"), R.1.final (str! "m", str! "o")],
    [(R.2 (str! "m", str! "u")).next, (R.2 (str! "m", str! "o")).next])

/-- Sequences that gave nothing yet. -/
def sqNew : Key → Sequence := fun _ => ⟨1, false⟩

theorem sq_ok {C : RunConfig} (hC : C.compact.columns = []) {p : Plan} (hp : (dkeys p.queries).Nodup) : RunOK C (sqSetting sqDst) p := by
  refine ⟨rxDb_ok (by decide) (by decide), rxDb_ok (by decide) (by decide), ?_, ?_, ?_, hp, by rw [hC]; exact .nil⟩
  · rintro a b ⟨n, t, fk, h1, -, h2, rfl⟩
    have : ∀ e ∈ sqDst, ∀ fk ∈ e.2.foreignKeys, ∃ x ∈ sqDst, (x.2.schema, x.2.name) = (fk.dstSchema, fk.dstTable) := by decide
    obtain ⟨x, h3, h4⟩ := this (n, t) h1 fk h2
    exact ⟨x.1, x.2, h3, h4⟩
  · intro n t h
    have : ∀ e ∈ (sqSetting sqDst).srcDb, e.2.columns.Nodup := by decide
    exact this (n, t) h
  · intro _ n _
    simp [sqSetting, rxSetting, dxEq]

theorem sq_copied {C : RunConfig} (hC : C.remap = dxRemap) {p : Plan} (hp : str! "s.u" ∈ dkeys p.queries) : Copied C (sqSetting sqDst) p sqDst (str! "s.u")
    (str! "s", str! "u") (str! "m", str! "u") (rxU (str! "s")) { rxU (str! "m") with autoincrement := some (str! "id") } := by
  have hd : DestOf C.remap (str! "s.u") (str! "m", str! "u") := ⟨str! "s", str! "u", by decide, by rw [hC]; decide⟩
  refine ⟨hp, by decide, by decide, hd, ⟨str! "s.u", hp, _, hd, .inr ⟨(str! "m", str! "u"),
    ⟨str! "m.u", { rxU (str! "m") with autoincrement := some (str! "id") }, by decide, by decide, str! "m.u", by simp, by decide⟩, .refl⟩⟩, by decide⟩

/-- Users 1 and order 7 are written into emptied tables; the next user is 2 and the next order 8. -/
theorem sq_truncate : sqShow (sampleSeq { remap := dxRemap, truncate := true } (sqSetting sqDst) exPlan rxBefore 0 (fun _ => none) sqNew) =
    (none, [[[(str! "id", .int 1)]], [[(str! "id", .int 7), (str! "uid", .int 1)]]], [2, 8]) := by decide +kernel

example : Ahead ((sampleSeq { remap := dxRemap, truncate := true } (sqSetting sqDst) exPlan rxBefore 0 (fun _ => none) sqNew).2 (str! "m", str! "u"))
    ((sample { remap := dxRemap, truncate := true } (sqSetting sqDst) exPlan rxBefore 0).final (str! "m", str! "u")) (str! "id") := by
  have h := sq_truncate
  refine c85_ahead_partial (sq_ok rfl (by decide)) ?_ rfl (n := str! "s.u") (k := (str! "s", str! "u")) (t := rxU (str! "s"))
    (td := { rxU (str! "m") with autoincrement := some (str! "id") }) ?_ rfl (by decide) (by decide) (by decide) (fun v h => (nomatch h)) (.inr (.inl rfl))
  · rw [← c85_same_rows (fun _ => none) sqNew]
    exact congrArg Prod.fst h
  · rw [schema_kept rfl]
    exact sq_copied rfl (by decide)

/-- The same with tables that are created. -/
theorem sq_create : sqShow (sampleSeq { remap := dxRemap, create := true } (sqSetting []) exPlan (fun _ => []) 0 (fun _ => none) sqNew) =
    (none, [[[(str! "id", .int 1)]], [[(str! "id", .int 7), (str! "uid", .int 1)]]], [2, 8]) := by decide +kernel

/-- `c85_created` on this example. -/
example : Ahead ((sampleSeq { remap := dxRemap, create := true } (sqSetting []) exPlan (fun _ => []) 0 (fun _ => none) sqNew).2 (str! "m", str! "u"))
    ((sample { remap := dxRemap, create := true } (sqSetting []) exPlan (fun _ => []) 0).final (str! "m", str! "u")) (str! "id") := by
  have h := sq_create
  have hok : RunOK { remap := dxRemap, create := true } (sqSetting []) exPlan :=
    ⟨rxDb_ok (by decide) (by decide), rxDb_ok (by decide) (by decide), (fun _ _ ⟨_, _, _, h, _⟩ => nomatch h), fun n t h => by
      have : ∀ e ∈ (sqSetting sqDst).srcDb, e.2.columns.Nodup := by decide
      exact this (n, t) h, (fun _ _ h => nomatch h), by decide, .nil⟩
  have hf := ax_free (f := dxEq) (p := exPlan) (C := { remap := dxRemap, create := true }) rfl rfl
  have hd : DestOf dxRemap (str! "s.u") (str! "m", str! "u") := ⟨str! "s", str! "u", by decide, by decide⟩
  have hs : (dget (sample { remap := dxRemap, create := true } (sqSetting []) exPlan (fun _ => []) 0).schema (str! "m.u")).map TableMeta.primaryKey =
      some [str! "id"] := by decide +kernel
  cases hg : dget (sample { remap := dxRemap, create := true } (sqSetting []) exPlan (fun _ => []) 0).schema (str! "m.u") with
  | none => rw [hg] at hs; cases hs
  | some td =>
    rw [hg] at hs
    refine c85_created hok ⟨hf.dest, hf.differ, hf.free, hf.circles⟩ ?_ rfl (n := str! "s.u") (k := (str! "s", str! "u")) (t := rxU (str! "s"))
      (td := td) ⟨by decide, by decide, by decide, hd, ⟨_, by decide, _, hd, .inl ⟨rfl, rfl⟩⟩, dget_some_mem hg⟩ (by decide) (Option.some.inj hs)
      (by decide) (fun _ h => (nomatch h)) (by decide) (fun v h => (nomatch h))
    rw [← c85_same_rows (fun _ => none) sqNew]
    exact congrArg Prod.fst h

/-- C85. A sequence may fall back: the destination has orders 8 and 100 and its sequence gave 100, but in another session.
After order 7 has been added the sequence gives 8. -/
theorem c85_falls_back : sqShow (sampleSeq { remap := dxRemap, strategy := .skip } (sqSetting sqDst) exPlan
      (fun k => if k = (str! "m", str! "o") then [[(str! "id", .int 8), (str! "uid", .null)], [(str! "id", .int 100), (str! "uid", .null)]] else []) 0
      (fun _ => none) fun _ => ⟨100, true⟩) =
    (none, [[[(str! "id", .int 1)]], [[(str! "id", .int 8), (str! "uid", .null)], [(str! "id", .int 100), (str! "uid", .null)],
      [(str! "id", .int 7), (str! "uid", .int 1)]]], [2, 8]) ∧ Sequence.next ⟨100, true⟩ = 101 := by decide +kernel

/-- C85. A run that fails leaves the sequence of the table it was writing behind: order 14 was committed, and the next order
is still 1, while the users are done. -/
theorem c85_failed_behind : sqShow (sampleSeq { remap := dxRemap, mult := { multiplier := 2, extraColumns := [(str! "s.o", [str! "uid"])] } } (sqSetting sqDst) exPlan
      (fun k => if k = (str! "m", str! "o") then [[(str! "id", .int 15), (str! "uid", .null)]] else []) 0 (fun _ => none) sqNew) =
    (some (.dest (.output .integrity)), [[[(str! "id", .int 2)], [(str! "id", .int 3)]], [[(str! "id", .int 15), (str! "uid", .null)],
      [(str! "id", .int 14), (str! "uid", .int 2)]]], [4, 1]) := by decide +kernel

theorem sq_apart {p : Plan} (hp : p.passthrough = []) :
    KeysApart { remap := dxRemap, merge := true } (sqSetting sqDst) exCfg ixTables p rxBefore sqDst (str! "s.u") (str! "s", str! "u")
      (str! "m", str! "u") (rxU (str! "s")) { rxU (str! "m") with autoincrement := some (str! "id") } := by
  refine ⟨fun c => Iff.rfl, fun c hc => ⟨by revert c; decide, (fun _ h => nomatch h), by revert c; decide⟩, fun h => ?_, ?_, ?_, ?_⟩
  · exfalso
    have : timesWritten { remap := dxRemap, merge := true } p (str! "s.u") = 1 := if_neg fun h => absurd h.1 (by decide)
    omega
  · refine .inr (.inr ⟨rfl, by rw [hp]; exact List.not_mem_nil, by decide, str! "id", by decide, ?_, .inl ⟨rfl, by decide⟩, ?_⟩)
    · intro r hr
      have : r.get (str! "id") = .int 1 ∨ r.get (str! "id") = .int 2 := by revert r; decide
      rcases this with h | h
      · exact ⟨1, by decide, h⟩
      · exact ⟨2, by decide, h⟩
    · rintro kb d ⟨fk, h1, -⟩
      cases h1
  · rintro - fk h1
    cases h1
  · intro _
    decide

/-- `c85_merged` on an example: users are added to user 5, in a session that has no `currval`. -/
theorem sq_merged : ∃ p, planInternal exCfg ixTables = .ok p ∧
    (sample { remap := dxRemap, merge := true } (sqSetting sqDst) p rxBefore 0).err = none ∧
    (sample { remap := dxRemap, merge := true } (sqSetting sqDst) p rxBefore 0).final (str! "m", str! "u") ≠ rxBefore (str! "m", str! "u") ∧
    Ahead ((sampleSeq { remap := dxRemap, merge := true } (sqSetting sqDst) p rxBefore 0 (fun _ => none) fun _ => ⟨5, true⟩).2 (str! "m", str! "u"))
      ((sample { remap := dxRemap, merge := true } (sqSetting sqDst) p rxBefore 0).final (str! "m", str! "u")) (str! "id") := by
  have hn := ixNames
  have hp : wxPass (planInternal exCfg ixTables) = [] := by decide +kernel
  have hrun : (match planInternal exCfg ixTables with
      | .ok p => ((sample { remap := dxRemap, merge := true } (sqSetting sqDst) p rxBefore 0).err,
          ((sample { remap := dxRemap, merge := true } (sqSetting sqDst) p rxBefore 0).final (str! "m", str! "u")).length)
      | .error _ => (none, 0)) = (none, 2) := by decide +kernel
  cases h : planInternal exCfg ixTables with
  | error e => rw [h] at hn; cases hn
  | ok p =>
    rw [h] at hn hp hrun
    obtain ⟨-, hI, h1, h2, h3, -⟩ := ix_hyps (C := { remap := dxRemap, merge := true }) rfl rfl rfl h hn
    have herr := congrArg Prod.fst hrun
    have hlen := congrArg Prod.snd hrun
    dsimp only at herr hlen
    have hn' : dkeys p.queries = [str! "s.o", str! "s.u"] := hn
    have hnc : ¬ Compacts { remap := dxRemap, merge := true } := by
      rintro (h | h | ⟨n, cs, c, h, -⟩) <;> cases h
    refine ⟨p, rfl, herr, fun e => by rw [e] at hlen; exact absurd hlen (by decide), ?_⟩
    refine c85_merged (sq_ok rfl (by rw [hn']; decide)) ⟨rfl, fun h => absurd h hnc, fun h => absurd h hnc, (fun _ _ h => nomatch h)⟩ hI h (fun h => absurd h hnc) h2
      (fun h => absurd h hnc) herr rfl (n := str! "s.u") (k := (str! "s", str! "u")) (t := rxU (str! "s"))
      (td := { rxU (str! "m") with autoincrement := some (str! "id") }) ?_ ?_ rfl rfl (fun v h => (nomatch h)) ?_
    · rw [schema_kept rfl]
      exact sq_copied rfl (by rw [hn']; decide)
    · rw [schema_kept rfl]
      exact sq_apart hp
    · intro r hr v hv
      have : ∀ r ∈ rxBefore (str! "m", str! "u"), r.get (str! "id") = .int 5 := by decide
      replace this := this r hr
      rw [this] at hv
      cases hv
      decide

end Subsetter.Props
