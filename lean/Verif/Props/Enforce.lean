import Verif.Spec.Enforce
import Verif.Proofs.Enforce
import Verif.Props.Unique

/-
Property C83: a destination that enforces its constraints row by row accepts what a run writes.
-/
namespace Subsetter.Props
open Subsetter Spec

variable {σ : Type} {C : RunConfig} {D : Setting σ} {p : Plan} {S : DbState} {s : σ}

/-- C83. A destination that checks its contents after each deletion and each row changes nothing about a run that, committing
after each row, would never violate the checks. -/
theorem c83_accepts {ok : DbState → Bool} (h : ∀ X ∈ (sample C { D with buffer := 0 } p S s).hist, ok X = true) :
    sampleChecked ok C D p S s = sample C D p S s :=
  sample_checked h

/-- C83. Whatever the destination checks, the run is as without checks, or it ends with an integrity error in a state that
the run without checks goes through. -/
theorem c83_either (ok : DbState → Bool) :
    sampleChecked ok C D p S s = sample C D p S s ∨
    ((sampleChecked ok C D p S s).err = some (.dest (.output .integrity)) ∧
      (sampleChecked ok C D p S s).hist <:+ (sample C D p S s).hist) :=
  sample_either.2

/-- C83. Nothing that violates the checks is ever committed. -/
theorem c83_never_violated (ok : DbState → Bool) : ∀ X ∈ (sampleChecked ok C D p S s).hist, X = S ∨ ok X = true :=
  sample_either.1

/-! ### Conditions do not depend on the buffer -/

theorem plain_copied {schema : Dict Str TableMeta} : Copied C { D with buffer := 0 } p schema = Copied C D p schema := by
  funext n k kd t td
  exact propext ⟨fun h => ⟨h.1, h.2, h.3, h.4, h.5, h.6⟩, fun h => ⟨h.1, h.2, h.3, h.4, h.5, h.6⟩⟩

theorem plain_ok (h : RunOK C D p) : RunOK C { D with buffer := 0 } p := ⟨h.1, h.2, h.3, h.4, h.5, h.6, h.7⟩

theorem plain_mirrored {cfg : PlannerConfig} {T : Tables} {schema : Dict Str TableMeta} (h : Mirrored C D cfg T p schema) :
    Mirrored C { D with buffer := 0 } cfg T p schema := by
  unfold Mirrored
  rw [plain_copied]
  exact h

theorem plain_stable {schema : Dict Str TableMeta} (h : RefsStable C D p schema) :
    RefsStable C { D with buffer := 0 } p schema := by
  unfold RefsStable
  rw [plain_copied]
  exact h

theorem plain_refs (h : SimpleRefs D p) : SimpleRefs { D with buffer := 0 } p := ⟨h.1, h.2⟩

theorem plain_follow {schema : Dict Str TableMeta} (h : IdsFollow C D p schema) :
    IdsFollow C { D with buffer := 0 } p schema := by
  refine ⟨h.1, fun g => plain_refs (h.2 g), h.3, h.4, h.5, ?_⟩
  rw [plain_copied]
  exact h.6

theorem plain_pair {schema : Dict Str TableMeta} : KeyPair C { D with buffer := 0 } p schema = KeyPair C D p schema := by
  funext t c kb d
  unfold KeyPair
  rw [plain_copied]

theorem plain_unique {schema : Dict Str TableMeta} {n : Str} {k kd : Key} {t td : TableMeta} {u : List Str}
    (h : StaysUnique C D p S schema n k kd t td u) : StaysUnique C { D with buffer := 0 } p S schema n k kd t td u := by
  refine ⟨h.1, h.2, h.3, h.4, h.5.imp id (Or.imp id (Or.imp ?_ id))⟩
  rintro ⟨c, hc, h1⟩
  refine ⟨c, hc, ?_⟩
  unfold PastColumn
  rw [plain_pair]
  exact h1

theorem plain_schema : (sample C { D with buffer := 0 } p S s).schema = (sample C D p S s).schema := by
  have e1 : startRun C { D with buffer := 0 } p = startRun C D p := rfl
  have e2 : ∀ r, createStep C { D with buffer := 0 } r = createStep C D r := fun _ => rfl
  unfold sample
  rw [e1]
  cases startRun C D p with
  | error e => rfl
  | ok r =>
    dsimp only
    rw [e2]
    cases createStep C D r with
    | error e => rfl
    | ok y =>
      obtain ⟨db, x⟩ := y
      dsimp only
      cases insertOrder x with
      | error e => rfl
      | ok order =>
        dsimp only
        cases truncateStep C x S with
        | error e => rfl
        | ok states =>
          dsimp only
          cases prepareStep C r.tables x ((states.reverse ++ [S]).head?.getD S) p with
          | error e => rfl
          | ok offs =>
            dsimp only
            cases getCompactColumns r.tables p.passthrough C.compact with
            | error e => rfl
            | ok compact =>
              dsimp only
              cases materializationOrder r.tables compact p with
              | error e => rfl
              | ok mat =>
                dsimp only
                cases materialize D.engine r.tables D.src D.reopen p mat [] with
                | error e => rfl
                | ok temps => rfl

/-- Tables that are not copied keep their rows or are emptied. -/
theorem not_copied (hok : RunOK C D p) {kd : Key}
    (h : ∀ n k t td, ¬ Copied C D p (sample C D p S s).schema n k kd t td) {X : DbState} (hX : X ∈ (sample C D p S s).hist) :
    X kd = S kd ∨ X kd = [] := by
  rcases c62_any_time (S := S) (s := s) hok with h1 | ⟨order, B, Smp, ids, T, mult, compact, offs, h1, h2⟩
  · exact (h1 X hX kd).imp id fun g => g.2.2
  · rcases h2 X hX with h3 | ⟨done, todo, h3⟩
    · exact (h3 kd).imp id fun g => g.2.2
    · rw [h3.others kd h]
      by_cases hr : C.truncate = true ∧ Reached C D p kd
      · exact .inr (h1.begins.emptied hr.1 kd hr.2)
      · exact .inl (h1.begins.kept kd fun ht hre => hr ⟨ht, hre⟩)

/-- Tables of the destination stay. -/
theorem schema_old {m : Str} {t : TableMeta} (h : (m, t) ∈ D.dstDb) : (m, t) ∈ (sample C D p S s).schema := by
  have hc : ∀ {r : Started} {db : Dict Str TableMeta} {x : DestMeta}, createStep C D r = .ok (db, x) → (m, t) ∈ db := by
    intro r db x h2
    unfold createStep at h2
    split at h2
    · split at h2
      · cases h2
      · cases h2
        exact List.mem_append.2 (.inl h)
    · cases h2; exact h
  rcases sample_cases C D p S s with ⟨-, -, -, g⟩ | ⟨r, db, x, order, states, -, h2, -, -, h5, -⟩ |
    ⟨r, db, x, order, states, offs, compact, mat, temps, hst, h1, -⟩
  · rcases g with g | ⟨r, x, -, g⟩
    · rw [g]; exact h
    · exact hc g
  · rw [h5]; exact hc h2
  · rw [h1]; exact hc hst.create

/-- Foreign keys and unique constraints hold at all times. -/
theorem always_enforced (hok : RunOK C D p) (hself : ∀ n ∈ dkeys D.dstDb, D.fnmatch n n = true)
    {cfg : PlannerConfig} {T : Tables} (hI : Input cfg T) (hplan : planInternal cfg T = .ok p)
    (hall : ∀ n y, dget cfg.targets n = some y → y.all = true → y.amount = none)
    (hpk : PkOK (dbTables D.srcDb) D.src) (hsrc : Intact D.srcDb D.src)
    (hmir : Mirrored C D cfg T p (sample C D p S s).schema) (hstab : RefsStable C D p (sample C D p S s).schema)
    (hfo : IdsFollow C D p (sample C D p S s).schema)
    (h0 : Enforced D.dstDb S) (hnew : ∀ k, ¬ InDb D.dstDb k → S k = [])
    (hold : ∀ n k kd t td, Copied C D p (sample C D p S s).schema n k kd t td → TableHolds (target D kd td) (S kd))
    (hun : ∀ n k kd t td, Copied C D p (sample C D p S s).schema n k kd t td → ∀ u ∈ td.uniques,
      StaysUnique C D p S (sample C D p S s).schema n k kd t td u) :
    ∀ X ∈ (sample C D p S s).hist, Enforced (sample C D p S s).schema X := by
  intro X hX
  refine ⟨c74_always_intact_partial hok hself hI hplan hall hpk hsrc hmir hstab hfo h0.refs hnew hold X hX, fun m t hm u hu => ?_⟩
  by_cases hc : ∃ n k t' td, Copied C D p (sample C D p S s).schema n k (t.schema, t.name) t' td
  · obtain ⟨n, k, t', td, hc⟩ := hc
    have e : m = t.schema ++ '.' :: t.name := by
      rcases schema_tables hok hm with g | ⟨-, -, -, -, -, g, -⟩
      · exact hok.dst.name_eq m t g
      · exact g
    subst e
    have h1 := dget_of_mem (schema_names hok) hm
    rw [dget_of_mem (schema_names hok) hc.schema] at h1
    cases h1
    exact c82_unique hok hfo.lookups hI hplan hpk hc (hold _ _ _ _ _ hc) (hun _ _ _ _ _ hc u hu) X hX
  · push Not at hc
    have hS : Distinguishes u (S (t.schema, t.name)) := by
      by_cases hin : InDb D.dstDb (t.schema, t.name)
      · obtain ⟨m', t', g1, g2⟩ := hin
        have e : m = m' := by
          obtain ⟨g3, g4⟩ := Prod.mk.inj g2
          rw [hok.dst.name_eq m' t' g1, g3, g4]
          rcases schema_tables hok hm with g | ⟨-, -, -, -, -, g, -⟩
          · exact hok.dst.name_eq m t g
          · exact g
        subst e
        have h1 := dget_of_mem (schema_names hok) hm
        rw [dget_of_mem (schema_names hok) (schema_old (C := C) (p := p) (S := S) (s := s) g1)] at h1
        cases h1
        exact h0.unique m _ g1 u hu
      · rw [hnew _ hin]; exact List.Pairwise.nil
    rcases not_copied hok hc hX with h | h <;> rw [h]
    · exact hS
    · exact List.Pairwise.nil

/-- C83. A destination that enforces foreign keys and unique constraints row by row accepts all a run writes, and the run
ends as it would without these constraints, if what is known to keep references (C74) and unique values (C82) intact is
met. -/
theorem c83_enforced (hok : RunOK C D p) (hself : ∀ n ∈ dkeys D.dstDb, D.fnmatch n n = true)
    {cfg : PlannerConfig} {T : Tables} (hI : Input cfg T) (hplan : planInternal cfg T = .ok p)
    (hall : ∀ n y, dget cfg.targets n = some y → y.all = true → y.amount = none)
    (hpk : PkOK (dbTables D.srcDb) D.src) (hsrc : Intact D.srcDb D.src)
    (hmir : Mirrored C D cfg T p (sample C D p S s).schema) (hstab : RefsStable C D p (sample C D p S s).schema)
    (hfo : IdsFollow C D p (sample C D p S s).schema)
    (h0 : Enforced D.dstDb S) (hnew : ∀ k, ¬ InDb D.dstDb k → S k = [])
    (hold : ∀ n k kd t td, Copied C D p (sample C D p S s).schema n k kd t td → TableHolds (target D kd td) (S kd))
    (hun : ∀ n k kd t td, Copied C D p (sample C D p S s).schema n k kd t td → ∀ u ∈ td.uniques,
      StaysUnique C D p S (sample C D p S s).schema n k kd t td u)
    {ok : DbState → Bool} (hchk : ∀ X, Enforced (sample C D p S s).schema X → ok X = true) :
    sampleChecked ok C D p S s = sample C D p S s := by
  have hsch := plain_schema (C := C) (D := D) (p := p) (S := S) (s := s)
  refine c83_accepts fun X hX => hchk X ?_
  rw [← hsch] at hmir hstab hfo hold hun ⊢
  rw [← plain_copied] at hold hun
  exact always_enforced (plain_ok hok) hself hI hplan hall hpk hsrc (plain_mirrored hmir) (plain_stable hstab) (plain_follow hfo)
    h0 hnew hold (fun n k kd t td hc u hu => plain_unique (hun n k kd t td hc u hu)) X hX

/-- C83. So does one in which the tables are created. -/
theorem c83_created (hok : RunOK C D p) (hmg : C.merge = false) {cfg : PlannerConfig}
    (hex : ∀ x ∈ cfg.extraFks, x.Valid)
    (htg : [] ∉ dkeys cfg.targets) (hplan : plan D.fnmatch D.srcDb cfg = .ok p) (hign : cfg.ignoreFks = [])
    (hall : ∀ n y, dget cfg.targets n = some y → y.all = true → y.amount = none)
    (hcr : C.create = true) (hpk : PkOK (dbTables D.srcDb) D.src) (huq : UniqueOK (dbTables D.srcDb) D.src)
    (hsrc : Intact D.srcDb D.src) (hcols : FkColumnsOK D)
    (hfil : KeysUnfiltered C D) (hrefs : RefsToKeys C D) (hfo : IdsFollow C D p [])
    (hucols : ∀ n t, (n, t) ∈ D.srcDb → ∀ u ∈ t.uniques, ∀ c ∈ u, c ∈ t.columns)
    (hufil : ∀ n fs, (n, fs) ∈ C.filters → ∀ f ∈ fs, ∀ c ∈ FilterCfg.writes f, ∀ t, (n, t) ∈ D.srcDb →
      ∀ u ∈ t.uniques, c ∉ u)
    (humul : ∀ n k t, n ∈ dkeys p.queries → parseTableName n = some k → (n, t) ∈ D.srcDb → ∀ u ∈ t.uniques,
      1 < timesWritten C p n → ∃ c ∈ u, Multiplied C D p n c ∧ ∀ r ∈ D.src k, r.get c = .null ∨ ∃ v, r.get c = .int v)
    (hfree : DestinationFree C D p S) (h0 : Enforced D.dstDb S) (hnew : ∀ k, ¬ InDb D.dstDb k → S k = [])
    {ok : DbState → Bool} (hchk : ∀ X, Enforced (sample C D p S s).schema X → ok X = true) :
    sampleChecked ok C D p S s = sample C D p S s := by
  obtain ⟨T, h1, h2, h3, h4, h5⟩ := created_conditions (s := s) hok hmg hex htg hplan hign hcols hfil hrefs hfree
  refine c83_enforced hok (hok.self hcr) h1 h2 hall hpk hsrc h3 h4
    ⟨hfo.infer, hfo.simple, hfo.closed, hfo.named, hfo.mult, fun h => by rw [hmg] at h; cases h⟩ h0 hnew h5 ?_ hchk
  intro n k kd t td hc u hu
  obtain ⟨g1, g2, -⟩ := created_copy hok hfree hc
  have he := (hfree.free n hc.planned kd hc.dest).2
  rw [g1.uniques] at hu
  refine ⟨?_, by rw [he]; exact List.Pairwise.nil, fun c hcu => ⟨hucols n t hc.source u hu c hcu, fun fs hfs f hf hw =>
    hufil n fs hfs f hf c hw t hc.source u hu hcu, by rw [g2]; exact List.not_mem_nil⟩,
    humul n k t hc.planned hc.name hc.source u hu, .inl he⟩
  have hk : dget (dbTables D.srcDb) k = some t := (dbTables_iff hok.src (parse_fst_nodot hc.name)).2 (by
    rw [show k.1 ++ '.' :: k.2 = n from parse_str hc.name]; exact hc.source)
  refine (huq k t hk u hu).imp fun {r r'} h hn => ?_
  by_contra hcon
  refine h hn (List.map_congr_left fun c hcu => ?_)
  by_contra hne
  exact hcon ⟨c, hcu, hne⟩

/-! ### Checks of a database -/

theorem filledIn_iff {cols : List Str} {r : Row} : filledIn cols r = true ↔ ∀ c ∈ cols, r.get c ≠ .null := by
  simp [filledIn]

theorem checkUnique_iff {u : List Str} {rows : List Row} : checkUnique u rows = true ↔ Distinguishes u rows := by
  induction rows with
  | nil => exact ⟨fun _ => List.Pairwise.nil, fun _ => rfl⟩
  | cons r rows ih =>
    have e : ∀ r' : Row, u.map r.get ≠ u.map r'.get ↔ ∃ c ∈ u, r.get c ≠ r'.get c := by
      intro r'
      rw [Ne, List.map_inj_left]
      push Not
      rfl
    unfold checkUnique Distinguishes
    rw [List.pairwise_cons, Bool.and_eq_true, ih, Bool.or_eq_true, Bool.not_eq_true', List.all_eq_true]
    refine and_congr ?_ Iff.rfl
    constructor
    · rintro h r' hr' hn
      rcases h with h | h
      · rw [filledIn_iff.2 hn] at h; cases h
      · exact (e r').1 (of_decide_eq_true (h r' hr'))
    · intro h
      cases hf : filledIn u r with
      | false => exact .inl rfl
      | true => exact .inr fun r' hr' => decide_eq_true ((e r').2 (h r' hr' (filledIn_iff.1 hf)))

/-- `checkDb` checks what it says. -/
theorem checkDb_iff {schema : Dict Str TableMeta} {X : DbState} : checkDb schema X = true ↔ Enforced schema X := by
  unfold checkDb
  rw [List.all_eq_true]
  have href : ∀ (fk : ForeignKey) (r : Row), (!filledIn fk.columns r || (X (fk.dstSchema, fk.dstTable)).any fun q =>
        (fk.columns.zip fk.dstColumns).all fun c => decide (r.get c.1 = q.get c.2)) = true ↔
      Resolves fk r (X (fk.dstSchema, fk.dstTable)) := by
    intro fk r
    rw [Bool.or_eq_true, Bool.not_eq_true', List.any_eq_true]
    unfold Resolves
    constructor
    · intro h hn
      rcases h with h | ⟨q, h1, h2⟩
      · rw [filledIn_iff.2 hn] at h; cases h
      · rw [List.all_eq_true] at h2
        exact ⟨q, h1, fun e he => ⟨hn e.1 (List.of_mem_zip he).1, of_decide_eq_true (h2 e he)⟩⟩
    · intro h
      cases hf : filledIn fk.columns r with
      | false => exact .inl rfl
      | true =>
        obtain ⟨q, h1, h2⟩ := h (filledIn_iff.1 hf)
        exact .inr ⟨q, h1, List.all_eq_true.2 fun e he => decide_eq_true (h2 e he).2⟩
  constructor
  · intro h
    refine ⟨?_, fun m t hm u hu => ?_⟩
    · rintro a fk b ⟨n, t, h1, rfl, h2, rfl⟩ r hr
      have := h (n, t) h1
      rw [Bool.and_eq_true, List.all_eq_true] at this
      exact (href fk r).1 (List.all_eq_true.1 (this.1 fk h2) r hr)
    · have := h (m, t) hm
      rw [Bool.and_eq_true] at this
      exact checkUnique_iff.1 (List.all_eq_true.1 this.2 u hu)
  · rintro h ⟨m, t⟩ hm
    rw [Bool.and_eq_true, List.all_eq_true, List.all_eq_true]
    exact ⟨fun fk hfk => List.all_eq_true.2 fun r hr => (href fk r).2 (h.refs _ fk _ ⟨m, t, hm, rfl, hfk, rfl⟩ r hr),
      fun u hu => checkUnique_iff.2 (h.unique m t hm u hu)⟩

/-! ### Examples -/

/-- `c83_enforced` on an example: sampled users and orders are compacted, doubled and merged with those of a destination that
checks foreign keys row by row. -/
theorem wx_enforced : ∃ p, planInternal exCfg ixTables = .ok p ∧
    sampleChecked (checkDb rxDst) wxC (rxSetting rxDst) p rxBefore 0 = sample wxC (rxSetting rxDst) p rxBefore 0 := by
  have hn := ixNames
  have hp : wxPass (planInternal exCfg ixTables) = [] := by decide +kernel
  cases h : planInternal exCfg ixTables with
  | error e => rw [h] at hn; cases hn
  | ok p =>
    rw [h] at hn hp
    obtain ⟨hok, hI, h1, h2, h3, h4, h5, h6, h7, h8⟩ := ix_hyps (C := wxC) rfl rfl rfl h hn
    have hsch : (sample wxC (rxSetting rxDst) p rxBefore 0).schema = rxDst := schema_kept rfl
    have hu : ∀ e ∈ rxDst, e.2.uniques = [] := by decide
    refine ⟨p, rfl, c83_enforced (C := wxC) (D := rxSetting rxDst) (p := p) (S := rxBefore) (s := 0) hok
      (fun n _ => by simp [rxSetting, dxEq]) hI h h1 h2 h3
      (by rw [hsch]; exact h4) (by rw [hsch]; exact h5) (by rw [hsch]; exact wx_follow hn hp) ⟨h6, fun m t hm u hut => ?_⟩ h7
      (by rw [hsch]; exact h8) (fun n k kd t td hc u hut => ?_) (fun X hX => by rw [hsch] at hX; exact checkDb_iff.2 hX)⟩
    · rw [hu (m, t) hm] at hut; cases hut
    · have := hc.schema
      rw [hsch] at this
      rw [hu (_, td) this] at hut; cases hut

/-- Error and number of users after a run into a destination with unique mail addresses. -/
def wuChecked (C : RunConfig) (before : List Row) : Option (Option RunErr × Nat) :=
  match plan dxEq (wuSetting uxUsers []).srcDb (uxCfg { amount := some 2 }) with
  | .ok p =>
    let dst : Dict Str TableMeta := [(str! "m.o", { uxO with schema := str! "m", foreignKeys := [] }), (str! "m.u", { wuU with schema := str! "m" })]
    let R := sampleChecked (checkDb dst) C (wuSetting uxUsers dst) p (fun k => if k = (str! "m", str! "u") then before else []) 0
    some (R.err, (R.final (str! "m", str! "u")).length)
  | .error _ => none

/-- The destination rejects copies with the same mail address, and the batch is rolled back. -/
theorem wu_rejected : wuChecked { remap := dxRemap } [] = some (none, 2) ∧
    wuChecked { remap := dxRemap, mult := { multiplier := 2 } } [] = some (some (.dest (.output .integrity)), 0) := by
  decide +kernel

/-- It rejects users whose mail address it has, also if they are merged. -/
theorem wu_taken : wuChecked { remap := dxRemap, merge := true } [uxRow 9 (str! "d")] = some (none, 3) ∧
    wuChecked { remap := dxRemap, merge := true } [uxRow 9 (str! "a")] = some (some (.dest (.output .integrity)), 1) := by
  decide +kernel

/-- It rejects orders without their users if the planner was told to ignore the foreign key and the destination has it. -/
theorem rx_dangling : (match plan dxEq (rxSetting rxDst).srcDb { exCfg with select := [str! "s.o"], ignoreFks := [(str! "s.o", str! "s.u")] } with
      | .ok p =>
        let R := sampleChecked (checkDb rxDst) { remap := dxRemap } (rxSetting rxDst) p (fun _ => []) 0
        some (R.err, R.final (str! "m", str! "o"))
      | .error _ => none) = some (some (.dest (.output .integrity)), []) := by
  decide +kernel

end Subsetter.Props
