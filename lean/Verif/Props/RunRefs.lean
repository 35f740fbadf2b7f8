import Verif.Proofs.RunRefs
import Verif.Props.RunCreated

/-
Property C74: foreign keys of the destination hold although identifiers are compacted, multiplied or shifted.
-/
namespace Subsetter.Props
open Subsetter Spec

variable {σ : Type} {C : RunConfig} {D : Setting σ} {p : Plan} {S : DbState} {s : σ}

/-- C74. If foreign keys hold in the source and in the destination, and those of the destination's copied tables are
those of the source, then they hold after every commit of a run, whether it finishes, fails or is interrupted, also if
identifiers are compacted, rows are multiplied and identifiers are shifted past those of the destination, in any
combination, provided the configuration treats columns as those they refer to (`IdsFollow`).
Missing: what `IdsFollow` excludes, where the claim fails (`c32_named_column_breaks_reference`, `c32_chain_not_followed`,
`c27_renamed_column_not_multiplied`, `c30_composite_broken`), and what is missing from C60. Inferred foreign keys are added by
`c74_inferred_partial`. -/
theorem c74_always_intact_partial (hok : RunOK C D p) (hself : ∀ n ∈ dkeys D.dstDb, D.fnmatch n n = true)
    {cfg : PlannerConfig} {T : Tables} (hI : Input cfg T) (hplan : planInternal cfg T = .ok p)
    (hall : ∀ n y, dget cfg.targets n = some y → y.all = true → y.amount = none)
    (hpk : PkOK (dbTables D.srcDb) D.src) (hsrc : Intact D.srcDb D.src)
    (hmir : Mirrored C D cfg T p (sample C D p S s).schema) (hstab : RefsStable C D p (sample C D p S s).schema)
    (hfo : IdsFollow C D p (sample C D p S s).schema)
    (h0 : Intact D.dstDb S) (hnew : ∀ k, ¬ InDb D.dstDb k → S k = [])
    (hold : ∀ n k kd t td, Copied C D p (sample C D p S s).schema n k kd t td → TableHolds (target D kd td) (S kd)) :
    ∀ X ∈ (sample C D p S s).hist, Intact (sample C D p S s).schema X :=
  always_intact hok hself hI hplan hall hpk hsrc hmir hstab h0 hnew hold fun hcp hB hnames hkey =>
    ⟨follow_alike hok hfo hcp hmir hB hnames hkey, fun _ _ _ _ _ hc _ _ _ h _ =>
      lookups_unique hok hfo.lookups hcp hI hplan hpk hc h⟩

/-- C74. Where the planned tables do not exist in the destination, conditions on the source suffice. -/
theorem c74_created_partial (hok : RunOK C D p) (hmg : C.merge = false) {cfg : PlannerConfig}
    (hex : ∀ x ∈ cfg.extraFks, x.Valid)
    (htg : [] ∉ dkeys cfg.targets) (hplan : plan D.fnmatch D.srcDb cfg = .ok p) (hign : cfg.ignoreFks = [])
    (hall : ∀ n y, dget cfg.targets n = some y → y.all = true → y.amount = none)
    (hcr : C.create = true) (hpk : PkOK (dbTables D.srcDb) D.src) (hsrc : Intact D.srcDb D.src) (hcols : FkColumnsOK D)
    (hfil : KeysUnfiltered C D) (hrefs : RefsToKeys C D) (hfo : IdsFollow C D p [])
    (hfree : DestinationFree C D p S) (h0 : Intact D.dstDb S) (hnew : ∀ k, ¬ InDb D.dstDb k → S k = []) :
    ∀ X ∈ (sample C D p S s).hist, Intact (sample C D p S s).schema X := by
  obtain ⟨T, h1, h2, h3, h4, h5⟩ := created_conditions (s := s) hok hmg hex htg hplan hign hcols hfil hrefs hfree
  exact c74_always_intact_partial hok (hok.self hcr) h1 h2 hall hpk hsrc h3 h4
    ⟨hfo.infer, hfo.simple, hfo.closed, hfo.named, hfo.mult, fun h => by rw [hmg] at h; cases h⟩ h0 hnew h5

/-- C74. The condition on multiplied columns holds if nothing is exempt from multiplication and foreign keys lead to
columns of primary keys that have the same names. -/
theorem c74_same_names (hok : RunOK C D p) (hpass : p.passthrough = []) (hig : C.mult.ignoreTables = [])
    (hpk : C.mult.ignorePk = [])
    (hdb : ∀ n ∈ dkeys p.queries, n ∈ dkeys D.srcDb)
    (hkeys : ∀ n t, (n, t) ∈ D.srcDb → ∀ fk ∈ t.foreignKeys, fk.columns = fk.dstColumns ∧
      ∀ tb, (fk.dstSchema ++ '.' :: fk.dstTable, tb) ∈ D.srcDb → ∀ c ∈ fk.dstColumns, c ∈ tb.primaryKey)
    {n : Str} (hn : n ∈ dkeys p.queries) {t : TableMeta} (ht : (n, t) ∈ D.srcDb) {fk : ForeignKey}
    (hfk : fk ∈ t.foreignKeys) (hnb : fk.dstSchema ++ '.' :: fk.dstTable ∈ dkeys p.queries) {e : Str × Str}
    (he : e ∈ fk.columns.zip fk.dstColumns) :
    (Multiplied C D p n e.1 ↔ Multiplied C D p (fk.dstSchema ++ '.' :: fk.dstTable) e.2) ∧
    timesWritten C p n = timesWritten C p (fk.dstSchema ++ '.' :: fk.dstTable) := by
  obtain ⟨h1, h2⟩ := hkeys n t ht fk hfk
  have hsame : e.1 = e.2 := by
    rw [← h1] at he
    generalize fk.columns = l at he
    clear h1 h2
    induction l with
    | nil => cases he
    | cons x l ih =>
      rw [List.zip_cons_cons, List.mem_cons] at he
      rcases he with rfl | he
      · rfl
      · exact ih he
  have hno : ∀ m : Str, m ∉ p.passthrough ++ C.mult.ignoreTables := by
    rw [hpass, hig]; exact fun _ => List.not_mem_nil
  have hdot := (hok.src.fk_cols n t ht fk hfk).2.2
  obtain ⟨⟨m, tb⟩, h3, h4⟩ := List.mem_map.1 (hdb _ hnb)
  dsimp only at h4
  subst h4
  have hd : MultCol (dbTables D.srcDb) C.mult (p.passthrough ++ C.mult.ignoreTables) (dkeys p.queries)
      (fk.dstSchema ++ '.' :: fk.dstTable) e.2 :=
    .pk hnb (hno _) ⟨(fk.dstSchema, fk.dstTable), parse_of_nodot (k := (fk.dstSchema, fk.dstTable)) hdot,
      (dbTables_iff hok.src hdot).2 h3⟩ (h2 tb h3 e.2 (List.of_mem_zip he).2) (by rw [hpk]; intro cs h; cases h)
  have hname := hok.src.name_eq n t ht
  have hdotn := hok.src.no_dot n t ht
  have hc : MultCol (dbTables D.srcDb) C.mult (p.passthrough ++ C.mult.ignoreTables) (dkeys p.queries) n e.1 := by
    refine .fk hn (hno _) (t := t) ⟨(t.schema, t.name), ?_, (dbTables_iff (k := (t.schema, t.name)) hok.src hdotn).2 ?_⟩ hfk
      (List.of_mem_zip he).1 ?_
    · rw [hname]; exact parse_of_nodot (k := (t.schema, t.name)) hdotn
    · rw [← hname]; exact ht
    · rw [hsame]; exact hd
  refine ⟨⟨fun h => ⟨h.1, hd⟩, fun h => ⟨h.1, hc⟩⟩, ?_⟩
  unfold timesWritten
  simp [hpass, hig]

/-- Orders name the column that refers to users as their key is named. -/
def wxSame : Setting Int := { rxSetting [] with srcDb := [(str! "s.o", { schema := str! "s", name := str! "o", columns := [str! "oid", str! "id"], primaryKey := [str! "oid"], intColumns := [str! "oid", str! "id"], foreignKeys := [⟨[str! "id"], str! "s", str! "u", [str! "id"]⟩] }), (str! "s.u", rxU (str! "s"))] }

/-- The hypotheses of `c74_same_names` hold of the example. -/
example : (Multiplied ixTwice wxSame exPlan (str! "s.o") (str! "id") ↔ Multiplied ixTwice wxSame exPlan (str! "s.u") (str! "id")) ∧
    timesWritten ixTwice exPlan (str! "s.o") = timesWritten ixTwice exPlan (str! "s.u") := by
  have hok : RunOK ixTwice wxSame exPlan := by
    refine ⟨rxDb_ok (by decide) (by decide), rxDb_ok (by decide) (by decide), ?_, ?_, (fun h => nomatch h), by decide, .nil⟩
    · rintro a b ⟨n, t, fk, h1, -⟩
      cases h1
    · intro n t h
      have : ∀ e ∈ wxSame.srcDb, e.2.columns.Nodup := by decide
      exact this (n, t) h
  refine c74_same_names (fk := ⟨[str! "id"], str! "s", str! "u", [str! "id"]⟩) (e := (str! "id", str! "id")) hok (by decide) rfl rfl (by decide) ?_ (by decide) (List.mem_cons_self ..) (by decide) (by decide) (by decide)
  intro n t h fk hfk
  have : ∀ e ∈ wxSame.srcDb, ∀ fk ∈ e.2.foreignKeys, fk.columns = fk.dstColumns ∧
    ∀ x ∈ wxSame.srcDb, x.1 = fk.dstSchema ++ '.' :: fk.dstTable → ∀ c ∈ fk.dstColumns, c ∈ x.2.primaryKey := by decide
  exact ⟨(this _ h fk hfk).1, fun tb htb => (this _ h fk hfk).2 _ htb rfl⟩

/-! ### Example -/

/-- Keys are compacted, each row is written twice, and everything is merged into the destination.  The column that
refers to users has another name than their key, so it has to be listed. -/
def wxC : RunConfig := { remap := dxRemap, compact := { primaryKeys := true }, mult := { multiplier := 2, extraColumns := [(str! "s.o", [str! "uid"])] }, merge := true }

def wxPass : Except PlanErr Plan → List Str
  | .ok p => p.passthrough
  | .error _ => [[]]

theorem wx_follow {p : Plan} (hn : dkeys p.queries = [str! "s.o", str! "s.u"]) (hp : p.passthrough = []) :
    IdsFollow wxC (rxSetting rxDst) p rxDst := by
  have htab : ∀ {n t}, (n, t) ∈ (rxSetting rxDst).srcDb → n = str! "s.o" ∧ t = rxO (str! "s") ∨ n = str! "s.u" ∧ t = rxU (str! "s") := by
    intro n t h
    simp only [rxSetting, List.mem_cons, Prod.mk.injEq, List.not_mem_nil, or_false] at h
    exact h
  have hfk : ∀ {n t fk}, (n, t) ∈ (rxSetting rxDst).srcDb → fk ∈ t.foreignKeys → n = str! "s.o" ∧ fk = ⟨[str! "uid"], str! "s", str! "u", [str! "id"]⟩ := by
    intro n t fk h hf
    rcases htab h with ⟨rfl, rfl⟩ | ⟨rfl, rfl⟩
    · simp only [rxO, List.mem_cons, List.not_mem_nil, or_false] at hf
      exact ⟨rfl, hf⟩
    · cases hf
  refine ⟨rfl, fun _ => ⟨?_, ?_⟩, ?_, fun _ _ h => (nomatch h), ?_, ?_⟩
  · intro n _ t ht fk h1 fk' h2 c d d' h3 h4
    obtain ⟨-, rfl⟩ := hfk ht h1
    obtain ⟨-, rfl⟩ := hfk ht h2
    simp only [List.zip_cons_cons, List.zip_nil_right, List.mem_singleton, Prod.mk.injEq] at h3 h4
    exact ⟨rfl, h3.2.trans h4.2.symm⟩
  · intro n _ t ht fk h1 tb h2 d hd fk' h3
    obtain ⟨-, rfl⟩ := hfk ht h1
    exact absurd (hfk h2 h3).1 (by decide)
  · intro _ n _ t ht fk h1
    obtain ⟨-, rfl⟩ := hfk ht h1
    rw [hn]; decide
  · intro n _ t ht fk h1 _ e he
    obtain ⟨rfl, rfl⟩ := hfk ht h1
    simp only [List.zip_cons_cons, List.zip_nil_right, List.mem_singleton] at he
    subst he
    refine ⟨⟨fun _ => ?_, fun _ => ?_⟩, fun _ => ?_⟩
    · refine ⟨by decide, .pk (t := rxU (str! "s")) (by rw [hn]; decide) (by rw [hp]; decide) ⟨(str! "s", str! "u"), by decide, by decide⟩ (by decide) ?_⟩
      intro cs h; cases h
    · exact ⟨by decide, .extra (cs := [str! "uid"]) (by rw [hn]; decide) (by rw [hp]; decide) (by decide) (by decide)⟩
    · unfold timesWritten
      rw [hp]
      decide
  · intro _ n k kd t td hc fk h1 nb kb tb tdb hcb
    rcases ix_copied rfl hn hc with ⟨-, -, -, -, rfl⟩ | ⟨-, -, -, -, rfl⟩
    · simp only [rxO, List.mem_cons, List.not_mem_nil, or_false] at h1
      subst h1
      rcases ix_copied rfl hn hcb with ⟨-, -, h, -⟩ | ⟨-, -, -, rfl, rfl⟩
      · exact absurd h (by decide)
      · exact .inl ⟨by rw [hp]; exact List.not_mem_nil, by rw [hp]; exact List.not_mem_nil, str! "uid", str! "id", rfl, rfl, rfl, rfl, by decide⟩
    · cases h1

/-- C74 on the example. -/
theorem wx_always_intact : ∃ p, planInternal exCfg ixTables = .ok p ∧
    ∀ X ∈ (sample wxC (rxSetting rxDst) p rxBefore 0).hist, Intact rxDst X := by
  have hn := ixNames
  have hp : wxPass (planInternal exCfg ixTables) = [] := by decide +kernel
  cases h : planInternal exCfg ixTables with
  | error e => rw [h] at hn; cases hn
  | ok p =>
    rw [h] at hn hp
    obtain ⟨hok, hI, h1, h2, h3, h4, h5, h6, h7, h8⟩ := ix_hyps (C := wxC) rfl rfl rfl h hn
    have hsch : (sample wxC (rxSetting rxDst) p rxBefore 0).schema = rxDst := schema_kept rfl
    have := c74_always_intact_partial (C := wxC) (D := rxSetting rxDst) (p := p) (S := rxBefore) (s := 0) hok
      (fun n _ => by simp [rxSetting, dxEq]) hI h h1 h2 h3
      (by rw [hsch]; exact h4) (by rw [hsch]; exact h5) (by rw [hsch]; exact wx_follow hn hp) h6 h7 (by rw [hsch]; exact h8)
    exact ⟨p, rfl, by rwa [hsch] at this⟩

/-- It finishes: user 1 and order 7 become 1, then 2 and 3, then 8 and 9, and 12 and 13. -/
theorem wx_result : (match planInternal exCfg ixTables with
      | .ok p => some (rxShow (sample wxC (rxSetting rxDst) p rxBefore 0))
      | .error _ => none) =
    some (none, [[[(str! "id", .int 5)], [(str! "id", .int 8)], [(str! "id", .int 9)]],
      [[(str! "id", .int 9), (str! "uid", .int 5)], [(str! "id", .int 12), (str! "uid", .int 8)], [(str! "id", .int 13), (str! "uid", .int 9)]],
      [[(str! "oid", .int 9)]]]) := by
  decide +kernel

end Subsetter.Props
