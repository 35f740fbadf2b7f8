import Verif.Proofs.Unique
import Verif.Props.RunKeys
import Verif.Props.RunCreated
import Verif.Props.Anonymity

/-
Property C82: values unique in the source are unique in the destination, and columns without NULL stay so.
-/
namespace Subsetter.Props
open Subsetter Spec

variable {σ : Type} {C : RunConfig} {D : Setting σ} {p : Plan} {S : DbState} {s : σ}

/-- C82. Columns that distinguish the rows of a table of the source distinguish those of the table they are copied to, at
any time of any run, whether identifiers are compacted, rows multiplied, or everything is merged into what the
destination holds, provided that values written can be told apart (`StaysUnique`). -/
theorem c82_unique (hok : RunOK C D p) (hfo : LookupsFollow C D p) {cfg : PlannerConfig} {T : Tables}
    (hI : Input cfg T) (hplan : planInternal cfg T = .ok p) (hpk : PkOK (dbTables D.srcDb) D.src) {n : Str}
    {k kd : Key} {t td : TableMeta} (hc : Copied C D p (sample C D p S s).schema n k kd t td)
    (hold : TableHolds (target D kd td) (S kd)) {u : List Str}
    (hun : StaysUnique C D p S (sample C D p S s).schema n k kd t td u) :
    ∀ X ∈ (sample C D p S s).hist, Distinguishes u (X kd) := by
  refine table_any_time hok hc hun.before (fun _ => List.Pairwise.nil) fun {_ _ _ _ _ _ _ _} hcp hB hBS {_ _ _ _} hs hcm => ?_
  obtain ⟨h1, h2⟩ := sent_unique hok hfo hcp hI hplan hpk (schema_names hok) hc hun hs
  refine commits_distinguish hcm hs.fitting ?_ h1 hB h2
  rcases hBS with e | e
  · rw [e]; exact hold
  · rw [e]; exact ⟨fun _ => List.Pairwise.nil, fun _ h => nomatch h⟩

/-- C82. A column that has no NULL in the source has none in the destination, at any time of any run. -/
theorem c82_not_null (hok : RunOK C D p) (hfo : LookupsFollow C D p) {cfg : PlannerConfig} {T : Tables}
    (hI : Input cfg T) (hplan : planInternal cfg T = .ok p)
    (hall : Compacts C → ∀ n y, dget cfg.targets n = some y → y.all = true → y.amount = none)
    (hpk : PkOK (dbTables D.srcDb) D.src) (hsrc : Compacts C → Intact D.srcDb D.src) {n : Str}
    {k kd : Key} {t td : TableMeta} (hc : Copied C D p (sample C D p S s).schema n k kd t td) {c : Str}
    (hf : StaysFilled C D cfg T S n k kd t td c) :
    ∀ X ∈ (sample C D p S s).hist, ∀ r ∈ X kd, r.get c ≠ .null := by
  refine table_any_time hok hc (P := fun rows => ∀ r ∈ rows, r.get c ≠ .null) hf.before (fun _ _ h => nomatch h)
    fun {_ _ _ _ _ _ _ _} hcp hB _ {_ _ _ _} hs hcm => ?_
  obtain ⟨h1, h2⟩ := sent_filled hok hfo hcp hI hplan hall hpk hsrc hc hf hs
  exact commits_all (P := fun v => v ≠ .null) h1 hcm hs.fitting h2 hB

/-- C82. Unique constraints of created tables hold at all times if no filter touches their columns and, where rows are
multiplied, one of these is a multiplied integer column. -/
theorem c82_created (hok : RunOK C D p) (hfo : LookupsFollow C D p) {cfg : PlannerConfig}
    (hex : ∀ x ∈ cfg.extraFks, x.Valid) (htg : [] ∉ dkeys cfg.targets) (hplan : plan D.fnmatch D.srcDb cfg = .ok p)
    (hpk : PkOK (dbTables D.srcDb) D.src) (huq : UniqueOK (dbTables D.srcDb) D.src)
    (hfree : DestinationFree C D p S) {n : Str}
    {k kd : Key} {t td : TableMeta} (hc : Copied C D p (sample C D p S s).schema n k kd t td) {u : List Str}
    (hu : u ∈ td.uniques) (hcols : ∀ c ∈ u, c ∈ t.columns)
    (hfil : ∀ fs, (n, fs) ∈ C.filters → ∀ f ∈ fs, ∀ c ∈ FilterCfg.writes f, c ∉ u)
    (hmul : 1 < timesWritten C p n → ∃ c ∈ u, Multiplied C D p n c ∧
      ∀ r ∈ D.src k, r.get c = .null ∨ ∃ v, r.get c = .int v) :
    ∀ X ∈ (sample C D p S s).hist, Distinguishes u (X kd) := by
  obtain ⟨T, hI, hpi, -⟩ := planned_from hok.src hex htg hplan
  obtain ⟨h1, h2, -⟩ := created_copy hok hfree hc
  have he := (hfree.free n hc.planned kd hc.dest).2
  refine c82_unique hok hfo hI hpi hpk hc (by rw [he]; exact ⟨fun _ => List.Pairwise.nil, fun _ h => nomatch h⟩)
    ⟨?_, by rw [he]; exact List.Pairwise.nil, fun c hcu => ⟨hcols c hcu, fun fs hfs f hf hw => hfil fs hfs f hf c hw hcu,
      by rw [h2]; exact List.not_mem_nil⟩, hmul, .inl he⟩
  rw [h1.uniques] at hu
  have hk : dget (dbTables D.srcDb) k = some t := (dbTables_iff hok.src (parse_fst_nodot hc.name)).2 (by
    rw [show k.1 ++ '.' :: k.2 = n from parse_str hc.name]; exact hc.source)
  refine (huq k t hk u hu).imp fun {r r'} h hn => ?_
  by_contra hcon
  refine h hn (List.map_congr_left fun c hcu => ?_)
  by_contra hne
  exact hcon ⟨c, hcu, hne⟩

/-! ### Examples -/

theorem wx_past {p : Plan} (hn : dkeys p.queries = [str! "s.o", str! "s.u"]) (hp : p.passthrough = [])
    (hd : Copied wxC (rxSetting rxDst) p rxDst (str! "s.u") (str! "s", str! "u") (str! "m", str! "u") (rxU (str! "s")) (rxU (str! "m"))) :
    StaysUnique wxC (rxSetting rxDst) p rxBefore rxDst (str! "s.o") (str! "s", str! "o") (str! "m", str! "o") (rxO (str! "s")) (rxO (str! "m")) [str! "uid"] := by
  have hint : ∀ r ∈ (rxSetting rxDst).src (str! "s", str! "o"), r.get (str! "uid") = .int 1 ∨ r.get (str! "uid") = .int 2 := by decide
  refine ⟨by unfold Distinguishes; decide, List.pairwise_singleton .., ?_, fun _ => ?_, ?_⟩
  · intro c h
    rw [List.mem_singleton] at h
    subst h
    exact ⟨by decide, fun _ h => (nomatch h), by decide⟩
  · refine ⟨_, List.mem_singleton.2 rfl, ⟨by decide, .extra (cs := [str! "uid"]) (by rw [hn]; decide) (by rw [hp]; decide) (by decide) (by decide)⟩, fun r hr => .inr ?_⟩
    rcases hint r hr with h | h
    · exact ⟨1, h⟩
    · exact ⟨2, h⟩
  · refine .inr (.inr (.inl ⟨_, List.mem_singleton.2 rfl, rfl, by rw [hp]; exact List.not_mem_nil, by decide, fun r hr => .inr ?_,
      .inr ⟨(str! "m", str! "u"), str! "id", ⟨[str! "uid"], str! "s", str! "u", [str! "id"]⟩, by decide, _, _, _, rfl, rfl, hd, by rw [hp]; exact List.not_mem_nil, rfl, by decide⟩, ?_⟩))
    · rcases hint r hr with h | h
      · exact ⟨1, by decide, h⟩
      · exact ⟨2, by decide, h⟩
    · rintro kb d ⟨fk, h1, k0, tb, tdb, h2, h3, h4, h5, h6, h7⟩
      simp only [rxO, List.mem_singleton] at h1
      subst h1
      rcases ix_copied rfl hn h4 with ⟨h, -⟩ | ⟨-, -, rfl, rfl, rfl⟩
      · exact absurd h (by decide)
      · rw [show d = str! "id" from by simpa [rxU] using h6.symm]
        decide

/-- Both tables are copied. -/
theorem wx_both {p : Plan} (hn : dkeys p.queries = [str! "s.o", str! "s.u"]) :
    Copied wxC (rxSetting rxDst) p rxDst (str! "s.o") (str! "s", str! "o") (str! "m", str! "o") (rxO (str! "s")) (rxO (str! "m")) ∧
    Copied wxC (rxSetting rxDst) p rxDst (str! "s.u") (str! "s", str! "u") (str! "m", str! "u") (rxU (str! "s")) (rxU (str! "m")) := by
  have hdo : DestOf wxC.remap (str! "s.o") (str! "m", str! "o") := ⟨str! "s", str! "o", by decide, by decide⟩
  have hdu : DestOf wxC.remap (str! "s.u") (str! "m", str! "u") := ⟨str! "s", str! "u", by decide, by decide⟩
  have ho : str! "s.o" ∈ dkeys p.queries := by rw [hn]; decide
  have hu : str! "s.u" ∈ dkeys p.queries := by rw [hn]; decide
  exact ⟨⟨ho, by decide, by decide, hdo, ⟨str! "s.o", ho, _, hdo, .inr ⟨(str! "m", str! "o"),
      ⟨str! "m.o", rxO (str! "m"), by decide, by decide, str! "m.o", by simp, by decide⟩, .refl⟩⟩, by decide⟩,
    ⟨hu, by decide, by decide, hdu, ⟨str! "s.u", hu, _, hdu, .inr ⟨(str! "m", str! "u"),
      ⟨str! "m.u", rxU (str! "m"), by decide, by decide, str! "m.u", by simp, by decide⟩, .refl⟩⟩, by decide⟩⟩

/-- C82 on the example: each user has at most one order, keys are compacted, each row is written twice, everything is
merged into what is there; each user still has at most one order. -/
theorem wx_unique : ∃ p, planInternal exCfg ixTables = .ok p ∧
    ∀ X ∈ (sample wxC (rxSetting rxDst) p rxBefore 0).hist, Distinguishes [str! "uid"] (X (str! "m", str! "o")) := by
  have hn := ixNames
  have hp : wxPass (planInternal exCfg ixTables) = [] := by decide +kernel
  cases h : planInternal exCfg ixTables with
  | error e => rw [h] at hn; cases hn
  | ok p =>
    rw [h] at hn hp
    obtain ⟨hok, hI, h1, h2, h3, h4, h5, h6, h7, h8⟩ := ix_hyps (C := wxC) rfl rfl rfl h hn
    have hsch : (sample wxC (rxSetting rxDst) p rxBefore 0).schema = rxDst := schema_kept rfl
    obtain ⟨hc, hd⟩ := wx_both hn
    refine ⟨p, rfl, c82_unique hok (wx_follow hn hp).lookups hI h h2 (by rw [hsch]; exact hc) (h8 _ _ _ _ _ hc) ?_⟩
    rw [hsch]
    exact wx_past hn hp hd

/-- And no order is without a user. -/
theorem wx_not_null : ∃ p, planInternal exCfg ixTables = .ok p ∧
    ∀ X ∈ (sample wxC (rxSetting rxDst) p rxBefore 0).hist, ∀ r ∈ X (str! "m", str! "o"), r.get (str! "uid") ≠ .null := by
  have hn := ixNames
  have hp : wxPass (planInternal exCfg ixTables) = [] := by decide +kernel
  cases h : planInternal exCfg ixTables with
  | error e => rw [h] at hn; cases hn
  | ok p =>
    rw [h] at hn hp
    obtain ⟨hok, hI, h1, h2, h3, h4, h5, h6, h7, h8⟩ := ix_hyps (C := wxC) rfl rfl rfl h hn
    have hsch : (sample wxC (rxSetting rxDst) p rxBefore 0).schema = rxDst := schema_kept rfl
    obtain ⟨hc, -⟩ := wx_both hn
    refine ⟨p, rfl, c82_not_null hok (wx_follow hn hp).lookups hI h (fun _ => h1) h2 (fun _ => h3) (by rw [hsch]; exact hc) ⟨by decide, by decide,
      ⟨by decide, fun _ h => (nomatch h), by decide⟩, fun _ fk hfk _ => ?_⟩⟩
    simp only [rxO, List.mem_singleton] at hfk
    subst hfk
    refine ⟨by decide, .inl ⟨.inl ⟨rxO (str! "s"), by decide, by decide, rfl⟩, ?_⟩⟩
    rintro ⟨y, hy, -⟩
    cases hy

/-- Users with unique mail addresses. -/
def wuU : TableMeta := { uxU [str! "id"] with uniques := [[str! "mail"]] }
def wuSetting (us : List Row) (dst : Dict Str TableMeta) : Setting Int := { rxSetting dst with srcDb := [(str! "s.o", uxO), (str! "s.u", wuU)], src := uxSrc us }
def wuC : RunConfig := { remap := dxRemap, create := true, compact := { primaryKeys := true, startKey := 100 } }

theorem wu_names : (match plan dxEq (wuSetting uxUsers []).srcDb (uxCfg { amount := some 2 }) with | .ok p => dkeys p.queries | .error _ => []) = [str! "s.o", str! "s.u"] := by
  decide +kernel

theorem wu_fk {n : Str} {t : TableMeta} {fk : ForeignKey} (h : (n, t) ∈ (wuSetting uxUsers []).srcDb) (hf : fk ∈ t.foreignKeys) :
    n = str! "s.o" ∧ fk = ⟨[str! "uid"], str! "s", str! "u", [str! "id"]⟩ := by
  simp only [wuSetting, List.mem_cons, Prod.mk.injEq, List.not_mem_nil, or_false] at h
  rcases h with ⟨rfl, rfl⟩ | ⟨rfl, rfl⟩
  · simp only [uxO, List.mem_cons, List.not_mem_nil, or_false] at hf
    exact ⟨rfl, hf⟩
  · cases hf

/-- The conditions of `c82_created` hold of the example. -/
theorem wu_facts {p : Plan} (hn : dkeys p.queries = [str! "s.o", str! "s.u"]) :
    RunOK wuC (wuSetting uxUsers []) p ∧ LookupsFollow wuC (wuSetting uxUsers []) p ∧
    PkOK (dbTables (wuSetting uxUsers []).srcDb) (wuSetting uxUsers []).src ∧
    UniqueOK (dbTables (wuSetting uxUsers []).srcDb) (wuSetting uxUsers []).src ∧
    DestinationFree wuC (wuSetting uxUsers []) p (fun _ => []) ∧
    ∀ n ∈ dkeys p.queries, DestOf wuC.remap n (if n = str! "s.u" then (str! "m", str! "u") else (str! "m", str! "o")) := by
  have hok : RunOK wuC (wuSetting uxUsers []) p := by
    refine ⟨rxDb_ok (by decide) (by decide), rxDb_ok (by decide) (by decide), fun a b h => ?_, fun n t h => ?_,
      fun _ _ _ => by simp [wuSetting, rxSetting, dxEq], by rw [hn]; decide, by decide⟩
    · obtain ⟨n, t, fk, h1, -⟩ := h; cases h1
    · have : ∀ e ∈ (wuSetting uxUsers []).srcDb, e.2.columns.Nodup := by decide
      exact this (n, t) h
  have hfo : LookupsFollow wuC (wuSetting uxUsers []) p := by
    refine ⟨rfl, fun _ => ⟨?_, ?_⟩, ?_, fun _ _ h => nomatch h⟩
    · intro n _ t ht fk h1 fk' h2 c d d' h3 h4
      obtain ⟨-, rfl⟩ := wu_fk ht h1
      obtain ⟨-, rfl⟩ := wu_fk ht h2
      simp only [List.zip_cons_cons, List.zip_nil_right, List.mem_singleton, Prod.mk.injEq] at h3 h4
      exact ⟨rfl, h3.2.trans h4.2.symm⟩
    · intro n _ t ht fk h1 tb h2 d hd fk' h3
      obtain ⟨-, rfl⟩ := wu_fk ht h1
      exact absurd (wu_fk h2 h3).1 (by decide)
    · intro _ n _ t ht fk h1
      obtain ⟨-, rfl⟩ := wu_fk ht h1
      rw [hn]; decide
  have hpk : PkOK (dbTables (wuSetting uxUsers []).srcDb) (wuSetting uxUsers []).src := by
    have hpk : ∀ e ∈ dbTables (wuSetting uxUsers []).srcDb, ((wuSetting uxUsers []).src e.1 |>.map fun r => e.2.primaryKey.map r.get).Nodup := by decide +kernel
    exact fun k t ht _ => hpk (k, t) (dget_some_mem ht)
  have huq : UniqueOK (dbTables (wuSetting uxUsers []).srcDb) (wuSetting uxUsers []).src := by
    have huq : ∀ e ∈ dbTables (wuSetting uxUsers []).srcDb, ∀ u ∈ e.2.uniques, ((wuSetting uxUsers []).src e.1).Pairwise fun r r' =>
      (∀ c ∈ u, r.get c ≠ .null) → u.map r.get ≠ u.map r'.get := by decide +kernel
    exact fun k t ht => huq (k, t) (dget_some_mem ht)
  have hd : ∀ n ∈ dkeys p.queries, DestOf wuC.remap n (if n = str! "s.u" then (str! "m", str! "u") else (str! "m", str! "o")) := by
    intro n h1
    rw [hn] at h1
    simp only [List.mem_cons, List.not_mem_nil, or_false] at h1
    rcases h1 with rfl | rfl
    · exact ⟨str! "s", str! "o", by decide, by decide⟩
    · exact ⟨str! "s", str! "u", by decide, by decide⟩
  have hnr : ∀ {a b}, ¬ DbRef (wuSetting uxUsers []).dstDb a b := by
    rintro a b ⟨n, t, fk, h1, -⟩; cases h1
  have hfree : DestinationFree wuC (wuSetting uxUsers []) p (fun _ => []) := by
    refine ⟨fun n h1 => ⟨_, hd n h1⟩, fun n h1 n' h2 k h3 h4 => ?_, fun n h1 k h2 => ⟨?_, rfl⟩, fun k hk => ?_⟩
    · have e := (destOf_unique h3 (hd n h1)).symm.trans (destOf_unique h4 (hd n' h2))
      rw [hn] at h1 h2
      simp only [List.mem_cons, List.not_mem_nil, or_false] at h1 h2
      rcases h1 with rfl | rfl <;> rcases h2 with rfl | rfl <;> first | rfl | exact absurd e (by decide)
    · rintro ⟨m, t, h, -⟩; cases h
    · cases hk with
      | single h => exact hnr h
      | tail _ h => exact hnr h
  exact ⟨hok, hfo, hpk, huq, hfree, hd⟩

/-- `c82_created` on an example: users are created with a unique constraint on mail addresses, and it holds. -/
theorem wu_created : ∃ p, plan dxEq (wuSetting uxUsers []).srcDb (uxCfg { amount := some 2 }) = .ok p ∧
    ∀ td, (str! "m.u", td) ∈ (sample wuC (wuSetting uxUsers []) p (fun _ => []) 0).schema → [str! "mail"] ∈ td.uniques →
      ∀ X ∈ (sample wuC (wuSetting uxUsers []) p (fun _ => []) 0).hist, Distinguishes [str! "mail"] (X (str! "m", str! "u")) := by
  have hn := wu_names
  cases h : plan dxEq (wuSetting uxUsers []).srcDb (uxCfg { amount := some 2 }) with
  | error e => rw [h] at hn; cases hn
  | ok p =>
    rw [h] at hn
    replace hn : dkeys p.queries = _ := hn
    obtain ⟨hok, hfo, hpk, huq, hfree, hd⟩ := wu_facts hn
    have hm : str! "s.u" ∈ dkeys p.queries := by rw [hn]; decide
    refine ⟨p, rfl, fun td htd hu => ?_⟩
    refine c82_created hok hfo (cfg := uxCfg { amount := some 2 }) (n := str! "s.u") (k := (str! "s", str! "u")) (t := wuU) (td := td) (fun _ h => nomatch h) (by decide) h hpk huq hfree
      ⟨hm, by decide, by decide, hd _ hm, ⟨_, hm, _, hd _ hm, .inl ⟨rfl, rfl⟩⟩, htd⟩ hu (by decide) (fun _ h => nomatch h) (fun h => ?_)
    have : timesWritten wuC p (str! "s.u") = 1 := by unfold timesWritten; rw [if_neg (by simp [wuC])]
    omega

/-- It is created with the constraint. -/
theorem wu_constraint : (match plan dxEq (wuSetting uxUsers []).srcDb (uxCfg { amount := some 2 }) with
      | .ok p => (dget (sample wuC (wuSetting uxUsers []) p (fun _ => []) 0).schema (str! "m.u")).map (·.uniques)
      | .error _ => none) = some [[str! "mail"]] := by
  decide +kernel

/-- Whether mail addresses in the destination are unique after a run into tables that hold these users. -/
def wuUnique (C : RunConfig) (before : List Row) : Option (Option RunErr × Bool) :=
  match plan dxEq (wuSetting uxUsers []).srcDb (uxCfg { amount := some 2 }) with
  | .ok p =>
    let R := sample C (wuSetting uxUsers [(str! "m.o", { uxO with schema := str! "m", foreignKeys := [] }), (str! "m.u", { wuU with schema := str! "m" })]) p
      (fun k => if k = (str! "m", str! "u") then before else []) 0
    some (R.err, ((R.final (str! "m", str! "u")).map fun r => r.get (str! "mail")).dedup.length == (R.final (str! "m", str! "u")).length)
  | .error _ => none

/-- C82 fails if rows are multiplied and no column of the constraint is: copies share it. -/
theorem wu_multiplied : wuUnique { remap := dxRemap } [] = some (none, true) ∧
    wuUnique { remap := dxRemap, mult := { multiplier := 2 } } [] = some (none, false) := by
  decide +kernel

/-- It fails if a filter replaces values. -/
theorem wu_filtered : wuUnique { remap := dxRemap, filters := [(str! "s.u", [.simple (.constant [str! "mail"] [.str (str! "x")])])] } [] = some (none, false) := by
  decide +kernel

/-- It fails if what is there has some of the values: merging changes keys only. -/
theorem wu_merged : wuUnique { remap := dxRemap, merge := true } [uxRow 9 (str! "d")] = some (none, true) ∧
    wuUnique { remap := dxRemap, merge := true } [uxRow 9 (str! "a")] = some (none, false) := by
  decide +kernel

end Subsetter.Props
