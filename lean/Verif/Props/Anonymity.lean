import Verif.Proofs.BlankDirectory
import Verif.Props.SqlRun

/- Property C76. -/
namespace Subsetter.Props
open Subsetter Spec

variable {σ : Type} {C : RunConfig} {D : Setting σ} {p : Plan} {cfg : PlannerConfig} {hid : Key → List Str} {S : DbState} {s : σ}

/-- C76. What a run does - the destination, everything written on the way, errors - is the same for two sources that
differ only in the values of columns that filters scrub and that nothing else refers to. -/
theorem c76_no_trace (hdb : DbOK D.srcDb) (hcols : ∀ n t, (n, t) ∈ D.srcDb → t.columns.Nodup)
    (hex : ∀ x ∈ cfg.extraFks, x.Valid) (htg : [] ∉ dkeys cfg.targets) (hplan : plan D.fnmatch D.srcDb cfg = .ok p)
    (hpk : PkOK (dbTables D.srcDb) D.src) (hu : Unread cfg C.infer D.srcDb hid) (hE : Blind D.engine cfg hid)
    (hsc : ∀ n ∈ dkeys p.queries, ∀ k, parseTableName n = some k → ∀ c ∈ hid k, Scrubbed ((dget C.filters n).getD []) c)
    {src' : Key → List Row} (hsame : SameOutside hid D.src src') :
    sample C { D with src := src' } p S s = sample C D p S s := by
  have key : ∀ D' : Setting σ, D'.srcDb = D.srcDb → D'.fnmatch = D.fnmatch → D'.engine = D.engine → PkOK (dbTables D'.srcDb) D'.src →
      sample C (blankSetting hid D') p S s = sample C D' p S s := by
    intro D' e1 e2 e3 hpk'
    have hdb' : DbOK D'.srcDb := by rw [e1]; exact hdb
    refine sample_blank (cfg := cfg) (by rw [e3]; exact hE) (fun r hr => ?_) hsc S s
    have hf := startRun_facts hdb' hr
    obtain ⟨l, -, h2, h3, -⟩ := startRun_ok hr
    refine ⟨planned_blind hdb' hex htg (by rw [e1, e2]; exact hplan) (by rw [e1]; exact hu) (by rw [e3]; exact hE) hpk'
      (by rw [h3, h2]) hf, fun k t ht => ?_⟩
    obtain ⟨t0, h4, -, -, -, h5⟩ := hf.get hdb' ht
    rw [h5]
    dsimp only
    rw [e1] at h4
    exact hcols _ _ h4
  rw [← key { D with src := src' } rfl rfl rfl (pkOK_outside hu hsame hpk), ← key D rfl rfl rfl hpk]
  unfold blankSetting
  dsimp only
  rw [blankSrc_eq hsame]

/-- C76 for runs that write files. -/
theorem c76_no_trace_in_files (hdb : DbOK D.srcDb) (hcols : ∀ n t, (n, t) ∈ D.srcDb → t.columns.Nodup)
    (hex : ∀ x ∈ cfg.extraFks, x.Valid) (htg : [] ∉ dkeys cfg.targets) (hplan : plan D.fnmatch D.srcDb cfg = .ok p)
    (hpk : PkOK (dbTables D.srcDb) D.src) (hu : Unread cfg C.infer D.srcDb hid) (hE : Blind D.engine cfg hid)
    (hsc : ∀ n ∈ dkeys p.queries, ∀ k, parseTableName n = some k → ∀ c ∈ hid k, Scrubbed ((dget C.filters n).getD []) c)
    {src' : Key → List Row} (hsame : SameOutside hid D.src src') {F : Files} :
    sampleDirectory C { D with src := src' } p F s = sampleDirectory C D p F s := by
  have key : ∀ D' : Setting σ, D'.srcDb = D.srcDb → D'.fnmatch = D.fnmatch → D'.engine = D.engine → PkOK (dbTables D'.srcDb) D'.src →
      sampleDirectory C (blankSetting hid D') p F s = sampleDirectory C D' p F s := by
    intro D' e1 e2 e3 hpk'
    have hdb' : DbOK D'.srcDb := by rw [e1]; exact hdb
    refine sampleDirectory_blank (cfg := cfg) (by rw [e3]; exact hE) (fun l hl => ?_) hsc F s
    have hf : LoadedFacts D' ⟨l.tables, inferStep C.infer l.tables, [], ⟨[], [], []⟩⟩ := by
      refine ⟨(loaded_ok hdb' hl).1, inferStep_sameBut _ _, fun k t hk => ?_⟩
      rcases fromEngine_spec (fnmatch := D'.fnmatch) hdb' (dkeys p.queries) false false with ⟨l', g1, -, -, g4, -⟩ | ⟨g1, -⟩
      · rw [hl] at g1; cases g1
        obtain ⟨⟨n, hn⟩, rfl⟩ := g4 k t (dget_some_mem hk)
        exact ⟨by rw [← hdb'.name_eq n t hn]; exact hn, rfl⟩
      · rw [hl] at g1; cases g1
    have := planned_blind hdb' hex htg (by rw [e1, e2]; exact hplan) (by rw [e1]; exact hu) (by rw [e3]; exact hE) hpk' rfl hf
    refine ⟨this, fun k t ht => ?_⟩
    obtain ⟨t0, h4, -, -, -, h5⟩ := hf.get hdb' ht
    rw [h5]
    dsimp only
    rw [e1] at h4
    exact hcols _ _ h4
  rw [← key { D with src := src' } rfl rfl rfl (pkOK_outside hu hsame hpk), ← key D rfl rfl rfl hpk]
  unfold blankSetting
  dsimp only
  rw [blankSrc_eq hsame]

/-- C76 with C75: the same holds of the statements that are built. -/
theorem c76_no_trace_sql (hok : RunOK C D p)
    (hex : ∀ x ∈ cfg.extraFks, x.Valid) (htg : [] ∉ dkeys cfg.targets) (hplan : plan D.fnmatch D.srcDb cfg = .ok p)
    (hself : ∀ n ∈ dkeys p.queries, D.fnmatch n n = true) (hs : SourceSound D) (ht : TargetColumns cfg D.srcDb) (hck : CompactsKeys C D)
    (hpk : PkOK (dbTables D.srcDb) D.src) (hu : Unread cfg C.infer D.srcDb hid) (hE : Blind D.engine cfg hid)
    (hsc : ∀ n ∈ dkeys p.queries, ∀ k, parseTableName n = some k → ∀ c ∈ hid k, Scrubbed ((dget C.filters n).getD []) c)
    {src' : Key → List Row} (hsame : SameOutside hid D.src src') :
    sampleSql C { D with src := src' } p S s = sampleSql C D p S s := by
  have hs' : SourceSound { D with src := src' } := by
    refine ⟨fun n t hn r hr => ?_, hs.name, hs.pkColumns, hs.fkColumns⟩
    obtain ⟨r0, h1, h2⟩ := forall₂_exists_right (hsame (t.schema, t.name)) hr
    rw [← hs.rows n t hn r0 h1]
    clear h1 hr
    induction h2 with
    | nil => rfl
    | cons h _ ih => rw [List.map_cons, List.map_cons, ih, h.1]
  have hok' : RunOK C { D with src := src' } p := ⟨hok.src, hok.dst, hok.closed, hok.srcColumns, hok.self, hok.plan, hok.compactNames⟩
  rw [c75_planned_run hok hex htg hplan hself hs hpk ht hck,
    c75_planned_run hok' hex htg hplan hself hs' (pkOK_outside hu hsame hpk) ht hck]
  exact c76_no_trace hok.src hok.srcColumns hex htg hplan hpk hu hE hsc hsame

/-! ### Examples -/

def uxU (pk : List Str) : TableMeta := { schema := str! "s", name := str! "u", columns := [str! "id", str! "mail"], primaryKey := pk, intColumns := [str! "id"] }
def uxO : TableMeta := { schema := str! "s", name := str! "o", columns := [str! "id", str! "uid"], primaryKey := [str! "id"], intColumns := [str! "id", str! "uid"], foreignKeys := [⟨[str! "uid"], str! "s", str! "u", [str! "id"]⟩] }
def uxRow (i : Int) (m : Str) : Row := [(str! "id", .int i), (str! "mail", .str m)]
/-- Users with mail addresses, and orders. -/
def uxSrc (us : List Row) (k : Key) : List Row :=
  if k = (str! "s", str! "u") then us
  else if k = (str! "s", str! "o") then [[(str! "id", .int 7), (str! "uid", .int 1)], [(str! "id", .int 8), (str! "uid", .int 3)]]
  else []
def uxUsers : List Row := [uxRow 1 (str! "a"), uxRow 2 (str! "b"), uxRow 3 (str! "c")]
def uxOthers : List Row := [uxRow 1 (str! "z"), uxRow 2 (str! "z"), uxRow 3 []]
def uxSetting (pk : List Str) (us : List Row) : Setting Int := { rxSetting [] with srcDb := [(str! "s.o", uxO), (str! "s.u", uxU pk)], src := uxSrc us }
def uxCfg (x : TargetConfig) : PlannerConfig := { select := [str! "s.o", str! "s.u"], targets := [(str! "s.o", { in_ := [(str! "id", [.int 7])] }), (str! "s.u", x)] }
/-- The run replaces mail addresses and compacts keys. -/
def uxC : RunConfig := { remap := dxRemap, create := true, compact := { primaryKeys := true, startKey := 100 }, filters := [(str! "s.u", [.simple (.randomInt [str! "mail"] 0 9)])] }
def uxHid (k : Key) : List Str := if k = (str! "s", str! "u") then [str! "mail"] else []
def uxRun (C : RunConfig) (pk : List Str) (us : List Row) (x : TargetConfig) : Option (Option RunErr × List (List Row)) :=
  match plan dxEq (uxSetting pk us).srcDb (uxCfg x) with
  | .ok p =>
    let R := sample C (uxSetting pk us) p (fun _ => []) 0
    some (R.err, [(str! "m", str! "u"), (str! "m", str! "o")].map R.final)
  | .error _ => none

theorem ux_same : SameOutside uxHid (uxSrc uxUsers) (uxSrc uxOthers) := by
  intro k
  by_cases h1 : k = (str! "s", str! "u")
  · subst h1
    exact forall₂_sameShown.2 (by decide)
  · unfold uxSrc
    rw [if_neg h1, if_neg h1]
    exact forall₂_sameShown.2 rfl

theorem ux_unread : Unread (uxCfg { amount := some 2 }) .none (uxSetting [str! "id"] uxUsers).srcDb uxHid where
  keyed := by
    intro n t h
    simp only [uxSetting, List.mem_cons, Prod.mk.injEq, List.not_mem_nil, or_false] at h
    rcases h with ⟨-, rfl⟩ | ⟨-, rfl⟩ <;> decide
  pk := by
    intro n t h
    simp only [uxSetting, List.mem_cons, Prod.mk.injEq, List.not_mem_nil, or_false] at h
    rcases h with ⟨-, rfl⟩ | ⟨-, rfl⟩ <;> decide
  fk := by
    intro n t h
    simp only [uxSetting, List.mem_cons, Prod.mk.injEq, List.not_mem_nil, or_false] at h
    rcases h with ⟨-, rfl⟩ | ⟨-, rfl⟩
    · intro fk hfk
      simp only [uxO, List.mem_singleton] at hfk
      subst hfk
      decide
    · intro fk hfk; cases hfk
  extraFk := fun x hx => nomatch hx
  inferred := fun h => by rcases h with h | h <;> exact absurd rfl h
  constraint := fun k cs h => nomatch h
  target := by
    intro k x h c hc
    simp only [uxCfg, List.mem_cons, Prod.mk.injEq, List.not_mem_nil, or_false] at h
    rcases h with ⟨-, rfl⟩ | ⟨-, rfl⟩
    · simp only [dkeys, List.map_nil, List.not_mem_nil, List.map_cons, List.mem_singleton, false_or] at hc
      subst hc
      unfold uxHid
      split <;> decide
    · simp [dkeys] at hc

theorem ux_blind (x : TargetConfig) : Blind exEngine (uxCfg x) uxHid :=
  ⟨fun _ _ _ _ h => h, fun _ _ _ _ _ _ _ _ => rfl⟩

theorem ux_names : (match plan dxEq (uxSetting [str! "id"] uxUsers).srcDb (uxCfg { amount := some 2 }) with | .ok p => dkeys p.queries | .error _ => []) = [str! "s.o", str! "s.u"] := by
  decide +kernel

theorem ux_db : DbOK (uxSetting [str! "id"] uxUsers).srcDb ∧ ∀ n t, (n, t) ∈ (uxSetting [str! "id"] uxUsers).srcDb → t.columns.Nodup := by
  constructor
  · refine ⟨by decide, ?_, ?_, ?_, ?_⟩ <;> intro n t h <;>
      simp only [uxSetting, List.mem_cons, Prod.mk.injEq, List.not_mem_nil, or_false] at h <;>
      rcases h with ⟨rfl, rfl⟩ | ⟨rfl, rfl⟩ <;> decide
  · intro n t h
    simp only [uxSetting, List.mem_cons, Prod.mk.injEq, List.not_mem_nil, or_false] at h
    rcases h with ⟨-, rfl⟩ | ⟨-, rfl⟩ <;> decide

theorem ux_pk : PkOK (dbTables (uxSetting [str! "id"] uxUsers).srcDb) (uxSetting [str! "id"] uxUsers).src := by
  have hpk : ∀ e ∈ dbTables (uxSetting [str! "id"] uxUsers).srcDb, ((uxSetting [str! "id"] uxUsers).src e.1 |>.map fun r => e.2.primaryKey.map r.get).Nodup := by decide +kernel
  exact fun k t ht _ => hpk (k, t) (dget_some_mem ht)

theorem ux_scrubbed {p : Plan} (hn : dkeys p.queries = [str! "s.o", str! "s.u"]) : ∀ n ∈ dkeys p.queries, ∀ k, parseTableName n = some k →
    ∀ c ∈ uxHid k, Scrubbed ((dget uxC.filters n).getD []) c := by
  intro n hm k hk c hc
  rw [hn] at hm
  have hkk : k = (str! "s", str! "u") := by
    unfold uxHid at hc
    split at hc
    · assumption
    · cases hc
  subst hkk
  simp only [List.mem_cons, List.not_mem_nil, or_false] at hm
  rcases hm with rfl | rfl
  · exact absurd hk (by decide)
  · simp only [uxHid, if_true, List.mem_singleton] at hc
    subst hc
    exact ⟨[], _, [], rfl, (fun _ h => nomatch h), _, rfl, by decide, by decide⟩

/-- The hypotheses of the theorems hold of users whose mail addresses are replaced. -/
theorem ux_hidden : ∃ p, plan dxEq (uxSetting [str! "id"] uxUsers).srcDb (uxCfg { amount := some 2 }) = .ok p ∧
    (∀ S s, sample uxC (uxSetting [str! "id"] uxOthers) p S s = sample uxC (uxSetting [str! "id"] uxUsers) p S s) ∧
    (∀ F s, sampleDirectory uxC (uxSetting [str! "id"] uxOthers) p F s = sampleDirectory uxC (uxSetting [str! "id"] uxUsers) p F s) ∧
    ∀ S s, sampleSql uxC (uxSetting [str! "id"] uxOthers) p S s = sampleSql uxC (uxSetting [str! "id"] uxUsers) p S s := by
  have hn := ux_names
  cases h : plan dxEq (uxSetting [str! "id"] uxUsers).srcDb (uxCfg { amount := some 2 }) with
  | error e => rw [h] at hn; cases hn
  | ok p =>
    rw [h] at hn
    have hok : RunOK uxC (uxSetting [str! "id"] uxUsers) p :=
      ⟨ux_db.1, ⟨by decide, (fun _ _ h => nomatch h), (fun _ _ h => nomatch h), (fun _ _ h => nomatch h), (fun _ _ h => nomatch h)⟩,
        (fun a b h => by obtain ⟨n, t, fk, h1, -⟩ := h; cases h1), ux_db.2, (fun _ _ _ => by simp [uxSetting, rxSetting, dxEq]),
        by rw [show dkeys p.queries = _ from hn]; decide, by decide⟩
    have hsound : SourceSound (uxSetting [str! "id"] uxUsers) := by
      refine ⟨?_, ?_, ?_, ?_⟩ <;> intro n t h <;>
        simp only [uxSetting, List.mem_cons, Prod.mk.injEq, List.not_mem_nil, or_false] at h <;>
        rcases h with ⟨rfl, rfl⟩ | ⟨rfl, rfl⟩
      · decide
      · decide
      · decide
      · decide
      · decide
      · decide
      · intro fk hfk
        simp only [uxO, List.mem_singleton] at hfk
        subst hfk
        refine ⟨by decide, fun tb htb => ?_⟩
        simp only [uxSetting, List.mem_cons, Prod.mk.injEq, List.not_mem_nil, or_false] at htb
        rcases htb with ⟨h, -⟩ | ⟨-, rfl⟩
        · exact absurd h (by decide)
        · decide
      · intro fk hfk; cases hfk
    have htc : TargetColumns (uxCfg { amount := some 2 }) (uxSetting [str! "id"] uxUsers).srcDb := by
      intro n x hx c hc t ht
      simp only [uxCfg, List.mem_cons, Prod.mk.injEq, List.not_mem_nil, or_false] at hx
      simp only [uxSetting, List.mem_cons, Prod.mk.injEq, List.not_mem_nil, or_false] at ht
      rcases hx with ⟨rfl, rfl⟩ | ⟨-, rfl⟩
      · simp only [dkeys, List.map_nil, List.not_mem_nil, List.map_cons, List.mem_singleton, false_or] at hc
        subst hc
        rcases ht with ⟨-, rfl⟩ | ⟨-, rfl⟩ <;> decide
      · simp [dkeys] at hc
    refine ⟨p, rfl, fun S s => ?_, fun F s => ?_, fun S s => ?_⟩
    · exact c76_no_trace (D := uxSetting [str! "id"] uxUsers) (cfg := uxCfg { amount := some 2 }) ux_db.1 ux_db.2 (fun _ h => nomatch h) (by decide) h ux_pk ux_unread
        (ux_blind _) (ux_scrubbed hn) ux_same
    · exact c76_no_trace_in_files (D := uxSetting [str! "id"] uxUsers) (cfg := uxCfg { amount := some 2 }) ux_db.1 ux_db.2 (fun _ h => nomatch h) (by decide) h ux_pk ux_unread
        (ux_blind _) (ux_scrubbed hn) ux_same
    · exact c76_no_trace_sql (D := uxSetting [str! "id"] uxUsers) (cfg := uxCfg { amount := some 2 }) hok (fun _ h => nomatch h) (by decide) h
        (fun n _ => by simp [uxSetting, rxSetting, dxEq]) hsound htc (fun _ _ h => nomatch h) ux_pk ux_unread (ux_blind _) (ux_scrubbed hn) ux_same

/-- Its result: users and order with new keys and generated values. -/
theorem ux_result : uxRun uxC [str! "id"] uxUsers { amount := some 2 } = uxRun uxC [str! "id"] uxOthers { amount := some 2 } ∧
    uxRun uxC [str! "id"] uxUsers { amount := some 2 } = some (none, [[[(str! "id", .int 100), (str! "mail", .int 0)], [(str! "id", .int 101), (str! "mail", .int 1)]],
      [[(str! "id", .int 100), (str! "uid", .int 100)]]]) := by
  decide +kernel

/-- C76 fails if a target names the column: which users are in the destination tells who has the address `b`. -/
theorem c76_target_tells : (uxRun { uxC with compact := {} } [str! "id"] uxUsers { amount := some 9, in_ := [(str! "mail", [.str (str! "b")])] }).map (fun x => (x.2.map List.length)) = some [2, 1] ∧
    (uxRun { uxC with compact := {} } [str! "id"] uxOthers { amount := some 9, in_ := [(str! "mail", [.str (str! "b")])] }).map (fun x => (x.2.map List.length)) = some [1, 1] := by
  decide +kernel

/-- C76 fails for tables without primary key: `UNION` removes rows that are the same also in the hidden columns, so the
number of rows tells whether two values are equal. -/
theorem c76_keyless_tells : (uxRun { uxC with compact := {} } [] [uxRow 1 (str! "a"), uxRow 1 (str! "b")] { amount := some 2 }).map (fun x => (x.2.map List.length)) = some [2, 1] ∧
    (uxRun { uxC with compact := {} } [] [uxRow 1 (str! "a"), uxRow 1 (str! "a")] { amount := some 2 }).map (fun x => (x.2.map List.length)) = some [1, 1] := by
  decide +kernel

/-- C76 fails without the filter. -/
theorem c76_unfiltered_tells : uxRun { uxC with filters := [] } [str! "id"] uxUsers { amount := some 2 } ≠ uxRun { uxC with filters := [] } [str! "id"] uxOthers { amount := some 2 } := by
  decide +kernel

end Subsetter.Props
