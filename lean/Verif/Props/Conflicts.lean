import Verif.Proofs.ConflictRows

/-
Property C87: conflict strategies on tables with unique constraints beside the primary key.
-/
namespace Subsetter.Props
open Subsetter Spec

variable {σ : Type} {dialect : Dialect} {strategy : Strategy} {d : DestTable} {uniques : List (List Str)} {cols : List Str}
  {batch : List (List Val)} {T T' : List Row}

/-- C87. Whatever the strategy and the database, the primary key and the unique constraints hold after each batch if they did
before. -/
theorem c87_respected (hT : Respects d uniques T) (h : flushUnique dialect strategy d uniques cols batch T = .ok T') :
    Respects d uniques T' := by
  obtain ⟨st, nonPk, h1, -, -, h2⟩ := flushUnique_cases h
  refine insertUniques_respects (fun hm => ?_) hT h2
  subst hm
  exact conflictInit_nonPk h1

/-- C87. Rows that collide with none of the batch stay as they are. -/
theorem c87_untouched (h : flushUnique dialect strategy d uniques cols batch T = .ok T') {r : Row} (hr : r ∈ T)
    (hc : ∀ new ∈ rowsFor d cols batch, ¬ Collides d uniques new r) : r ∈ T' := by
  obtain ⟨st, nonPk, -, -, -, h2⟩ := flushUnique_cases h
  refine insertUniques_untouched hr (fun q hq => hc _ ?_) h2
  rw [rowsFor_eq]
  exact List.mem_map_of_mem hq

/-- C87, `skip`: it never fails on a conflict, all rows present stay, and a row of the batch is left out only if it collides
with one that is there. -/
theorem c87_skip (hd : dialect ≠ .generic) (hpk : d.pk ≠ []) (hsub : ∀ c ∈ d.pk, c ∈ cols) :
    ∃ A, flushUnique dialect .skip d uniques cols batch T = .ok (T ++ A) ∧ A.Sublist (rowsFor d cols batch) ∧
      ∀ r ∈ rowsFor d cols batch, r ∈ A ∨ ∃ q ∈ T ++ A, Collides d uniques r q := by
  obtain ⟨A, h1, h2, h3⟩ := insertUniques_skip (dialect := dialect) (uniques := uniques) (d := d)
    (upd := updateColumns dialect d (cols.filter fun c => decide (c ∉ d.pk))) (batch.map fun row => cols.zip row) T
  refine ⟨A, ?_, by rw [rowsFor_eq]; exact h2, by rw [rowsFor_eq]; exact h3⟩
  unfold flushUnique
  rw [conflictInit_ok hpk hsub]
  simpa [hd] using h1

/-- C87, `error`, and `replace` except on MySQL: if the batch is accepted, the table is what it would be with the primary key
as its only constraint (C34). -/
theorem c87_accepted (hs : strategy = .error ∨ d.pk = [] ∨ strategy = .replace ∧ dialect ≠ .mysql ∧ ∃ c ∈ cols, c ∉ d.pk)
    (h : flushUnique dialect strategy d uniques cols batch T = .ok T') :
    flushBuffer dialect strategy d cols batch T = .ok T' := by
  obtain ⟨st, nonPk, h1, h2, h3, h4⟩ := flushUnique_cases h
  have hst : st = .error ∨ st = .replace ∧ dialect ≠ .mysql := by
    unfold conflictInit at h1
    split at h1
    · cases h1; exact .inl rfl
    · rename_i hp
      rw [List.isEmpty_iff] at hp
      split at h1
      · dsimp only at h1
        rcases hs with rfl | hs | ⟨rfl, hm, c, hc, hcp⟩
        · rw [if_neg (by simp)] at h1; cases h1; exact .inl rfl
        · exact absurd hs hp
        · rw [if_neg] at h1
          · cases h1; exact .inr ⟨rfl, hm⟩
          · rintro ⟨-, g⟩
            rw [List.isEmpty_iff, List.filter_eq_nil_iff] at g
            simpa [hcp] using g c hc
      · cases h1
  unfold flushBuffer
  rw [h1]
  dsimp only
  rw [if_neg h2, if_neg h3]
  exact insertUniques_plain hst h4

/-- C87. A batch whose rows collide neither with what is there nor with each other is added whole, whatever the strategy. -/
theorem c87_fresh (hd : dialect ≠ .generic) (hsub : ∀ c ∈ d.pk, c ∈ cols) (hg : ∀ c ∈ d.columns, c ∉ d.computed)
    (hcols : ∀ c ∈ cols, c ∈ d.columns)
    (h : (T ++ rowsFor d cols batch).Pairwise fun r new => ¬ Collides d uniques new r) :
    flushUnique dialect strategy d uniques cols batch T = .ok (T ++ rowsFor d cols batch) := by
  have main : ∀ (st : Strategy) (upd : List Str) (rows T : List Row),
      (T ++ rows.map (fullRow d)).Pairwise (fun r new => ¬ Collides d uniques new r) →
      insertUniques dialect st d uniques upd rows T = .ok (T ++ rows.map (fullRow d)) := by
    intro st upd rows
    induction rows with
    | nil => intro T _; rw [List.map_nil, List.append_nil]; rfl
    | cons r rs ih =>
      intro T hp
      rw [List.map_cons] at hp ⊢
      unfold insertUniques
      rw [insertUnique_fresh fun q hq => (List.pairwise_append.1 hp).2.2 q hq _ List.mem_cons_self]
      dsimp only
      rw [ih]
      · simp
      · simpa using hp
  rw [rowsFor_eq] at h ⊢
  unfold flushUnique
  have hcomp : ∀ nonPk : List Str, (∀ c ∈ nonPk, c ∈ cols) →
      ¬ ((updateColumns dialect d nonPk).any fun c => decide (c ∈ d.computed)) = true := by
    intro nonPk hn g
    obtain ⟨c, g1, g2⟩ := List.any_eq_true.1 g
    rw [decide_eq_true_eq] at g2
    refine hg c ?_ g2
    unfold updateColumns at g1
    split at g1
    · exact g1
    · exact hcols c (hn c g1)
  by_cases hpk : d.pk = []
  · have : conflictInit strategy d.pk cols = .ok (.error, cols) := by unfold conflictInit; rw [hpk]; rfl
    rw [this]
    dsimp only
    rw [if_neg (by simp), if_neg (by simp)]
    exact main _ _ _ _ h
  · rw [conflictInit_ok hpk hsub]
    dsimp only
    rw [if_neg fun g => hd g.1, if_neg fun g => hcomp _ (fun c hc => (List.mem_filter.1 hc).1) g.2]
    exact main _ _ _ _ h

/-! ### Runs -/

variable {C : RunConfig} {D : Setting σ} {p : Plan} {S : DbState} {s : σ}

/-- What is enforced includes the unique constraints of each table. -/
theorem enforced_uniques {schema : Dict Str TableMeta} {X : DbState} (h : checkDb schema X = true) (k : Key) :
    ∀ u ∈ uniquesOf schema k, checkUnique u (X k) = true := by
  intro u hu
  unfold uniquesOf at hu
  obtain ⟨⟨m, t⟩, h1, h2⟩ := List.mem_flatMap.1 hu
  dsimp only at h2
  split at h2
  · rename_i e
    subst e
    exact checkUnique_iff.2 ((checkDb_iff.1 h).unique m t h1 u h2)
  · cases h2

/-- C87. If what is known to keep references (C74) and unique values (C82) intact is met, unique constraints make no
difference to a run on any database, unless a primary key is taken. -/
theorem c87_same (hok : RunOK C D p) (hself : ∀ n ∈ dkeys D.dstDb, D.fnmatch n n = true)
    {cfg : PlannerConfig} {T : Tables} (hI : Input cfg T) (hplan : planInternal cfg T = .ok p)
    (hall : ∀ n y, dget cfg.targets n = some y → y.all = true → y.amount = none)
    (hpk : PkOK (dbTables D.srcDb) D.src) (hsrc : Intact D.srcDb D.src)
    (hmir : Mirrored C D cfg T p (sample C D p S s).schema) (hstab : RefsStable C D p (sample C D p S s).schema)
    (hfo : IdsFollow C D p (sample C D p S s).schema)
    (h0 : Enforced D.dstDb S) (hnew : ∀ k, ¬ InDb D.dstDb k → S k = [])
    (hold : ∀ n k kd t td, Copied C D p (sample C D p S s).schema n k kd t td → TableHolds (target D kd td) (S kd))
    (hun : ∀ n k kd t td, Copied C D p (sample C D p S s).schema n k kd t td → ∀ u ∈ td.uniques,
      StaysUnique C D p S (sample C D p S s).schema n k kd t td u)
    (herr : (sample C D p S s).err ≠ some (.dest (.output .integrity))) :
    sampleUnique C D p S s = sample C D p S s := by
  have h := c83_enforced (ok := checkDb (sample C D p S s).schema) hok hself hI hplan hall hpk hsrc hmir hstab hfo h0 hnew hold hun
    (fun X hX => checkDb_iff.2 hX)
  rw [← h] at herr
  rw [sampleUnique_eq (fun X hX k => enforced_uniques hX k) herr, h]

/-- C87. So it is if the tables are created. -/
theorem c87_created (hok : RunOK C D p) (hmg : C.merge = false) {cfg : PlannerConfig}
    (hex : ∀ x ∈ cfg.extraFks, x.Valid)
    (htg : [] ∉ dkeys cfg.targets) (hplan : plan D.fnmatch D.srcDb cfg = .ok p) (hign : cfg.ignoreFks = [])
    (hall : ∀ n y, dget cfg.targets n = some y → y.all = true → y.amount = none)
    (hcr : C.create = true) (hpk : PkOK (dbTables D.srcDb) D.src) (huq : UniqueOK (dbTables D.srcDb) D.src)
    (hsrc : Intact D.srcDb D.src) (hcols : FkColumnsOK D)
    (hfil : KeysUnfiltered C D) (hrefs : RefsToKeys C D) (hfo : IdsFollow C D p [])
    (hucols : ∀ n t, (n, t) ∈ D.srcDb → ∀ u ∈ t.uniques, ∀ c ∈ u, c ∈ t.columns)
    (hufil : ∀ n fs, (n, fs) ∈ C.filters → ∀ f ∈ fs, ∀ c ∈ FilterCfg.writes f, ∀ t, (n, t) ∈ D.srcDb →
      ∀ u ∈ t.uniques, c ∉ u)
    (humul : ∀ n k t, n ∈ dkeys p.queries → parseTableName n = some k → (n, t) ∈ D.srcDb → ∀ u ∈ t.uniques,
      1 < timesWritten C p n → ∃ c ∈ u, Multiplied C D p n c ∧ ∀ r ∈ D.src k, r.get c = .null ∨ ∃ v, r.get c = .int v)
    (hfree : DestinationFree C D p S) (h0 : Enforced D.dstDb S) (hnew : ∀ k, ¬ InDb D.dstDb k → S k = [])
    (herr : (sample C D p S s).err ≠ some (.dest (.output .integrity))) :
    sampleUnique C D p S s = sample C D p S s := by
  have h := c83_created (ok := checkDb (sample C D p S s).schema) hok hmg hex htg hplan hign hall hcr hpk huq hsrc hcols hfil hrefs
    hfo hucols hufil humul hfree h0 hnew (fun X hX => checkDb_iff.2 hX)
  rw [← h] at herr
  rw [sampleUnique_eq (fun X hX k => enforced_uniques hX k) herr, h]

/-! ### Examples -/

/-- A table of users: ids, unique mail addresses, and names. -/
def cuTable : DestTable := ⟨[str! "id", str! "mail", str! "name"], [], fun _ => .null, [str! "id"]⟩
def cuRow (i : Int) (m n : Str) : Row := [(str! "id", .int i), (str! "mail", .str m), (str! "name", .str n)]
def cuFlush (dialect : Dialect) (strategy : Strategy) (batch : List (Int × Str × Str)) : Except OutErr (List Row) :=
  flushUnique dialect strategy cuTable [[str! "mail"]] [str! "id", str! "mail", str! "name"]
    (batch.map fun b => [.int b.1, .str b.2.1, .str b.2.2]) [cuRow 1 (str! "a") (str! "A"), cuRow 2 (str! "b") (str! "B")]

theorem cu_respects : Respects cuTable [[str! "mail"]] [cuRow 1 (str! "a") (str! "A"), cuRow 2 (str! "b") (str! "B")] :=
  ⟨fun _ => by unfold KeysUnique; decide, by unfold Distinguishes; decide⟩

/-- Updating by primary key is accepted everywhere, also if mail addresses change. -/
theorem cu_replaced : ∀ dialect ∈ [Dialect.mysql, .postgresql, .sqlite],
    cuFlush dialect .replace [(1, str! "c", str! "C"), (3, str! "a", str! "D")] =
      .ok [cuRow 1 (str! "c") (str! "C"), cuRow 2 (str! "b") (str! "B"), cuRow 3 (str! "a") (str! "D")] := by
  decide

/-- `c87_fresh`, `c87_skip` and `c87_accepted` on examples. -/
theorem cu_skipped : cuFlush .postgresql .skip [(1, str! "c", str! "C"), (3, str! "c", str! "C"), (4, str! "c", str! "D")] =
    .ok [cuRow 1 (str! "a") (str! "A"), cuRow 2 (str! "b") (str! "B"), cuRow 3 (str! "c") (str! "C")] := by
  decide

/-- "Only inserting rows … if no row with the matching primary key exists" is not all there is to `skip`: a row whose primary
key is free is left out, without an error, if its mail address is taken. -/
theorem c87_skip_drops : ∀ dialect ∈ [Dialect.mysql, .postgresql, .sqlite],
    cuFlush dialect .skip [(3, str! "a", str! "C")] = .ok [cuRow 1 (str! "a") (str! "A"), cuRow 2 (str! "b") (str! "B")] := by
  decide

/-- "Replace the row with the new sampled row" depends on the database: with a mail address that is taken by a row with another
primary key, MySQL gives that row the new name and leaves the new primary key out, the others fail. -/
theorem c87_replace_other : cuFlush .mysql .replace [(3, str! "a", str! "C")] =
      .ok [cuRow 1 (str! "a") (str! "C"), cuRow 2 (str! "b") (str! "B")] ∧
    cuFlush .postgresql .replace [(3, str! "a", str! "C")] = .error .integrity ∧
    cuFlush .sqlite .replace [(3, str! "a", str! "C")] = .error .integrity := by
  decide

/-- `c87_created` on an example: users are created with a unique constraint on mail addresses. -/
theorem wu_same : ∃ p, plan dxEq (wuSetting uxUsers []).srcDb (uxCfg { amount := some 2 }) = .ok p ∧
    sampleUnique wuC (wuSetting uxUsers []) p (fun _ => []) 0 = sample wuC (wuSetting uxUsers []) p (fun _ => []) 0 ∧
    ((sample wuC (wuSetting uxUsers []) p (fun _ => []) 0).final (str! "m", str! "u")).length = 2 := by
  have hn := wu_names
  have he : (match plan dxEq (wuSetting uxUsers []).srcDb (uxCfg { amount := some 2 }) with
      | .ok p => some ((sample wuC (wuSetting uxUsers []) p (fun _ => []) 0).err, ((sample wuC (wuSetting uxUsers []) p (fun _ => []) 0).final (str! "m", str! "u")).length)
      | .error _ => none) = some (none, 2) := by decide +kernel
  cases h : plan dxEq (wuSetting uxUsers []).srcDb (uxCfg { amount := some 2 }) with
  | error e => rw [h] at hn; cases hn
  | ok p =>
    rw [h] at hn he
    replace hn : dkeys p.queries = _ := hn
    simp only [Option.some.injEq, Prod.mk.injEq] at he
    obtain ⟨hok, hfo, hpk, huq, hfree, -⟩ := wu_facts hn
    have hnm : ∀ n c, ¬ Multiplied wuC (wuSetting uxUsers []) p n c := fun n c h => absurd h.1 (by decide)
    have htw : ∀ n, timesWritten wuC p n = 1 := fun n => by unfold timesWritten; rw [if_neg (by simp [wuC])]
    refine ⟨p, rfl, c87_created hok rfl (cfg := uxCfg { amount := some 2 }) (fun _ h => nomatch h) (by decide) h rfl ?_ rfl hpk huq
      ?_ ?_ (fun _ _ h => nomatch h) (.inl rfl)
      ⟨hfo.infer, fun g => g.elim hfo.simple (fun g => by cases g), hfo.closed, hfo.named, ?_, fun g => by cases g⟩ ?_
      (fun _ _ h => nomatch h) (fun n k t _ _ _ u _ h => by rw [htw] at h; omega) hfree
      ⟨fun a fk b h => ?_, fun _ _ h => nomatch h⟩ (fun _ _ => rfl) (by rw [he.1]; exact fun g => nomatch g), he.2⟩
    · have : ∀ e ∈ (uxCfg { amount := some 2 }).targets, e.2.all = false := by decide
      intro n y hy ha
      rw [this (n, y) (dget_some_mem hy)] at ha; cases ha
    · rintro a fk b ⟨n, t, h1, rfl, h2, rfl⟩ r hr
      obtain ⟨rfl, rfl⟩ := wu_fk h1 h2
      simp only [wuSetting, List.mem_cons, Prod.mk.injEq, List.not_mem_nil, or_false] at h1
      rcases h1 with ⟨-, rfl⟩ | ⟨g, -⟩
      · have : ∀ r ∈ uxSrc uxUsers (str! "s", str! "o"), ∃ q ∈ uxSrc uxUsers (str! "s", str! "u"),
            r.get (str! "uid") ≠ .null ∧ r.get (str! "uid") = q.get (str! "id") := by decide +kernel
        obtain ⟨q, g1, g2, g3⟩ := this r hr
        exact fun _ => ⟨q, g1, fun e he => by
          simp only [List.zip_cons_cons, List.zip_nil_right, List.mem_singleton] at he
          subst he; exact ⟨g2, g3⟩⟩
      · exact absurd g (by decide)
    · intro n t h1 fk h2
      obtain ⟨rfl, rfl⟩ := wu_fk h1 h2
      have : ∀ e ∈ (wuSetting uxUsers []).srcDb, (e.1 = str! "s.o" → str! "uid" ∈ e.2.columns) ∧ (e.1 = str! "s.u" → str! "id" ∈ e.2.columns) := by decide
      refine ⟨fun c hc => ?_, fun tb htb c hc => ?_⟩
      · rw [List.mem_singleton] at hc; subst hc
        exact (this _ h1).1 rfl
      · rw [List.mem_singleton] at hc; subst hc
        exact (this _ htb).2 rfl
    · intro n _ t _ fk _ _ e _
      exact ⟨⟨fun g => absurd g (hnm _ _), fun g => absurd g (hnm _ _)⟩, fun g => absurd g (hnm _ _)⟩
    · have : ∀ e ∈ (wuSetting uxUsers []).srcDb, ∀ u ∈ e.2.uniques, ∀ c ∈ u, c ∈ e.2.columns := by decide
      exact fun n t h1 => this (n, t) h1
    · obtain ⟨n, t, h1, -⟩ := h; cases h1

/-- Error, users and orders after a run into a destination with unique mail addresses. -/
def wuRun (dialect : Dialect) (C : RunConfig) (before : List Row) : Option (Option RunErr × List Row × List Row) :=
  match plan dxEq (wuSetting uxUsers []).srcDb (uxCfg { amount := some 2 }) with
  | .ok p =>
    let dst : Dict Str TableMeta := [(str! "m.o", { uxO with schema := str! "m", foreignKeys := [] }), (str! "m.u", { wuU with schema := str! "m" })]
    let R := sampleUnique C { wuSetting uxUsers dst with dialect := dialect } p (fun k => if k = (str! "m", str! "u") then before else []) 0
    some (R.err, R.final (str! "m", str! "u"), R.final (str! "m", str! "o"))
  | .error _ => none

/-- A run with `skip` ends without an error, and yet an order refers to a user that was left out as the mail address was taken. -/
theorem wu_lost : ∀ dialect ∈ [Dialect.mysql, .postgresql, .sqlite],
    wuRun dialect { remap := dxRemap, strategy := .skip } [uxRow 9 (str! "a")] =
      some (none, [uxRow 9 (str! "a"), uxRow 2 (str! "b")], [[(str! "id", .int 7), (str! "uid", .int 1)]]) := by
  decide +kernel

/-- With `replace`, MySQL ends like this and the others report an error. -/
theorem wu_replaced : wuRun .mysql { remap := dxRemap, strategy := .replace } [uxRow 9 (str! "a")] =
      some (none, [uxRow 9 (str! "a"), uxRow 2 (str! "b")], [[(str! "id", .int 7), (str! "uid", .int 1)]]) ∧
    (wuRun .postgresql { remap := dxRemap, strategy := .replace } [uxRow 9 (str! "a")]).map Prod.fst = some (some (.dest (.output .integrity))) ∧
    (wuRun .sqlite { remap := dxRemap, strategy := .replace } [uxRow 9 (str! "a")]).map Prod.fst = some (some (.dest (.output .integrity))) := by
  decide +kernel

end Subsetter.Props
