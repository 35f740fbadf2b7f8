import Verif.Props.MergeCompact
import Verif.Proofs.MergeCreate

/-
Property C93: building up a database by runs that create missing tables and merge samples.
-/
namespace Subsetter.Props
open Subsetter Spec

variable {σ : Type} {W : Route} {j : Job σ} {B : Database}

/-- C93. The tables after such a run: those that were there, and copies of planned tables; every planned table has a
table like it. -/
theorem c93_tables (hW : RouteOK W) (hj : GrowRun W j) (hB : Ready W B.tables) :
    (∀ e ∈ B.tables, e ∈ (j.result B).schema) ∧
    (∀ m td, (m, td) ∈ (j.result B).schema → (m, td) ∈ B.tables ∨ ∃ n ∈ dkeys j.plan.queries, ∃ t, (n, t) ∈ W.srcDb ∧
      DestOf W.remap n (td.schema, td.name) ∧ m = td.schema ++ '.' :: td.name ∧ CopyOf W.remap (dkeys j.plan.queries) t td) ∧
    ∀ n ∈ dkeys j.plan.queries, ∃ t kd td, (n, t) ∈ W.srcDb ∧ DestOf W.remap n kd ∧ (kd.1 ++ '.' :: kd.2, td) ∈ (j.result B).schema ∧
      TwinOf W.remap t td := by
  obtain ⟨h1, h2, h3, h4⟩ := hj.works hW hB
  refine ⟨h3, h4, fun n hn => ?_⟩
  obtain ⟨k, t, g1, g2⟩ := h1.planned_db.2 n hn
  obtain ⟨kd, td, g3⟩ := h1.twins.copied hn g1 g2
  have hs : (j.into B.tables).srcDb = W.srcDb := hj.srcDb
  rw [hs] at g2
  exact ⟨t, kd, td, g2, hj.remap ▸ g3.dest, g3.schema, h2.twin n (hj.tables n hn) t kd td g2 (hj.remap ▸ g3.dest) g3.schema⟩

/-- C93. With `create` rows are merged as into tables that exist (C91), whichever of the tables do exist: the run succeeds,
foreign keys of all tables, also those just created, hold after every commit, no row that was there is changed or removed,
and every sampled row is appended with its key and its references moved.  Into tables just created rows are copied with
their keys: the offset of an empty table is 0. -/
theorem c93_merge (hW : RouteOK W) (hj : GrowRun W j) (hno : ¬ Compacts j.config) (hB : Ready W B.tables)
    (hS : Sound B.tables W.computed B.rows) :
    (j.result B).err = none ∧ (∀ Y ∈ (j.result B).hist, Intact (j.result B).schema Y) ∧
    (∀ k, (∀ n ∈ dkeys j.plan.queries, ¬ DestOf W.remap n k) → (j.result B).final k = B.rows k) ∧
    ∃ Smp off, IsSample j.setting.engine (dbTables W.srcDb) j.setting.src j.plan Smp ∧
      ∀ n ∈ dkeys j.plan.queries, ∀ k t kd, parseTableName n = some k → (n, t) ∈ W.srcDb → DestOf W.remap n kd →
        ∃ new, (j.result B).final kd = B.rows kd ++ new ∧
          (n ∉ j.plan.passthrough → (∀ c ∈ t.primaryKey, IsOffset (B.rows kd) c (off n)) ∧
            List.Forall₂ (MovedRow j.plan off n t) (Smp k) new) ∧
          (n ∈ j.plan.passthrough → t.primaryKey ≠ [] → ∀ r ∈ Smp k, ∃ r' ∈ B.rows kd ++ new, ∀ c ∈ t.primaryKey, r'.get c = r.get c) := by
  have hR := (hj.works hW hB).1
  rw [← hj.srcDb, ← hj.remap]
  exact merge_moved hR rfl hno (show Sound B.tables j.setting.computed B.rows by rw [hj.computed]; exact hS)

/-- C93. The same with compaction of primary keys (C92). -/
theorem c93_compact (hW : RouteOK W) (hj : GrowRun W j) (hpk : j.config.compact.primaryKeys = true) (hB : Ready W B.tables)
    (hS : Sound B.tables W.computed B.rows) :
    (j.result B).err = none ∧ (∀ Y ∈ (j.result B).hist, Intact (j.result B).schema Y) ∧
    (∀ k, (∀ n ∈ dkeys j.plan.queries, ¬ DestOf W.remap n k) → (j.result B).final k = B.rows k) ∧
    ∃ Smp ids off, IsSample j.setting.engine (dbTables W.srcDb) j.setting.src j.plan Smp ∧
      (∀ k, (ids k).length = (Smp k).length ∧ FillsFrom j.config.compact.startKey (ids k)) ∧
      ∀ n ∈ dkeys j.plan.queries, ∀ k t kd, parseTableName n = some k → (n, t) ∈ W.srcDb → DestOf W.remap n kd →
        ∃ new, (j.result B).final kd = B.rows kd ++ new ∧
          (n ∉ j.plan.passthrough → (∀ c ∈ t.primaryKey, IsOffset (B.rows kd) c (off n)) ∧
            List.Forall₂ (RenumberedRow j.plan Smp ids off n t) ((ids k).zip (Smp k)) new) ∧
          (n ∈ j.plan.passthrough → t.primaryKey ≠ [] → ∀ r ∈ Smp k, ∃ r' ∈ B.rows kd ++ new, ∀ c ∈ t.primaryKey, r'.get c = r.get c) := by
  have hR := (hj.works hW hB).1
  rw [← hj.srcDb, ← hj.remap]
  exact merge_renumbered hR rfl hpk (show Sound B.tables j.setting.computed B.rows by rw [hj.computed]; exact hS)

/-- C93. Afterwards the database can receive further samples, and every row remains where it was. -/
theorem c93_ready (hW : RouteOK W) (hj : GrowRun W j) (hB : Ready W B.tables) (hS : Sound B.tables W.computed B.rows) :
    Ready W (j.result B).schema ∧ Sound (j.result B).schema W.computed (j.result B).final ∧
    ∀ k, ∃ new, (j.result B).final k = B.rows k ++ new := by
  obtain ⟨hR, h2, -⟩ := hj.works hW hB
  obtain ⟨h3, h4⟩ := merge_sound (s := j.start) hR rfl (show Sound B.tables j.setting.computed B.rows by rw [hj.computed]; exact hS)
  refine ⟨h2, ?_, h4⟩
  rw [← hj.computed]
  exact h3

/-- C93. A database can be built up by any number of runs with `create`, each of which plans its own tables: every run
succeeds, foreign keys hold after every commit, tables and rows remain. -/
theorem c93_repeated (hW : RouteOK W) : ∀ {js : List (Job σ)} {B : Database}, (∀ j ∈ js, GrowRun W j) → Ready W B.tables →
    Sound B.tables W.computed B.rows →
    (∀ pre j post, js = pre ++ j :: post → (j.result (grown pre B)).err = none ∧
      ∀ Y ∈ (j.result (grown pre B)).hist, Intact (j.result (grown pre B)).schema Y) ∧
    Ready W (grown js B).tables ∧ Sound (grown js B).tables W.computed (grown js B).rows ∧
    (∀ e ∈ B.tables, e ∈ (grown js B).tables) ∧ ∀ k, ∃ new, (grown js B).rows k = B.rows k ++ new := by
  intro js
  induction js with
  | nil => exact fun _ hB hS => ⟨fun pre j post h => absurd h (by simp), hB, hS, fun _ h => h, fun k => ⟨[], by simp [grown]⟩⟩
  | cons j js ih =>
    intro B hj hB hS
    have hj1 := hj j (by simp)
    have hR := (hj1.works hW hB).1
    obtain ⟨h1, h2, -⟩ := merge_works (s := j.start) hR rfl (show Sound B.tables j.setting.computed B.rows by rw [hj1.computed]; exact hS)
    obtain ⟨h3, h4, h5⟩ := c93_ready hW hj1 hB hS
    obtain ⟨h6, h7, h8, h9, h10⟩ := ih (B := ⟨(j.result B).schema, (j.result B).final⟩) (fun j' h => hj j' (by simp [h])) h3 h4
    refine ⟨fun pre j' post h => ?_, h7, h8, fun e he => h9 e ((c93_tables hW hj1 hB).1 e he), fun k => ?_⟩
    · cases pre with
      | nil =>
        rw [List.nil_append] at h
        obtain ⟨rfl, -⟩ := List.cons.inj h
        exact ⟨h1, h2⟩
      | cons a pre =>
        rw [List.cons_append] at h
        obtain ⟨rfl, h'⟩ := List.cons.inj h
        exact h6 pre j' post h'
    · obtain ⟨new, e1⟩ := h5 k
      obtain ⟨new', e2⟩ := h10 k
      dsimp only at e2
      exact ⟨new ++ new', by rw [grown, e2, e1, List.append_assoc]⟩

/-- A database without tables. -/
def noTables : Database := ⟨[], fun _ => []⟩

/-- C93. Such a database can receive samples. -/
theorem c93_nothing_ready (W : Route) : Ready W noTables.tables ∧ Sound noTables.tables W.computed noTables.rows := by
  have hno : ∀ a b, ¬ DbRef [] a b := by rintro a b ⟨_, _, _, h, -⟩; cases h
  refine ⟨⟨⟨.nil, fun _ _ h => (nomatch h), fun _ _ h => (nomatch h), fun _ _ h => (nomatch h), fun _ _ h => (nomatch h)⟩,
    fun a b h => absurd h (hno a b), fun k hk => ?_, fun _ h => (nomatch h), fun _ _ _ _ _ _ _ h => (nomatch h),
    fun a fk b h => ?_, fun _ _ _ _ _ _ _ _ h => (nomatch h)⟩, fun a fk b _ r hr => (nomatch hr), fun _ _ => rfl, fun _ _ h => (nomatch h)⟩
  · obtain ⟨b, h, -⟩ := Relation.TransGen.head'_iff.1 hk
    exact hno _ _ h
  · obtain ⟨_, _, h, -⟩ := h
    cases h

/-- C93. It can be built up from nothing. -/
theorem c93_from_nothing (hW : RouteOK W) {js : List (Job σ)} (hj : ∀ j ∈ js, GrowRun W j) :
    (∀ pre j post, js = pre ++ j :: post → (j.result (grown pre noTables)).err = none ∧
      ∀ Y ∈ (j.result (grown pre noTables)).hist, Intact (j.result (grown pre noTables)).schema Y) ∧
    Ready W (grown js noTables).tables ∧ Sound (grown js noTables).tables W.computed (grown js noTables).rows := by
  obtain ⟨hB, hS⟩ := c93_nothing_ready W
  obtain ⟨h1, h2, h3, -⟩ := c93_repeated hW hj hB hS
  exact ⟨h1, h2, h3⟩

/-! ### Example -/

def mcRoute : Route := { srcDb := miSrcDb, remap := dxRemap, fnmatch := dxEq, computed := fun _ => [], dialect := .sqlite, tables := [str! "s.g", str! "s.o", str! "s.u"], passed := [str! "s.g"] }

/-- The first run only copies users and their groups. -/
def mcUsers : PlannerConfig := { targets := [(str! "s.u", { in_ := [(str! "id", [.int 1])] })], select := [str! "s.u"], passthrough := [str! "s.g"] }
def mcC : RunConfig := { miC with create := true }

theorem mc_dest : ∀ n ∈ mcRoute.tables, DestOf dxRemap n (str! "m", n.drop 2) := by
  intro n hm
  simp only [mcRoute, List.mem_cons, List.not_mem_nil, or_false] at hm
  rcases hm with rfl | rfl | rfl
  · exact ⟨str! "s", str! "g", by decide, by decide⟩
  · exact ⟨str! "s", str! "o", by decide, by decide⟩
  · exact ⟨str! "s", str! "u", by decide, by decide⟩

theorem mc_route : RouteOK mcRoute := by
  obtain ⟨p, -, hR⟩ := mi_run
  refine ⟨hR.ok.src, hR.ok.srcColumns, fun n hn => ⟨_, mc_dest n hn, rfl, by simp [mcRoute, dxEq]⟩, ?_, fun n _ => by simp [mcRoute, dxEq], ?_, ?_, by decide, .inl (by decide)⟩
  · intro n h1 n' h2 k h3 h4
    have e := (destOf_unique h3 (mc_dest n h1)).symm.trans (destOf_unique h4 (mc_dest n' h2))
    simp only [mcRoute, List.mem_cons, List.not_mem_nil, or_false] at h1 h2
    rcases h1 with rfl | rfl | rfl <;> rcases h2 with rfl | rfl | rfl <;> first | rfl | exact absurd e (by decide)
  · intro k hk
    let rank : Key → Nat := fun k => if k.2 = str! "o" then 2 else if k.2 = str! "u" then 1 else 0
    have hstep : ∀ {a b}, (DbRef miSrcDb a b ∧ a.1 ++ '.' :: a.2 ∈ mcRoute.tables ∧ b.1 ++ '.' :: b.2 ∈ mcRoute.tables) → rank b < rank a := by
      rintro a b ⟨⟨n, t, fk, h1, rfl, h2, rfl⟩, -⟩
      have : ∀ e ∈ miSrcDb, ∀ fk ∈ e.2.foreignKeys, rank (fk.dstSchema, fk.dstTable) < rank (e.2.schema, e.2.name) := by decide
      exact this (n, t) h1 fk h2
    have hlow : ∀ {a b}, Relation.TransGen (fun a b => DbRef miSrcDb a b ∧ a.1 ++ '.' :: a.2 ∈ mcRoute.tables ∧ b.1 ++ '.' :: b.2 ∈ mcRoute.tables) a b → rank b < rank a := by
      intro a b hab
      induction hab with
      | single h => exact hstep h
      | tail _ h ih => exact lt_trans (hstep h) ih
    exact absurd (hlow hk) (lt_irrefl _)
  · intro n _ t ht fk hf _ tb htb
    have h1 : ∀ e ∈ miSrcDb, ∀ fk ∈ e.2.foreignKeys, fk.dstColumns = [str! "id"] := by decide
    have h2 : ∀ e ∈ miSrcDb, e.2.primaryKey = [str! "id"] := by decide
    right
    rw [h1 (n, t) ht fk hf, h2 _ htb]
    exact fun _ h => h

/-- The conditions hold of plans for the tables of the example. -/
theorem mc_run {cfg : PlannerConfig} {p : Plan} (h : plan dxEq miSrcDb cfg = .ok p) (hn : ∀ n ∈ dkeys p.queries, n ∈ mcRoute.tables)
    (hp : p.passthrough = [str! "s.g"]) (hx : cfg.extraFks = []) (ht : [] ∉ dkeys cfg.targets) (hi : cfg.ignoreFks = [])
    (hd : cfg.includeDependencies = true) (hc : ∀ e ∈ cfg.targets, e.2.all = true → e.2.amount = none) :
    GrowRun mcRoute ⟨mcC, miSetting, p, cfg, 0⟩ := by
  obtain ⟨q, hq, hR⟩ := mi_run
  have hqn : dkeys q.queries = mcRoute.tables := by have := miNames; rw [hq] at this; exact this
  have hqp : q.passthrough = [str! "s.g"] := by have := miPass; rw [hq] at this; exact this
  have hK := hR.mergeKeys
  have hs : 0 ≤ mcC.compact.startKey := by decide
  have hm : mcC.mult.multiplier ≤ 1 := by decide
  have hno : ¬ Compacts mcC := by
    rintro (h | h | ⟨_, _, _, h, -⟩) <;> cases h
  refine ⟨rfl, rfl, rfl, rfl, rfl, hn, fun n h => by rw [hp] at h; exact h,
    ⟨fun _ _ h => (nomatch h), fun _ _ h => (nomatch h), hs, hm, rfl, rfl, rfl, rfl⟩, .nil, rfl,
    fun h => absurd h hno, fun h => absurd h hno, fun x h' => ?_, ht, h, hi, .inl hd,
    fun n y h => hc (n, y) (dget_some_mem h), hR.keys, hR.source, hR.columns,
    ⟨⟨fun n h => hK.simple.one n (hqn ▸ hn n h), fun n h => hK.simple.roots n (hqn ▸ hn n h)⟩,
      fun n h => hK.columns n (hqn ▸ hn n h), fun n h h' => hK.key n (hqn ▸ hn n h) (by rw [hqp, ← hp]; exact h'),
      fun n h t h1 fk h2 h3 => hK.single n (hqn ▸ hn n h) t h1 fk h2 (by rw [hqp, ← hp]; exact h3)⟩, fun h => (nomatch h)⟩
  dsimp only at h'
  rw [hx] at h'
  cases h'

theorem mcNames : planNames (plan dxEq miSrcDb mcUsers) = [str! "s.g", str! "s.u"] := by decide +kernel
theorem mcPass : wxPass (plan dxEq miSrcDb mcUsers) = [str! "s.g"] := by decide +kernel

/-- The run that copies users and then any number of runs that merge orders. -/
theorem mc_runs (i : Nat) : ∃ p q, plan dxEq miSrcDb mcUsers = .ok p ∧ plan dxEq miSrcDb miCfg = .ok q ∧
    ∀ j ∈ (⟨mcC, miSetting, p, mcUsers, 0⟩ : Job Int) :: List.replicate i ⟨mcC, miSetting, q, miCfg, 0⟩, GrowRun mcRoute j := by
  have h1 := mcNames
  have h2 := mcPass
  cases hp : plan dxEq miSrcDb mcUsers with
  | error e => rw [hp] at h1; cases h1
  | ok p =>
    rw [hp] at h1 h2
    obtain ⟨q, hq, -⟩ := mi_run
    have h3 := miNames
    have h4 := miPass
    rw [hq] at h3 h4
    refine ⟨p, q, rfl, hq, fun j hj => ?_⟩
    rcases List.mem_cons.1 hj with rfl | hj
    · refine mc_run hp ?_ h2 rfl (by decide) rfl rfl (by decide)
      rw [show dkeys p.queries = _ from h1]
      decide
    · rw [List.eq_of_mem_replicate hj]
      refine mc_run hq ?_ h4 rfl (by decide) rfl rfl (by decide)
      rw [show dkeys q.queries = _ from h3]
      decide

/-- C93 on the example, for any number of runs. -/
theorem mc_grown (i : Nat) : ∃ p q, plan dxEq miSrcDb mcUsers = .ok p ∧ plan dxEq miSrcDb miCfg = .ok q ∧
    Sound (grown (⟨mcC, miSetting, p, mcUsers, 0⟩ :: List.replicate i ⟨mcC, miSetting, q, miCfg, 0⟩) noTables).tables (fun _ => [])
      (grown (⟨mcC, miSetting, p, mcUsers, 0⟩ :: List.replicate i ⟨mcC, miSetting, q, miCfg, 0⟩) noTables).rows := by
  obtain ⟨p, q, h1, h2, h3⟩ := mc_runs i
  exact ⟨p, q, h1, h2, (c93_from_nothing mc_route h3).2.2⟩

/-- Names and contents of the tables of the example after the first run and `i` further runs. -/
def mcShow (i : Nat) : List (Str × List Row) :=
  match plan dxEq miSrcDb mcUsers, plan dxEq miSrcDb miCfg with
  | .ok p, .ok q =>
    let B := grown (⟨mcC, miSetting, p, mcUsers, 0⟩ :: List.replicate i ⟨mcC, miSetting, q, miCfg, 0⟩) noTables
    B.tables.map fun e => (e.1, B.rows (e.2.schema, e.2.name))
  | _, _ => []

/-- User 1 is copied as it is, and again as user 3 and user 5 with orders 7 and 15, when there are tables for orders. -/
theorem c93_example : mcShow 0 = [(str! "m.g", miSrc (str! "s", str! "g")), (str! "m.u", [miRow (str! "id") 1 (str! "gid") 2])] ∧
    mcShow 2 = [(str! "m.g", miSrc (str! "s", str! "g")),
      (str! "m.u", [miRow (str! "id") 1 (str! "gid") 2, miRow (str! "id") 3 (str! "gid") 2, miRow (str! "id") 5 (str! "gid") 2]),
      (str! "m.o", [miRow (str! "id") 7 (str! "uid") 3, miRow (str! "id") 15 (str! "uid") 5])] := by
  constructor <;> decide +kernel

end Subsetter.Props
