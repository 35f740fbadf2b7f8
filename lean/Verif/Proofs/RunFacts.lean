import Verif.Proofs.RunCopy
import Verif.Props.Multiply
import Verif.Props.Compact
import Verif.Proofs.Merge

/- What holds of every run that copies. -/
namespace Subsetter
open Spec Props

variable {σ : Type} {C : RunConfig} {D : Setting σ} {p : Plan} {S : DbState} {s : σ}

theorem target_eq (D : Setting σ) (k : Key) (t : TableMeta) : destTable D k t = target D k t := by
  unfold destTable target
  by_cases h : k.1 ++ '.' :: k.2 ∈ dkeys D.dstDb
  · obtain ⟨t', ht⟩ := Option.isSome_iff_exists.1 (dget_isSome_iff.2 h)
    rw [if_pos h, show dget D.dstDb k.str = some t' from ht]
  · have : dget D.dstDb (k.1 ++ '.' :: k.2) = none := by
      cases h1 : dget D.dstDb (k.1 ++ '.' :: k.2) with
      | none => rfl
      | some t' => exact absurd (dget_isSome_iff.1 (by rw [h1]; rfl)) h
    rw [if_neg h, show dget D.dstDb k.str = none from this]

theorem timesWritten_eq {T : Tables} {mult : Dict Str (List Str)}
    (h : multipliedColumns T C.mult p.passthrough (dkeys p.queries) = .ok mult) {n : Str} (hn : n ∈ dkeys p.queries) :
    (if (dget mult n).isNone then 1 else C.mult.multiplier.toNat) = timesWritten C p n := by
  unfold timesWritten
  by_cases hm : 1 < C.mult.multiplier
  · have := (c28_exact hm h).2.1 n
    by_cases h1 : (dget mult n).isSome
    · obtain ⟨x, hx⟩ := Option.isSome_iff_exists.1 h1
      rw [if_pos (c := 1 < _ ∧ _) ⟨hm, (this.1 h1).2⟩, hx]
      rfl
    · rw [if_neg (c := 1 < _ ∧ _) fun h2 => h1 (this.2 ⟨hn, h2.2⟩), if_pos (by simpa using h1)]
  · rw [c28_no_multiplier T (by omega)] at h
    cases h
    rw [if_neg (c := 1 < _ ∧ _) fun h2 => hm h2.1]
    rfl

/-- The tables loaded of the destination. -/
theorem destInit_loaded {fnmatch : Str → Str → Bool} {db : Dict Str TableMeta} {remap : Str → Str}
    {planned : List Str} {x : DestMeta} (hdb : DbOK db) (h : destInit fnmatch db remap planned = .ok x) (k : Key) :
    (∃ t, (k, t) ∈ x.tables) ↔ ∃ n ∈ planned, ∃ d : Key, DestOf remap n d ∧
      ∃ s, Selected fnmatch db [d.1 ++ '.' :: d.2] s ∧ Relation.ReflTransGen (fun a b => DbRef db b a) s k := by
  obtain ⟨h1, h2⟩ := destInit_ok h
  obtain ⟨hl, hk⟩ := loads_of_init hdb h2
  obtain ⟨-, hall, hback⟩ := remapped_facts h1
  rw [hk]
  constructor
  · rintro ⟨s, ⟨n, t, e1, e2, pat, e3, e4⟩, e5⟩
    have := dget_isSome_iff.2 e3
    obtain ⟨p, hp⟩ := Option.isSome_iff_exists.1 this
    obtain ⟨e6, d, e7, e8⟩ := hback pat p hp
    exact ⟨p, e6, d, e7, s, ⟨n, t, e1, e2, pat, by rw [← e8]; exact List.mem_singleton.2 rfl, e4⟩, e5⟩
  · rintro ⟨p, e1, d, e2, s, ⟨n, t, e3, e4, pat, e5, e6⟩, e7⟩
    obtain ⟨d', f1, f2⟩ := hall p e1
    rw [destOf_unique f1 e2] at f2
    rw [List.mem_singleton] at e5
    subst e5
    exact ⟨s, ⟨n, t, e3, e4, _, dget_isSome_iff.1 (by rw [show d.1 ++ '.' :: d.2 = d.str from rfl, f2]; rfl), e6⟩, e7⟩

theorem reached_iff (hok : RunOK C D p) {src : Tables} {db : Dict Str TableMeta} {x : DestMeta}
    (h : Prepared D.fnmatch C.remap (dkeys p.queries) src D.dstDb C.create db x) (k : Key) :
    (∃ t, (k, t) ∈ x.tables) ↔ Reached C D p k := by
  unfold Reached
  generalize hcr : C.create = cr at h
  cases h with
  | plain h1 =>
    rw [destInit_loaded hok.dst h1]
    constructor
    · rintro ⟨n, h2, d, h3, h4⟩
      exact ⟨n, h2, d, h3, .inr h4⟩
    · rintro ⟨n, h2, d, h3, ⟨h4, -⟩ | h4⟩
      · cases h4
      · exact ⟨n, h2, d, h3, h4⟩
  | @created x ts ts' h1 hc hperm =>
    have hT := destInit_tables hok.dst h1
    have hF := created_facts hT (destInit_ok h1).1 hc
    have hnd : (ts'.map TableMeta.key).Nodup := (hperm.map _).nodup_iff.2 hF.nodup
    have hkeys : (∃ t, (k, t) ∈ trackTables x.tables ts') ↔ (∃ t ∈ ts, t.key = k) ∨ ∃ t, (k, t) ∈ x.tables := by
      have hex : ∀ T : Tables, (∃ t, (k, t) ∈ T) ↔ ∃ t, dget T k = some t := by
        intro T
        constructor
        · rintro ⟨t, ht⟩
          exact Option.isSome_iff_exists.1 (dget_isSome_iff.2 (List.mem_map.2 ⟨_, ht, rfl⟩))
        · rintro ⟨t, ht⟩
          exact ⟨t, dget_some_mem ht⟩
      rw [hex, hex]
      constructor
      · rintro ⟨t, ht⟩
        rcases (trackTables_get hnd k t).1 ht with ⟨g1, g2⟩ | ⟨-, g2⟩
        · exact .inl ⟨t, hperm.mem_iff.1 g1, g2⟩
        · exact .inr ⟨t, g2⟩
      · intro hh
        by_cases hk : ∃ t ∈ ts', t.key = k
        · obtain ⟨t, g1, g2⟩ := hk
          exact ⟨t, (trackTables_get hnd k t).2 (.inl ⟨g1, g2⟩)⟩
        · rcases hh with ⟨t, g1, g2⟩ | ⟨t, g1⟩
          · exact absurd ⟨t, hperm.mem_iff.2 g1, g2⟩ hk
          · exact ⟨t, (trackTables_get hnd k t).2 (.inr ⟨fun t' ht e => hk ⟨t', ht, e⟩, g1⟩)⟩
    dsimp only
    rw [hkeys, destInit_loaded hok.dst h1]
    constructor
    · rintro (⟨t, g1, rfl⟩ | ⟨n, h2, d, h3, h4⟩)
      · obtain ⟨n, g2, -, -, g3, -⟩ := hF.each t g1
        exact ⟨n, g2, _, g3, .inl ⟨rfl, rfl⟩⟩
      · exact ⟨n, h2, d, h3, .inr h4⟩
    · rintro ⟨n, h2, d, h3, ⟨-, rfl⟩ | h4⟩
      · obtain ⟨k', g1, g2⟩ := hF.all n h2
        rw [destOf_unique g1 h3] at g2
        rcases g2 with g2 | g2
        · right
          obtain ⟨t, ht⟩ := Option.isSome_iff_exists.1 g2
          exact (destInit_loaded hok.dst h1 _).1 ⟨t, dget_some_mem ht⟩
        · exact .inl g2
      · exact .inr ⟨n, h2, d, h3, h4⟩

/-! ### Tables copied -/

section
variable {r : Started} {db : Dict Str TableMeta} {x : DestMeta} {order : List Str} {states : List DbState}
  {offs : Dict Key (Dict Str Int)} {compact : Dict Key (List Str)} {mat : List (Key × Nat)} {temps : Temps}

theorem prepared_run (hok : RunOK C D p) (h1 : startRun C D p = .ok r) (h2 : createStep C D r = .ok (db, x)) :
    PreparedFacts C.remap (dkeys p.queries) db x :=
  prepared_facts hok.dst hok.closed (startRun_facts hok.src h1).raw hok.self (prepared_of_step h1 h2)

/-- The contents after truncation. -/
theorem begins_run (hok : RunOK C D p) (h1 : startRun C D p = .ok r) (h2 : createStep C D r = .ok (db, x))
    (h3 : truncateStep C x S = .ok states) :
    ∃ B rest, states.reverse ++ [S] = B :: rest ∧ Begins C D p S B := by
  have hre := reached_iff hok (prepared_of_step h1 h2)
  unfold truncateStep at h3
  cases ht : C.truncate with
  | false =>
    rw [ht] at h3
    cases h3
    exact ⟨S, [], rfl, fun h => (by rw [ht] at h; cases h), fun _ _ => rfl⟩
  | true =>
    rw [ht, if_pos rfl] at h3
    obtain ⟨-, -, g1, g2⟩ := (prepared_run hok h1 h2).truncate h3
    have hB : ∃ rest, states.reverse ++ [S] = states.getLast?.getD S :: rest := by
      rcases List.eq_nil_or_concat states with rfl | ⟨l, b, rfl⟩
      · exact ⟨[], rfl⟩
      · exact ⟨l.reverse ++ [S], by simp⟩
    obtain ⟨rest, hB⟩ := hB
    exact ⟨_, rest, hB, fun _ k hk => g1 k ((hre k).2 hk), fun k hk => g2 k fun h => hk ht ((hre k).1 h)⟩

variable (hst : Steps C D p S r db x order states offs compact mat temps)
include hst

theorem Steps.plan (hok : RunOK C D p) : PlanOK r.tables p ∧ Acyclic p := planOK_of_order hok.plan hst.ordered

theorem Steps.sample (hok : RunOK C D p) : ∃ Smp, IsSample D.engine (dbTables D.srcDb) D.src p Smp ∧
    (∀ k q, Planned p k q → sampleRows D.engine r.tables D.src D.reopen temps k q = .ok (Smp k)) ∧
    ∀ k rows, dget temps (k, 0) = some rows → rows = Smp k := by
  obtain ⟨hp, ha⟩ := hst.plan hok
  obtain ⟨order', temps', h1, h2, -, -, -, h6, h7⟩ := Subsetter.materialized hp ha D.engine compact D.src D.reopen
  rw [hst.ordered] at h1; cases h1
  rw [hst.materialized] at h2; cases h2
  refine ⟨_, ((startRun_facts hok.src hst.start).isSample hok.src hp).1 h6, h7, fun k rows hk => ?_⟩
  unfold sampleOf
  rw [hk]

theorem Steps.mem_order (hok : RunOK C D p) (n : Str) : n ∈ order ↔ ∃ k kd t td, Copied C D p db n k kd t td := by
  have hf := prepared_run hok hst.start hst.create
  have hre := reached_iff hok (prepared_of_step hst.start hst.create)
  have hp := (hst.plan hok).1
  rw [(hf.order hst.order).2.1]
  constructor
  · rintro ⟨h1, kd, h2, td, h3⟩
    have h2' := h2
    obtain ⟨sc, tb, h4, -⟩ := h2'
    obtain ⟨⟨n', q⟩, g1, rfl⟩ := List.mem_map.1 h1
    obtain ⟨k', g2, g3⟩ := hp.known n' q g1
    dsimp only at h4
    rw [h4] at g2; cases g2
    obtain ⟨t', ht'⟩ := Option.isSome_iff_exists.1 g3
    obtain ⟨t0, g4, -⟩ := (startRun_facts hok.src hst.start).get hok.src ht'
    refine ⟨(sc, tb), kd, t0, td, h1, h4, ?_, h2, (hre kd).1 ⟨td, h3⟩, ?_⟩
    · rw [← parse_str h4]; exact g4
    · obtain ⟨n2, g5⟩ := hf.loads.sub kd td h3
      have e1 := hf.name_eq n2 td g5
      have e2 := hf.tables.key_eq kd td h3
      rw [← e2]
      dsimp only
      rw [← e1]
      exact g5
  · rintro ⟨k, kd, t, td, h⟩
    exact ⟨h.planned, kd, h.dest, (hre kd).2 h.reached⟩

theorem Steps.dest_inj {n n' : Str} {kd : Key} (hn : n ∈ dkeys p.queries) (hn' : n' ∈ dkeys p.queries)
    (h : DestOf C.remap n kd) (h' : DestOf C.remap n' kd) (hok : RunOK C D p) : n = n' :=
  remapped_inj (prepared_run hok hst.start hst.create).remap hn hn' h h'

omit hst in
/-- What `readTable` returns. -/
theorem readTable_some {n : Str} {j : TableJob} (h : readTable C D r x offs compact p temps n = .ok (some j)) :
    ∃ k q t td rows, parseTableName n = some k ∧ dget p.queries n = some q ∧
      copyRows D.engine r.tables D.le C.compact.startKey compact D.src D.reopen temps k q = .ok rows ∧
      dget r.tables k = some t ∧
      constructFilter D.world t.columns ((dget C.filters n).getD []) = .ok j.input.chain ∧
      DestOf C.remap n j.key ∧ dget x.tables j.key = some td ∧
      j.strategy = (if C.merge && decide (Key.str k ∈ p.passthrough) then .skip else C.strategy) ∧
      j.input.dest = target D j.key td ∧ j.input.offsets = (dget offs j.key).getD [] ∧
      j.input.multiplier = (if (dget r.mult n).isNone then 1 else C.mult.multiplier.toNat) ∧ j.input.mult = (dget r.mult n).getD [] ∧
      j.rows = rows.map (fun r => t.columns.map r.get) := by
  unfold readTable at h
  cases h1 : parseTableName n with
  | none => rw [h1] at h; cases h
  | some k =>
    rw [h1] at h; dsimp only at h
    cases h2 : dget p.queries n with
    | none => rw [h2] at h; cases h
    | some q =>
      rw [h2] at h; dsimp only at h
      cases h3 : copyRows D.engine r.tables D.le C.compact.startKey compact D.src D.reopen temps k q with
      | error e => rw [h3] at h; cases h
      | ok rows =>
        rw [h3] at h; dsimp only at h
        cases h4 : dget r.tables k with
        | none => rw [h4] at h; cases h
        | some t =>
          rw [h4] at h; dsimp only at h
          unfold tableJob at h
          cases h5 : constructFilter D.world t.columns ((dget C.filters n).getD []) with
          | error e => rw [h5] at h; cases h
          | ok ch =>
            rw [h5] at h; dsimp only at h
            cases h6 : remapTable C.remap k with
            | none => rw [h6] at h; cases h
            | some kd =>
              rw [h6] at h; dsimp only at h
              cases h7 : dget x.tables kd with
              | none => rw [h7] at h; cases h
              | some td =>
                rw [h7] at h; cases h
                exact ⟨k, q, t, td, rows, rfl, rfl, h3, h4, h5, ⟨k.1, k.2, h1, h6⟩, h7, rfl, target_eq D kd td,
                  rfl, rfl, rfl, rfl⟩

theorem Steps.read_some (hok : RunOK C D p) {n : Str} (hn : n ∈ order) :
    readTable C D r x offs compact p temps n ≠ .ok none := by
  intro h
  obtain ⟨k, kd, t, td, hc⟩ := (hst.mem_order hok n).1 hn
  obtain ⟨q, hq⟩ := Option.isSome_iff_exists.1 (dget_isSome_iff.2 hc.planned)
  unfold readTable at h
  rw [hc.name] at h; dsimp only at h
  rw [hq] at h; dsimp only at h
  split at h
  · cases h
  · split at h
    · cases h
    · split at h <;> cases h

omit hst in
/-- A name determines the table. -/
theorem schema_get (hf : PreparedFacts C.remap (dkeys p.queries) db x) {kd : Key} {td td' : TableMeta}
    (h : (kd.1 ++ '.' :: kd.2, td) ∈ db) (h' : dget x.tables kd = some td') : td' = td := by
  obtain ⟨n2, g5⟩ := hf.loads.sub kd td' (dget_some_mem h')
  have e1 := hf.name_eq n2 td' g5
  have e2 := hf.tables.key_eq kd td' (dget_some_mem h')
  have e3 : n2 = kd.1 ++ '.' :: kd.2 := by rw [e1, ← e2]
  subst e3
  have g6 := dget_of_mem hf.names g5
  rw [dget_of_mem hf.names h] at g6
  cases g6
  rfl

omit hst in
theorem remoteCols_nil (e2 : ∀ d, (dget compact d).getD [] = []) (fks : List ForeignKey) :
    remoteCols compact fks = [] := by
  have hin : ∀ (fk : ForeignKey) (es : List (Str × Str)) (d : Dict Str (Key × Str)),
      es.foldl (fun d e => if e.2 ∈ (dget compact fk.dst).getD [] then dset d e.1 (fk.dst, e.2) else d) d = d := by
    intro fk es
    induction es with
    | nil => intro d; rfl
    | cons e es ih =>
      intro d
      rw [List.foldl_cons, if_neg (by rw [e2]; simp)]
      exact ih d
  have : ∀ (fks : List ForeignKey) (d : Dict Str (Key × Str)), fks.foldl (fun d fk =>
      (fk.columns.zip fk.dstColumns).foldl (fun d e =>
        if e.2 ∈ (dget compact fk.dst).getD [] then dset d e.1 (fk.dst, e.2) else d) d) d = d := by
    intro fks
    induction fks with
    | nil => intro d; rfl
    | cons fk fks ih => intro d; rw [List.foldl_cons, hin]; exact ih d
  exact this fks []

/-- The rows of a job. -/
theorem Steps.job (hok : RunOK C D p) {Smp : Key → List Row}
    (hS : ∀ k q, Planned p k q → sampleRows D.engine r.tables D.src D.reopen temps k q = .ok (Smp k))
    (htemps : ∀ k rows, dget temps (k, 0) = some rows → rows = Smp k)
    {n : Str} {k kd : Key} {t td : TableMeta} (hc : Copied C D p db n k kd t td) {j : TableJob}
    (h : readTable C D r x offs compact p temps n = .ok (some j)) :
    j.key = kd ∧ j.input.dest = target D kd td ∧
    constructFilter D.world t.columns ((dget C.filters n).getD []) = .ok j.input.chain ∧
    j.strategy = strategyFor C p n ∧
    j.input.offsets = (dget offs kd).getD [] ∧ j.input.multiplier = timesWritten C p n ∧
    j.input.mult = (dget r.mult n).getD [] ∧ t.columns.Nodup ∧
    ∃ rows, j.rows = rows.map (fun r => t.columns.map r.get) ∧
      ((dget compact k).getD [] = [] → (∀ d, (dget compact d).getD [] = []) → rows = Smp k) ∧
      ((∀ c d dc, PointsTo r.tables compact k c d dc → ¬ IsCompacted compact k c → UniqueIn (Smp d) dc) →
        List.Forall₂ (fun x out => CompactedRow r.tables compact Smp (fun d => compactIds D.le C.compact.startKey
          (((dget r.tables d).map TableMeta.primaryKey).getD []) (Smp d)) k t.columns x.2 x.1 out)
          ((compactIds D.le C.compact.startKey (((dget r.tables k).map TableMeta.primaryKey).getD []) (Smp k)).zip (Smp k))
          rows) := by
  obtain ⟨k', q, t', td', rows, g1, g2, g3, g4, g5, g6, g7, g8, g9, g10, g11, g12, g13⟩ := readTable_some h
  rw [hc.name] at g1; cases g1
  have hkd : j.key = kd := destOf_unique g6 hc.dest
  subst hkd
  have htd := schema_get (prepared_run hok hst.start hst.create) hc.schema g7
  subst htd
  obtain ⟨t0, f1, f2, -, -, f5⟩ := (startRun_facts hok.src hst.start).get hok.src g4
  have ht0 : t0 = t := by
    have e := dget_of_mem hok.src.names_nodup hc.source
    rw [← parse_str hc.name, show dget D.srcDb (Key.str k) = some t0 from dget_of_mem hok.src.names_nodup f1] at e
    cases e; rfl
  subst ht0
  have hcols : t'.columns = t0.columns := by rw [f5]
  rw [hcols] at g5 g13
  have hnd := hok.srcColumns n t0 hc.source
  have hrun := hS k q ⟨n, dget_some_mem g2, hc.name⟩
  obtain ⟨-, -, -, -, -, hmult, -⟩ := startRun_ok hst.start
  refine ⟨rfl, g9, g5, ?_, g10, g11.trans (timesWritten_eq hmult hc.planned), g12, hnd, rows, g13, ?_, ?_⟩
  · rw [g8, show Key.str k = n from parse_str hc.name]
    unfold strategyFor
    simp
  · intro e1 e2
    unfold copyRows at g3
    rw [hrun] at g3; dsimp only at g3
    rw [g4] at g3; dsimp only at g3
    have e3 := remoteCols_nil e2 t'.foreignKeys
    rw [if_pos ⟨e3, e1⟩] at g3
    cases g3; rfl
  · intro hu
    have := copyRows_value (S := Smp) g4 (by rw [hcols]; exact hnd) hrun (fun x hx => by
      obtain ⟨rows', hr⟩ := Option.isSome_iff_exists.1 (copyRows_temps g4 g3 x hx)
      rw [hr, htemps _ _ hr]) hu g3
    rw [g4]
    rw [hcols] at this
    exact this

end
end Subsetter
