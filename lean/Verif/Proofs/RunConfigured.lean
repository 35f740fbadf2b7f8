import Verif.Proofs.RunRefs
import Verif.Props.Compact
import Verif.Proofs.RunStarts
import Verif.Spec.RunWorks

/- The steps before copying succeed whatever is configured. -/
namespace Subsetter
open Spec Props

/-! ### Multiplied columns -/

section
variable {T : Tables} {cfg : MultConfig} {ignore names : List Str}

theorem multInit_succeeds : ∀ {todo : List Str} {res : Dict Str (List Str)}, (∀ n ∈ todo, ∃ t, TableOf T n t) →
    ∃ res', multInit T cfg ignore todo res = .ok res'
  | [], res, _ => ⟨res, rfl⟩
  | n :: todo, res, h => by
    have h' : ∀ m ∈ todo, ∃ t, TableOf T m t := fun m hm => h m (by simp [hm])
    obtain ⟨t, ht⟩ := h n (by simp)
    unfold multInit
    split
    · exact multInit_succeeds h'
    · rw [metaOf_ok.2 ht]
      exact multInit_succeeds h'

theorem multPass_fails : ∀ {todo : List Str} {res : Dict Str (List Str)} {ch : Bool} {e : MultErr},
    (∀ n ∈ todo, ∃ t, TableOf T n t) → multPass T ignore todo res ch = .error e → e = .passthroughFk
  | [], res, ch, e, _, h => by cases h
  | n :: todo, res, ch, e, hk, h => by
    have h' : ∀ m ∈ todo, ∃ t, TableOf T m t := fun m hm => hk m (by simp [hm])
    obtain ⟨t, ht⟩ := hk n (by simp)
    unfold multPass at h
    rw [metaOf_ok.2 ht] at h
    dsimp only at h
    split at h
    · split at h
      · cases h; rfl
      · exact multPass_fails h' h
    · split at h
      · cases h; rfl
      · exact multPass_fails h' h

theorem multLoop_fails (hk : ∀ n ∈ names, ∃ t, TableOf T n t) : ∀ {fuel : Nat} {res : Dict Str (List Str)} {e : MultErr},
    multLoop T ignore names fuel res = .error e → e = .passthroughFk ∨ e = .fuel
  | 0, res, e, h => by cases h; exact .inr rfl
  | fuel + 1, res, e, h => by
    unfold multLoop at h
    cases h1 : multPass T ignore names res false with
    | error e' => rw [h1] at h; cases h; exact .inl (multPass_fails hk h1)
    | ok q =>
      obtain ⟨res', ch⟩ := q
      rw [h1] at h
      dsimp only at h
      split at h
      · exact multLoop_fails hk h
      · cases h

theorem multCheck_succeeds {res : Dict Str (List Str)} : ∀ {todo : List Str}, (∀ n ∈ todo, ∃ t, TableOf T n t ∧
    ∀ c ∈ getSet res n, c ∈ t.columns ∧ c ∈ t.intColumns) → multCheck T res todo = .ok ()
  | [], _ => rfl
  | n :: todo, h => by
    obtain ⟨t, ht, h1⟩ := h n (by simp)
    unfold multCheck
    rw [metaOf_ok.2 ht]
    dsimp only
    cases hf : ((dget res n).getD []).find? fun c => decide (c ∉ t.columns) || decide (c ∉ t.intColumns) with
    | some c =>
      have g1 := List.mem_of_find?_eq_some hf
      have g2 := List.find?_some hf
      obtain ⟨g3, g4⟩ := h1 c g1
      simp [g3, g4] at g2
    | none => exact multCheck_succeeds fun m hm => h m (by simp [hm])

theorem multipliedColumns_succeeds {pass : List Str} (hk : ∀ n ∈ names, ∃ t, TableOf T n t)
    (hnb : 1 < cfg.multiplier → ¬ Blocked T cfg (pass ++ cfg.ignoreTables) names)
    (hint : 1 < cfg.multiplier → ∀ n c t, MultCol T cfg (pass ++ cfg.ignoreTables) names n c → TableOf T n t →
      c ∈ t.columns ∧ c ∈ t.intColumns) : ∃ res, multipliedColumns T cfg pass names = .ok res := by
  unfold multipliedColumns
  split
  · exact ⟨_, rfl⟩
  · rename_i hm
    have hm : 1 < cfg.multiplier := by omega
    dsimp only
    obtain ⟨res, h1⟩ := multInit_succeeds (cfg := cfg) (ignore := pass ++ cfg.ignoreTables) (res := []) hk
    rcases multInit_spec (T := T) (cfg := cfg) (ignore := pass ++ cfg.ignoreTables) (names := names)
      (todo := names) (res := []) (fun _ h => h) (by intro n c h; cases h) with
      ⟨res', g1, h2, h3, -, h5⟩ | ⟨e, g1, -⟩
    · rw [g1] at h1; cases h1
      rw [g1]
      have hinv : MultInv T cfg (pass ++ cfg.ignoreTables) names res :=
        ⟨fun n => by rw [h2]; simp [dget], h3⟩
      dsimp only
      rcases multLoop_spec hinv (missing_lt_fuel res names) with ⟨res', h6, h7, -⟩ | ⟨e, h6, h7⟩
      · rw [h6]
        dsimp only
        rw [multCheck_succeeds]
        · exact ⟨_, rfl⟩
        · intro n hn
          obtain ⟨t, ht⟩ := hk n hn
          exact ⟨t, ht, fun c hc => hint hm n c t (h7.sound n c hc) ht⟩
      · exfalso
        rcases multLoop_fails hk h6 with rfl | rfl
        · rcases h7 with h7 | h7 | h7
          · cases h7
          · cases h7
          · exact hnb hm h7.2
        · rcases h7 with h7 | h7 | h7
          · cases h7
          · cases h7
          · cases h7.1
    · rw [g1] at h1; cases h1

end

/-! ### Compacted columns -/

theorem namedColumns_succeeds {T : Tables} {pass : List Str} : ∀ {l : List (Str × List Str)} {cc : Dict Key (List Str)},
    (∀ n cs, (n, cs) ∈ l → cs ≠ [] → ∃ k, parseTableName n = some k) → ∃ cc', namedColumns T pass l cc = .ok cc'
  | [], cc, _ => ⟨cc, rfl⟩
  | (n, cs) :: l, cc, h => by
    have h' : ∀ n cs, (n, cs) ∈ l → cs ≠ [] → ∃ k, parseTableName n = some k := fun n cs hm => h n cs (by simp [hm])
    unfold namedColumns
    split
    · exact namedColumns_succeeds h'
    · rename_i hne
      obtain ⟨k, hk⟩ := h n cs (by simp) hne
      rw [hk]; dsimp only
      split
      · exact namedColumns_succeeds h'
      · split
        · exact namedColumns_succeeds h'
        · exact namedColumns_succeeds h'

/-! ### A run -/

variable {σ : Type} {C : RunConfig} {D : Setting σ} {p : Plan} {S : DbState} {s : σ}

theorem validateFilters_succeeds {W : Outside σ Val} {T : Tables} : ∀ {fs : List (Str × List (FilterCfg Val))},
    (∀ n f, (n, f) ∈ fs → f ≠ [] → ∃ k, parseTableName n = some k ∧
      ∀ t, dget T k = some t → ∃ ch, constructFilter W t.columns f = .ok ch) → validateFilters W T fs = .ok ()
  | [], _ => rfl
  | (n, f) :: fs, h => by
    have h' : ∀ n f, (n, f) ∈ fs → f ≠ [] → ∃ k, parseTableName n = some k ∧
      ∀ t, dget T k = some t → ∃ ch, constructFilter W t.columns f = .ok ch := fun n f hf => h n f (by simp [hf])
    unfold validateFilters
    split
    · exact validateFilters_succeeds h'
    · rename_i hne
      obtain ⟨k, hk, ht⟩ := h n f (by simp) (by simpa using hne)
      rw [hk]; dsimp only
      cases h1 : dget T k with
      | none => exact validateFilters_succeeds h'
      | some t =>
        obtain ⟨ch, hch⟩ := ht t h1
        dsimp only
        rw [hch]
        exact validateFilters_succeeds h'

theorem startRun_works (hok : RunOK C D p) (hinf : C.infer = .none) (hr : Runnable C D p) {schema : Dict Str TableMeta}
    (hcf : Configured C D p schema) :
    ∃ r, startRun C D p = .ok r ∧ ∀ n ∈ dkeys p.queries, ∃ k t, parseTableName n = some k ∧ dget r.raw k = some t ∧
      (n, t) ∈ D.srcDb := by
  obtain ⟨l, h1, h2⟩ := source_loaded hok.src hr.source
  obtain ⟨x, hx⟩ : ∃ x, destInit D.fnmatch D.dstDb C.remap (dkeys p.queries) = .ok x := by
    cases hx : destInit D.fnmatch D.dstDb C.remap (dkeys p.queries) with
    | ok x => exact ⟨x, rfl⟩
    | error e =>
      rcases c37_refused hok.dst hx with ⟨-, n, g1, g2⟩ | ⟨n, g1, n', g2, g3, k, g4, g5, -⟩
      · obtain ⟨k, hk⟩ := hr.dest n g1
        exact absurd hk (g2 k)
      · exact absurd (hr.differ n' g2 n g1 k g5 g4) g3
  have hsub : ∀ k t, dget l.tables k = some t → (k.1 ++ '.' :: k.2, t) ∈ D.srcDb := by
    rcases fromEngine_spec (fnmatch := D.fnmatch) hok.src (dkeys p.queries) false false with
      ⟨l', g1, -, -, g4, -⟩ | ⟨g1, -⟩
    · rw [h1] at g1; cases g1
      intro k t hk
      obtain ⟨⟨n, hn⟩, rfl⟩ := g4 k t (dget_some_mem hk)
      dsimp only
      rw [← hok.src.name_eq n t hn]; exact hn
    · rw [h1] at g1; cases g1
  have hto : ∀ n t, TableOf l.tables n t → TableOf (dbTables D.srcDb) n t := by
    rintro n t ⟨k, g1, g2⟩
    exact ⟨k, g1, (dbTables_iff hok.src (parse_fst_nodot g1)).2 (hsub k t g2)⟩
  obtain ⟨m, hm⟩ := multipliedColumns_succeeds (T := l.tables) (cfg := C.mult) (pass := p.passthrough)
    (names := dkeys p.queries) (fun n hn => by
      obtain ⟨k, t, g1, g2, -⟩ := h2 n hn
      exact ⟨t, k, g1, g2⟩) (by
      rintro g ⟨n, t, fk, c, b1, b2, b3, b4, b5, b6⟩
      exact hcf.unblocked g ⟨n, t, fk, c, b1, b2, hto n t b3, b4, b5, multCol_congr (fun n _ t => hto n t) b6⟩) (by
      rintro g n c t b1 ⟨k, b2, b3⟩
      have := hsub k t b3
      rw [show k.1 ++ '.' :: k.2 = n from parse_str b2] at this
      exact hcf.multiplied n c ⟨g, multCol_congr (fun n _ t => hto n t) b1⟩ t this)
  refine ⟨⟨l.tables, inferStep C.infer l.tables, m, x⟩, ?_, h2⟩
  unfold startRun
  rw [h1, hinf]; dsimp only [inferStep]
  rw [validateFilters_succeeds, hm, hx]
  intro n f hf hne
  obtain ⟨⟨k, g1⟩, g2⟩ := hcf.filters n f hf hne
  refine ⟨k, g1, fun t ht => g2 t ?_⟩
  have := hsub k t ht
  rwa [show k.1 ++ '.' :: k.2 = n from parse_str g1] at this

/-- All steps before copying succeed. -/
theorem steps_work (hok : RunOK C D p) (hfo : LookupsFollow C D p) (hr : Runnable C D p)
    (hcf : Configured C D p (sample C D p S s).schema) :
    ∃ r db x order states offs compact mat temps, Steps C D p S r db x order states offs compact mat temps ∧
      (sample C D p S s).schema = db := by
  obtain ⟨r, h1, hraw⟩ := startRun_works hok hfo.infer hr hcf
  obtain ⟨db, x, h2⟩ : ∃ db x, createStep C D r = .ok (db, x) := by
    unfold createStep
    by_cases hcr : C.create = true
    · obtain ⟨ts, hts⟩ := createdTables_succeeds hok hr hcr h1 hraw
      rw [if_pos hcr, hts]
      exact ⟨_, _, rfl⟩
    · rw [if_neg hcr]
      exact ⟨_, _, rfl⟩
  have hf := prepared_run hok h1 h2
  obtain ⟨tp, h3⟩ : ∃ ts, metaToposort x.tables = .ok ts := by
    rcases metaToposort_spec hf.tables with ⟨ts, g1, -⟩ | ⟨-, a, g1⟩
    · exact ⟨ts, g1⟩
    · exact absurd (Relation.TransGen.mono (fun _ _ h => h.1) a a g1) (no_circle hok hr h1 h2 a)
  obtain ⟨order, h4⟩ : ∃ order, insertOrder x = .ok order := by
    unfold insertOrder; rw [h3]; exact ⟨_, rfl⟩
  obtain ⟨states, h5⟩ : ∃ states, truncateStep C x S = .ok states := by
    unfold truncateStep truncate
    split
    · rw [h3]; exact ⟨_, rfl⟩
    · exact ⟨_, rfl⟩
  have hsch : (sample C D p S s).schema = db := by
    simp only [sample, h1, h2, h4, h5]
    repeat' split
    all_goals rfl
  have hfa := startRun_facts hok.src h1
  obtain ⟨l, hl, hlr, htl, -⟩ := startRun_ok h1
  have htr : r.tables = r.raw := by rw [htl, hfo.infer, hlr]; rfl
  have hkn : ∀ n ∈ dkeys p.queries, ∃ k, parseTableName n = some k ∧ (dget r.tables k).isSome := by
    intro n hn
    obtain ⟨k, t, g1, g2, -⟩ := hraw n hn
    exact ⟨k, g1, by rw [htr, g2]; rfl⟩
  obtain ⟨offs, h6⟩ : ∃ offs, prepareStep C r.tables x ((states.reverse ++ [S]).head?.getD S) p = .ok offs := by
    unfold prepareStep
    split
    · rename_i hmg
      cases hp : prepare C.remap r.tables x.tables ((states.reverse ++ [S]).head?.getD S) p.passthrough (dkeys p.queries) with
      | ok offs => exact ⟨_, rfl⟩
      | error e =>
        exfalso
        obtain ⟨-, n, g1, g2, g3⟩ := prepare_error hp hr.dest
        obtain ⟨⟨k, kd, t, td, hc⟩, g4⟩ := hcf.merged hmg n g1 g2
        rcases g3 with ⟨kd', g5, g6⟩ | ⟨k', g5, g6⟩
        · rw [destOf_unique g5 hc.dest] at g6
          obtain ⟨td', htd'⟩ := (reached_iff hok (prepared_of_step h1 h2) kd).2 hc.reached
          rw [dget_of_mem hf.tables.keys_nodup htd'] at g6
          cases g6
        · obtain ⟨k2, g7, g8⟩ := hkn n g1
          rw [g5] at g7; cases g7
          rcases g6 with g6 | ⟨t', g6, fk, g9, g10⟩
          · rw [g6] at g8; cases g8
          · rw [htr] at g6
            have g11 := (hfa.sub k' t' g6).1
            rw [show k'.1 ++ '.' :: k'.2 = n from parse_str g5] at g11
            obtain ⟨kb, g12, g13⟩ := hkn _ (g4 t' g11 fk g9)
            have g14 := parse_of_nodot (k := (fk.dstSchema, fk.dstTable)) (hok.src.fk_cols n t' g11 fk g9).2.2
            have g15 := g12.symm.trans g14
            cases g15
            rw [g10] at g13
            cases g13
    · exact ⟨_, rfl⟩
  obtain ⟨compact, h7⟩ : ∃ compact, getCompactColumns r.tables p.passthrough C.compact = .ok compact := by
    unfold getCompactColumns
    obtain ⟨cc, hcc⟩ := namedColumns_succeeds (T := r.tables) (pass := p.passthrough) (cc := []) hcf.compactNames
    rw [hcc]
    dsimp only
    split
    · exact ⟨_, rfl⟩
    · rename_i hkeys
      split
      · rename_i hw
        exfalso
        unfold withinFk at hw
        simp only [List.any_eq_true, decide_eq_true_eq] at hw
        obtain ⟨⟨k, t⟩, g1, fk, g2, c, g3, g4⟩ := hw
        dsimp only at g2 g4
        have g5 := isCompacted_iff.1 g4
        have hgt : dget r.raw k = some t := by
          rw [htr] at g1
          exact dget_of_mem hfa.raw.keys_nodup g1
        obtain ⟨g7, g8⟩ := hfa.sub k t hgt
        rcases (keyColumns_ok _ _).1 g5 with g6 | ⟨t', g6, g9, g10, g11, g12⟩
        · rcases (namedColumns_ok hcc hok.compactNames (fun _ _ _ _ => rfl) k c).1 g6 with
            ⟨_, g6, -⟩ | ⟨tn, cols, b1, b2, b3, -⟩
          · cases g6
          · rw [show k.1 ++ '.' :: k.2 = tn from parse_str b3] at g7
            exact (hfo.named tn cols b1 c b2 t g7).1 fk g2 g3
        · rw [htr] at g6
          have := dget_of_mem hfa.raw.keys_nodup g6
          rw [hgt] at this
          cases this
          refine hcf.compactKeys _ t c g7 ?_ g9 g10 g11 ?_ fk g2 g3
          · rw [g8]
            rcases fromEngine_spec (fnmatch := D.fnmatch) hok.src (dkeys p.queries) false false with
              ⟨l', b1, -, -, -, b5⟩ | ⟨b1, -⟩
            · rw [hl] at b1; cases b1
              rw [hlr] at g6
              obtain ⟨k0, b6, b7⟩ := (b5 k).1 (List.mem_map_of_mem (f := Prod.fst) g6)
              rcases Relation.ReflTransGen.cases_tail b7 with b7 | ⟨_, -, b7 | b7⟩
              · rw [b7]; exact b6
              · cases b7.1
              · cases b7.1
            · rw [hl] at b1; cases b1
          · rcases g12 with g12 | g12
            · exact .inl g12
            · by_cases b1 : C.compact.primaryKeys = true
              · exact .inl b1
              · refine .inr ⟨?_, g12⟩
                cases b2 : C.compact.autoIncrementKeys
                · simp [b1, b2] at hkeys
                · rfl
      · exact ⟨_, rfl⟩
  have hpo : PlanOK r.tables p := by
    refine ⟨hok.plan, fun n q hn => hkn n (List.mem_map_of_mem (f := Prod.fst) hn), fun k q hq y hy => ?_, fun k d hd => ?_⟩
    · obtain ⟨q', n, g1, g2⟩ := hr.refs k q hq y hy
      obtain ⟨k', g3, g4⟩ := hkn n (List.mem_map_of_mem (f := Prod.fst) g1)
      rw [g2] at g3
      cases g3
      exact g4
    · obtain ⟨q, hq, y, hy, -, rfl⟩ := hd
      exact hr.refs k q hq y hy
  obtain ⟨mat, temps, h8, h9, -⟩ := Subsetter.materialized hpo hr.acyclic D.engine compact D.src D.reopen
  exact ⟨r, db, x, order, states, offs, compact, mat, temps, ⟨h1, h2, h4, h5, h6, h7, h8, h9⟩, hsch⟩

end Subsetter
