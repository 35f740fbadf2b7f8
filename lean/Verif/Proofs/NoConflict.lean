import Verif.Proofs.Repeat
import Verif.Model.Conflicts

/- Conflict strategies matter only if there are conflicts. -/
namespace Subsetter
open Spec Props

variable {σ : Type} {C : RunConfig} {D : Setting σ} {p : Plan}

theorem conflictInit_any {pk cols nonPk : List Str} {u : Strategy} (h : conflictInit .error pk cols = .ok (u, nonPk)) (st : Strategy) :
    u = .error ∧ ((pk = [] ∧ conflictInit st pk cols = .ok (.error, nonPk)) ∨ ∃ t, (t = st ∨ t = .skip) ∧ (t ≠ st → t = .skip) ∧
      nonPk = cols.filter (fun c => decide (c ∉ pk)) ∧ conflictInit st pk cols = .ok (t, nonPk)) := by
  unfold conflictInit at h ⊢
  split at h
  · rename_i hp
    cases h
    exact ⟨rfl, .inl ⟨List.isEmpty_iff.1 hp, by rw [if_pos hp]⟩⟩
  · rename_i hp
    split at h
    · rename_i ha
      rw [if_neg (by simp)] at h
      cases h
      refine ⟨rfl, .inr ?_⟩
      rw [if_neg hp, if_pos ha]
      dsimp only
      split
      · exact ⟨.skip, .inr rfl, fun _ => rfl, rfl, rfl⟩
      · exact ⟨st, .inl rfl, fun h => absurd rfl h, rfl, rfl⟩
    · cases h

theorem insertMany_any {d : DestTable} {upd upd' : List Str} (st : Strategy) :
    ∀ {rs T T' : List Row}, insertMany .error d upd rs T = .ok T' → insertMany st d upd' rs T = .ok T'
  | [], _, _, h => h
  | r :: rs, T, T', h => by
    unfold insertMany at h ⊢
    unfold insertOne at h ⊢
    split at h
    · cases h
    · rename_i U hU
      split at hU
      · cases hU
      · rename_i hc
        cases hU
        rw [if_neg hc]
        exact insertMany_any st h

theorem insertUniques_any {dialect : Dialect} {d : DestTable} {uniques : List (List Str)} {upd upd' : List Str} (st : Strategy) :
    ∀ {rs T T' : List Row}, insertUniques dialect .error d uniques upd rs T = .ok T' → insertUniques dialect st d uniques upd' rs T = .ok T'
  | [], _, _, h => h
  | r :: rs, T, T', h => by
    unfold insertUniques at h ⊢
    unfold insertUnique at h ⊢
    dsimp only at h ⊢
    split at h
    · cases h
    · rename_i U hU
      split at hU
      · cases hU
      · rename_i hc
        cases hU
        simp only [Bool.or_eq_true, not_or, Bool.not_eq_true, Option.isSome_eq_false_iff, Option.isNone_iff_eq_none] at hc
        obtain ⟨h1, h2⟩ := hc
        rw [h1, h2]
        cases st <;> exact insertUniques_any _ h

/-- The columns that `replace` would assign are no generated ones. -/
def Assignable (dialect : Dialect) (st : Strategy) (d : DestTable) (cols : List Str) : Prop :=
  dialect ≠ .generic ∧ (st = .replace → ∀ c ∈ updateColumns dialect d (cols.filter fun c => decide (c ∉ d.pk)), c ∉ d.computed)

theorem flushBuffer_any {dialect : Dialect} {d : DestTable} {cols : List Str} {st : Strategy} (ha : Assignable dialect st d cols)
    {b : List (List Val)} {T T' : List Row} (h : flushBuffer dialect .error d cols b T = .ok T') :
    flushBuffer dialect st d cols b T = .ok T' := by
  unfold flushBuffer at h ⊢
  split at h
  · cases h
  · rename_i u nonPk hi
    obtain ⟨rfl, ⟨-, h1⟩ | ⟨t, h1, h2, rfl, h3⟩⟩ := conflictInit_any hi st
    · rw [h1]; exact h
    · rw [h3]
      dsimp only
      rw [if_neg (by simp), if_neg (by simp)] at h
      rw [if_neg (fun hx => ha.1 hx.1), if_neg]
      · exact insertMany_any _ h
      · rintro ⟨rfl, hx⟩
        have hs : st = .replace := h1.elim Eq.symm (nomatch ·)
        obtain ⟨c, hc, hcc⟩ := List.any_eq_true.1 hx
        exact ha.2 hs c hc (by simpa using hcc)

theorem flushUnique_any {dialect : Dialect} {d : DestTable} {uniques : List (List Str)} {cols : List Str} {st : Strategy}
    (ha : Assignable dialect st d cols) {b : List (List Val)} {T T' : List Row} (h : flushUnique dialect .error d uniques cols b T = .ok T') :
    flushUnique dialect st d uniques cols b T = .ok T' := by
  unfold flushUnique at h ⊢
  split at h
  · cases h
  · rename_i u nonPk hi
    obtain ⟨rfl, ⟨-, h1⟩ | ⟨t, h1, h2, rfl, h3⟩⟩ := conflictInit_any hi st
    · rw [h1]; exact h
    · rw [h3]
      dsimp only
      rw [if_neg (by simp), if_neg (by simp)] at h
      rw [if_neg (fun hx => ha.1 hx.1), if_neg]
      · exact insertUniques_any _ h
      · rintro ⟨rfl, hx⟩
        have hs : st = .replace := h1.elim Eq.symm (nomatch ·)
        obtain ⟨c, hc, hcc⟩ := List.any_eq_true.1 hx
        exact ha.2 hs c hc (by simpa using hcc)

section
variable {E : Type} {W : Outside σ Val} {flush flush' : List (List Val) → E → Except OutErr E} {o : OutPlan}
  (hf : ∀ b d x, flush b d = .ok x → flush' b d = .ok x)
include hf

theorem writeStep_more {st st' : WState σ E} {x : List Val × Nat} (h : writeStep W flush o st x = .ok st') :
    writeStep W flush' o st x = .ok st' := by
  unfold writeStep at h ⊢
  cases h1 : outRow W o x st.world with
  | error e => rw [h1] at h; cases h
  | ok y =>
    obtain ⟨row, w⟩ := y
    rw [h1] at h
    dsimp only at h ⊢
    cases h2 : autoMax o st.auto row with
    | error e => rw [h2] at h; cases h
    | ok a =>
      rw [h2] at h
      dsimp only at h ⊢
      split
      · rename_i hb
        rw [if_pos hb] at h
        cases h3 : flush (st.buffer ++ [row]) st.dest with
        | error e => rw [h3] at h; cases h
        | ok y => rw [h3] at h; rw [hf _ _ _ h3]; exact h
      · rename_i hb
        rw [if_neg hb] at h
        exact h

theorem writeLoop_more : ∀ {xs : List (List Val × Nat)} {st st' : WState σ E}, writeLoop W flush o xs st = .ok st' →
    writeLoop W flush' o xs st = .ok st'
  | [], _, _, h => h
  | x :: xs, st, st', h => by
    unfold writeLoop at h ⊢
    cases h1 : writeStep W flush o st x with
    | error e => rw [h1] at h; cases h
    | ok y =>
      rw [h1] at h
      rw [writeStep_more hf h1]
      exact writeLoop_more h

theorem writeAll_more {rows : List (List Val)} {d : E} {s : σ} {st : WState σ E} (h : writeAll W flush o rows d s = .ok st) :
    writeAll W flush' o rows d s = .ok st := by
  unfold writeAll at h ⊢
  cases h1 : writeLoop W flush o (copies o.multiplier rows) ⟨[], d, .null, s, []⟩ with
  | error e => rw [h1] at h; cases h
  | ok y =>
    rw [h1] at h
    rw [writeLoop_more hf h1]
    dsimp only at h ⊢
    split
    · rename_i hb
      rw [if_pos hb] at h
      exact h
    · rename_i hb
      rw [if_neg hb] at h
      cases h3 : flush y.buffer y.dest with
      | error e => rw [h3] at h; cases h
      | ok z => rw [h3] at h; rw [hf _ _ _ h3]; exact h
end

/-- `read'` gives the jobs of `read` with the strategy `st`, or those that have it anyway. -/
def Restrategized (dialect : Dialect) (st : Strategy) (read read' : Str → Except RunErr (Option TableJob)) (n : Str) : Prop :=
  (read n = .ok none → read' n = .ok none) ∧ ∀ j, read n = .ok (some j) → read' n = .ok (some j) ∨
    j.strategy = .error ∧ read' n = .ok (some { j with strategy := st }) ∧ ∀ o, outPlan j.input = .ok o → Assignable dialect st j.input.dest o.colsOut

theorem copyAll_any {W : Outside σ Val} {dialect : Dialect} {st : Strategy} {read read' : Str → Except RunErr (Option TableJob)} :
    ∀ {ns : List Str} {h : List DbState} {s : σ}, (∀ n ∈ ns, Restrategized dialect st read read' n) →
      (copyAll W dialect read ns h s).2.2 = none → copyAll W dialect read' ns h s = copyAll W dialect read ns h s
  | [], _, _, _, _ => rfl
  | n :: ns, h, s, hr, g => by
    have ih : ∀ {h : List DbState} {s : σ}, (copyAll W dialect read ns h s).2.2 = none → copyAll W dialect read' ns h s = copyAll W dialect read ns h s :=
      fun {h s} => copyAll_any (W := W) (h := h) (s := s) fun m hm => hr m (List.mem_cons_of_mem _ hm)
    obtain ⟨r1, r2⟩ := hr n List.mem_cons_self
    rw [copyAll.eq_2] at g
    rw [copyAll.eq_2, copyAll.eq_2]
    cases h1 : read n with
    | error e => rw [h1] at g; cases g
    | ok oj =>
      rw [h1] at g
      cases oj with
      | none => rw [r1 h1]; exact ih g
      | some j =>
        dsimp only at g ⊢
        cases h2 : outPlan j.input with
        | error e => rw [h2] at g; cases g
        | ok o =>
          rw [h2] at g
          dsimp only at g ⊢
          cases h3 : writeAll W (flushTo dialect j.strategy j.key j.input.dest o.colsOut) o j.rows h s with
          | error e => rw [h3] at g; cases g
          | ok w =>
            rw [h3] at g
            dsimp only at g ⊢
            rcases r2 j h1 with e | ⟨e1, e2, e3⟩
            · rw [e]
              dsimp only
              rw [h2]
              dsimp only
              rw [h3]
              dsimp only
              rw [ih g]
            · rw [e2]
              dsimp only
              rw [h2]
              dsimp only
              rw [writeAll_more (flush := flushTo dialect j.strategy j.key j.input.dest o.colsOut) (fun b d x hx => ?_) h3]
              · dsimp only
                rw [ih g]
              · cases d with
                | nil => exact hx
                | cons S hist =>
                  unfold flushTo at hx ⊢
                  dsimp only at hx ⊢
                  cases h4 : flushBuffer dialect j.strategy j.input.dest o.colsOut b (S j.key) with
                  | error e => rw [h4] at hx; cases hx
                  | ok rows =>
                    rw [h4] at hx
                    rw [e1] at h4
                    rw [flushBuffer_any (e3 o h2) h4]
                    exact hx

theorem copyAllUnique_any {db : Dict Str TableMeta} {W : Outside σ Val} {dialect : Dialect} {st : Strategy}
    {read read' : Str → Except RunErr (Option TableJob)} :
    ∀ {ns : List Str} {h : List DbState} {s : σ}, (∀ n ∈ ns, Restrategized dialect st read read' n) →
      (copyAllUnique db W dialect read ns h s).2.2 = none → copyAllUnique db W dialect read' ns h s = copyAllUnique db W dialect read ns h s
  | [], _, _, _, _ => rfl
  | n :: ns, h, s, hr, g => by
    have ih : ∀ {h : List DbState} {s : σ}, (copyAllUnique db W dialect read ns h s).2.2 = none →
        copyAllUnique db W dialect read' ns h s = copyAllUnique db W dialect read ns h s :=
      fun {h s} => copyAllUnique_any (W := W) (h := h) (s := s) fun m hm => hr m (List.mem_cons_of_mem _ hm)
    obtain ⟨r1, r2⟩ := hr n List.mem_cons_self
    rw [copyAllUnique.eq_2] at g
    rw [copyAllUnique.eq_2, copyAllUnique.eq_2]
    cases h1 : read n with
    | error e => rw [h1] at g; cases g
    | ok oj =>
      rw [h1] at g
      cases oj with
      | none => rw [r1 h1]; exact ih g
      | some j =>
        dsimp only at g ⊢
        cases h2 : outPlan j.input with
        | error e => rw [h2] at g; cases g
        | ok o =>
          rw [h2] at g
          dsimp only at g ⊢
          cases h3 : writeAll W (flushUniqueTo db dialect j.strategy j.key j.input.dest o.colsOut) o j.rows h s with
          | error e => rw [h3] at g; cases g
          | ok w =>
            rw [h3] at g
            dsimp only at g ⊢
            rcases r2 j h1 with e | ⟨e1, e2, e3⟩
            · rw [e]
              dsimp only
              rw [h2]
              dsimp only
              rw [h3]
              dsimp only
              rw [ih g]
            · rw [e2]
              dsimp only
              rw [h2]
              dsimp only
              rw [writeAll_more (flush := flushUniqueTo db dialect j.strategy j.key j.input.dest o.colsOut) (fun b d x hx => ?_) h3]
              · dsimp only
                rw [ih g]
              · cases d with
                | nil => exact hx
                | cons S hist =>
                  unfold flushUniqueTo at hx ⊢
                  dsimp only at hx ⊢
                  cases h4 : flushUnique dialect j.strategy j.input.dest (uniquesOf db j.key) o.colsOut b (S j.key) with
                  | error e => rw [h4] at hx; cases hx
                  | ok rows =>
                    rw [h4] at hx
                    rw [e1] at h4
                    rw [flushUnique_any (e3 o h2) h4]
                    exact hx

/-- The same tables are read. -/
theorem read_strategy {r : Started} {x : DestMeta} {offs : Dict Key (Dict Str Int)} {compact : Dict Key (List Str)} {temps : Temps} {n : Str}
    (hC : C.strategy = .error) (st : Strategy)
    (ha : ∀ j, readTable C D r x offs compact p temps n = .ok (some j) → ∀ o, outPlan j.input = .ok o → Assignable D.dialect st j.input.dest o.colsOut) :
    Restrategized D.dialect st (readTable C D r x offs compact p temps) (readTable { C with strategy := st } D r x offs compact p temps) n := by
  have key : readTable { C with strategy := st } D r x offs compact p temps n = readTable C D r x offs compact p temps n ∨
      ((∀ j, readTable C D r x offs compact p temps n = .ok (some j) → j.strategy = .error) ∧
      readTable { C with strategy := st } D r x offs compact p temps n =
        (readTable C D r x offs compact p temps n).map (Option.map fun j => { j with strategy := st })) := by
    unfold readTable tableJob
    dsimp only
    cases parseTableName n with
    | none => exact .inl rfl
    | some k =>
      dsimp only
      cases dget p.queries n with
      | none => exact .inl rfl
      | some q =>
        dsimp only
        cases copyRows D.engine r.tables D.le C.compact.startKey compact D.src D.reopen temps k q with
        | error e => exact .inl rfl
        | ok rows =>
          dsimp only
          cases dget r.tables k with
          | none => exact .inl rfl
          | some t =>
            dsimp only
            cases constructFilter D.world t.columns ((dget C.filters n).getD []) with
            | error e => exact .inl rfl
            | ok ch =>
              dsimp only
              cases remapTable C.remap k with
              | none => exact .inl rfl
              | some kd =>
                dsimp only
                cases dget x.tables kd with
                | none => exact .inl rfl
                | some td =>
                  dsimp only
                  by_cases hm : (C.merge && decide (Key.str k ∈ p.passthrough)) = true
                  · rw [if_pos hm, if_pos hm]; exact .inl rfl
                  · rw [if_neg hm, if_neg hm]
                    refine .inr ⟨fun j hj => ?_, rfl⟩
                    cases hj
                    exact hC
  rcases key with e | ⟨e1, e2⟩
  · exact ⟨fun h => by rw [e, h], fun j h => .inl (by rw [e, h])⟩
  · refine ⟨fun h => by rw [e2, h]; rfl, fun j h => .inr ⟨e1 j h, by rw [e2, h]; rfl, ha j h⟩⟩

theorem assignable_run {S : DbState} {r : Started} {db : Dict Str TableMeta} {x : DestMeta} {order : List Str} {states : List DbState}
    {offs : Dict Key (Dict Str Int)} {compact : Dict Key (List Str)} {mat : List (Key × Nat)} {temps : Temps} (hok : RunOK C D p)
    (hst : Steps C D p S r db x order states offs compact mat temps) {st : Strategy} (hd : D.dialect ≠ .generic)
    (hg : st = .replace → D.dialect = .sqlite → ∀ n k kd t td, Copied C D p db n k kd t td → ∀ c ∈ td.columns, c ∉ (target D kd td).computed)
    {n : Str} (hn : n ∈ order) : ∀ j, readTable C D r x offs compact p temps n = .ok (some j) → ∀ o, outPlan j.input = .ok o →
      Assignable D.dialect st j.input.dest o.colsOut := by
  intro j hj o ho
  refine ⟨hd, fun hs c hc => ?_⟩
  obtain ⟨k, kd, t, td, hcp⟩ := (hst.mem_order hok n).1 hn
  obtain ⟨Smp, -, hS, hT⟩ := hst.sample hok
  obtain ⟨rfl, e2, -⟩ := hst.job hok hS hT hcp hj
  by_cases hq : D.dialect = .sqlite
  · unfold updateColumns at hc
    rw [hq] at hc
    dsimp only at hc
    have hcol : j.input.dest.columns = td.columns := by
      rw [e2]; unfold target; split <;> rfl
    rw [e2]
    exact hg hs hq _ _ _ _ _ hcp c (by rw [← hcol]; exact hc)
  · have : updateColumns D.dialect j.input.dest (o.colsOut.filter fun c => decide (c ∉ j.input.dest.pk)) = o.colsOut.filter fun c => decide (c ∉ j.input.dest.pk) := by
      unfold updateColumns
      cases hdd : D.dialect <;> first | rfl | exact absurd hdd hq
    rw [this] at hc
    have hc' := (List.mem_filter.1 hc).1
    rw [(outPlan_ok ho).2.1] at hc'
    simpa using (List.mem_filter.1 hc').2

theorem sample_any {st : Strategy} {S : DbState} {s : σ} (hok : RunOK C D p) (hC : C.strategy = .error) (hd : D.dialect ≠ .generic)
    (hg : st = .replace → D.dialect = .sqlite → ∀ n k kd t td, Copied C D p (sample C D p S s).schema n k kd t td →
      ∀ c ∈ td.columns, c ∉ (target D kd td).computed) (h : (sample C D p S s).err = none) :
    sample { C with strategy := st } D p S s = sample C D p S s := by
  unfold sample at h hg ⊢
  rw [show startRun { C with strategy := st } D p = startRun C D p from rfl]
  cases h1 : startRun C D p with
  | error e => rfl
  | ok r =>
    rw [h1] at h hg
    dsimp only at h hg ⊢
    rw [show createStep { C with strategy := st } D r = createStep C D r from rfl]
    cases h2 : createStep C D r with
    | error e => rfl
    | ok y =>
      obtain ⟨db, x⟩ := y
      rw [h2] at h hg
      dsimp only at h hg ⊢
      cases h3 : insertOrder x with
      | error e => rfl
      | ok order =>
        rw [h3] at h hg
        dsimp only at h hg ⊢
        rw [show truncateStep { C with strategy := st } x S = truncateStep C x S from rfl]
        cases h4 : truncateStep C x S with
        | error e => rfl
        | ok states =>
          rw [h4] at h hg
          dsimp only at h hg ⊢
          rw [show prepareStep { C with strategy := st } r.tables x ((states.reverse ++ [S]).head?.getD S) p =
            prepareStep C r.tables x ((states.reverse ++ [S]).head?.getD S) p from rfl]
          cases h5 : prepareStep C r.tables x ((states.reverse ++ [S]).head?.getD S) p with
          | error e => rfl
          | ok offs =>
            rw [h5] at h hg
            dsimp only at h hg ⊢
            cases h6 : getCompactColumns r.tables p.passthrough C.compact with
            | error e => rfl
            | ok compact =>
              rw [h6] at h hg
              dsimp only at h hg ⊢
              cases h7 : materializationOrder r.tables compact p with
              | error e => rfl
              | ok mat =>
                rw [h7] at h hg
                dsimp only at h hg ⊢
                cases h8 : materialize D.engine r.tables D.src D.reopen p mat [] with
                | error e => rfl
                | ok temps =>
                  rw [h8] at h hg
                  dsimp only at h hg ⊢
                  have hst : Steps C D p S r db x order states offs compact mat temps := ⟨h1, h2, h3, h4, h5, h6, h7, h8⟩
                  rw [copyAll_any (fun n hn => read_strategy hC st (assignable_run hok hst hd hg hn)) h]

theorem sampleUnique_any {st : Strategy} {S : DbState} {s : σ} (hok : RunOK C D p) (hC : C.strategy = .error) (hd : D.dialect ≠ .generic)
    (hg : st = .replace → D.dialect = .sqlite → ∀ n k kd t td, Copied C D p (sampleUnique C D p S s).schema n k kd t td →
      ∀ c ∈ td.columns, c ∉ (target D kd td).computed) (h : (sampleUnique C D p S s).err = none) :
    sampleUnique { C with strategy := st } D p S s = sampleUnique C D p S s := by
  unfold sampleUnique at h hg ⊢
  rw [show startRun { C with strategy := st } D p = startRun C D p from rfl]
  cases h1 : startRun C D p with
  | error e => rfl
  | ok r =>
    rw [h1] at h hg
    dsimp only at h hg ⊢
    rw [show createStep { C with strategy := st } D r = createStep C D r from rfl]
    cases h2 : createStep C D r with
    | error e => rfl
    | ok y =>
      obtain ⟨db, x⟩ := y
      rw [h2] at h hg
      dsimp only at h hg ⊢
      cases h3 : insertOrder x with
      | error e => rfl
      | ok order =>
        rw [h3] at h hg
        dsimp only at h hg ⊢
        rw [show truncateStep { C with strategy := st } x S = truncateStep C x S from rfl]
        cases h4 : truncateStep C x S with
        | error e => rfl
        | ok states =>
          rw [h4] at h hg
          dsimp only at h hg ⊢
          rw [show prepareStep { C with strategy := st } r.tables x ((states.reverse ++ [S]).head?.getD S) p =
            prepareStep C r.tables x ((states.reverse ++ [S]).head?.getD S) p from rfl]
          cases h5 : prepareStep C r.tables x ((states.reverse ++ [S]).head?.getD S) p with
          | error e => rfl
          | ok offs =>
            rw [h5] at h hg
            dsimp only at h hg ⊢
            cases h6 : getCompactColumns r.tables p.passthrough C.compact with
            | error e => rfl
            | ok compact =>
              rw [h6] at h hg
              dsimp only at h hg ⊢
              cases h7 : materializationOrder r.tables compact p with
              | error e => rfl
              | ok mat =>
                rw [h7] at h hg
                dsimp only at h hg ⊢
                cases h8 : materialize D.engine r.tables D.src D.reopen p mat [] with
                | error e => rfl
                | ok temps =>
                  rw [h8] at h hg
                  dsimp only at h hg ⊢
                  have hst : Steps C D p S r db x order states offs compact mat temps := ⟨h1, h2, h3, h4, h5, h6, h7, h8⟩
                  rw [copyAllUnique_any (fun n hn => read_strategy hC st (assignable_run hok hst hd hg hn)) h]

end Subsetter
