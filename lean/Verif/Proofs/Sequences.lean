import Verif.Model.Sequences
import Verif.Proofs.RunWritten
import Verif.Props.Sequence
import Verif.Props.Random
import Verif.Proofs.RunKeys
import Verif.Spec.Sequences

/- Runs with sequences. -/
namespace Subsetter
open Spec Props

variable {σ : Type}

/-- The sequences do not influence what is copied. -/
theorem copyAllSeq_fst {cur : Key → Option Int} {W : Outside σ Val} {dialect : Dialect}
    {read : Str → Except RunErr (Option TableJob)} : ∀ (names : List Str) (hist : List DbState) (s : σ) (Q : Key → Sequence),
    (copyAllSeq cur W dialect read names hist s Q).1 = copyAll W dialect read names hist s
  | [], hist, s, Q => rfl
  | n :: ns, hist, s, Q => by
    unfold copyAllSeq copyAll
    cases read n with
    | error e => rfl
    | ok o =>
      cases o with
      | none => exact copyAllSeq_fst ns hist s Q
      | some j =>
        dsimp only
        cases outPlan j.input with
        | error e => rfl
        | ok o =>
          dsimp only
          cases writeAll W (flushTo dialect j.strategy j.key j.input.dest o.colsOut) o j.rows hist s with
          | error q => rfl
          | ok st =>
            dsimp only
            rw [← copyAllSeq_fst ns st.dest st.world (updateSequence cur j st.auto Q)]

/-- All rows of the job `j` were written and its sequence updated. -/
def Advanced (cur : Key → Option Int) (W : Outside σ Val) (dialect : Dialect) (j : TableJob) (a b : List Row) (q q' : Sequence) :
    Prop :=
  ∃ o s s' bs m, outPlan j.input = .ok o ∧ Run W o (copies o.multiplier j.rows) s bs.flatten s' ∧
    Commits (flushBuffer dialect j.strategy j.input.dest o.colsOut) a bs b ∧
    (∀ i, o.autoinc = some i → AutoInv i m bs.flatten) ∧
    q' = (if j.input.autoincrement.isSome then autoincrementUpdate (cur j.key) (autoValue m) q else q)

theorem update_other {cur : Key → Option Int} {j : TableJob} {m : Val} {Q : Key → Sequence} {k : Key} (h : j.key ≠ k) :
    updateSequence cur j m Q k = Q k := by
  unfold updateSequence
  cases j.input.autoincrement with
  | none => rfl
  | some c => exact if_neg fun e => h e.symm

theorem update_self {cur : Key → Option Int} {j : TableJob} {m : Val} {Q : Key → Sequence} :
    updateSequence cur j m Q j.key =
      if j.input.autoincrement.isSome then autoincrementUpdate (cur j.key) (autoValue m) (Q j.key) else Q j.key := by
  unfold updateSequence
  cases j.input.autoincrement with
  | none => rfl
  | some c => simp

theorem copyAllSeq_spec {cur : Key → Option Int} {W : Outside σ Val} {dialect : Dialect}
    {read : Str → Except RunErr (Option TableJob)} :
    ∀ {names : List Str} {S : DbState} {hist hist' : List DbState} {s : σ} {writes : Writes} {err : Option RunErr}
      {Q Q' : Key → Sequence},
    names.Nodup → (∀ n ∈ names, ∀ n' ∈ names, ∀ j j', read n = .ok (some j) → read n' = .ok (some j') →
      j.key = j'.key → n = n') →
    copyAllSeq cur W dialect read names (S :: hist) s Q = ((hist', writes, err), Q') →
    ∃ X rest done todo, hist' = X :: rest ∧ names = done ++ todo ∧ (err = none ↔ todo = []) ∧
      (∀ n ∈ done, ∀ j, read n = .ok (some j) → Advanced cur W dialect j (S j.key) (X j.key) (Q j.key) (Q' j.key)) ∧
      (∀ k, (∀ n ∈ names, ∀ j, read n = .ok (some j) → j.key ≠ k) → X k = S k) ∧
      (∀ k, (∀ n ∈ done, ∀ j, read n = .ok (some j) → j.key ≠ k) → Q' k = Q k)
  | [], S, hist, hist', s, writes, err, Q, Q', _, _, h => by
    cases h
    exact ⟨S, hist, [], [], rfl, rfl, by simp, by simp, by simp, by simp⟩
  | n :: ns, S, hist, hist', s, writes, err, Q, Q', hnd, hinj, h => by
    unfold copyAllSeq at h
    rw [List.nodup_cons] at hnd
    have hinj' : ∀ m ∈ ns, ∀ m' ∈ ns, ∀ j j', read m = .ok (some j) → read m' = .ok (some j') →
        j.key = j'.key → m = m' := fun m hm m' hm' => hinj m (by simp [hm]) m' (by simp [hm'])
    cases h1 : read n with
    | error e =>
      rw [h1] at h; cases h
      exact ⟨S, hist, [], n :: ns, rfl, rfl, by simp, by simp, by simp, by simp⟩
    | ok o =>
      rw [h1] at h
      cases o with
      | none =>
        obtain ⟨X, rest, done, todo, g1, g2, g3, g4, g5, g6⟩ := copyAllSeq_spec hnd.2 hinj' h
        refine ⟨X, rest, n :: done, todo, g1, by rw [g2]; rfl, g3, fun m hm j hj => ?_,
          fun k hk => g5 k fun m hm => hk m (by simp [hm]), fun k hk => g6 k fun m hm => hk m (by simp [hm])⟩
        rcases List.mem_cons.1 hm with rfl | hm
        · rw [h1] at hj; cases hj
        · exact g4 m hm j hj
      | some j =>
        dsimp only at h
        cases h2 : outPlan j.input with
        | error e =>
          rw [h2] at h; cases h
          exact ⟨S, hist, [], n :: ns, rfl, rfl, by simp, by simp, by simp, by simp⟩
        | ok o =>
          rw [h2] at h; dsimp only at h
          cases h3 : writeAll W (flushTo dialect j.strategy j.key j.input.dest o.colsOut) o j.rows (S :: hist) s with
          | error q =>
            obtain ⟨st, e⟩ := q
            rw [h3] at h; cases h
            obtain ⟨pre, outs, f1, f2, f3, f4, f5⟩ := writeAll_error h3
            obtain ⟨rows, rest, g1, g2⟩ := commits_flushTo f5
            refine ⟨_, rest, [], n :: ns, g1, rfl, by simp, by simp, fun k hk => ?_, by simp⟩
            exact set_ne fun e => hk n (by simp) j h1 e.symm
          | ok st =>
            rw [h3] at h; dsimp only at h
            obtain ⟨outs, f1, rfl, f3, f4, -⟩ := writeAll_ok h3
            obtain ⟨rows, rest, g1, g2⟩ := commits_flushTo f4
            cases h4 : copyAllSeq cur W dialect read ns st.dest st.world (updateSequence cur j st.auto Q) with
            | mk q Q2 =>
              obtain ⟨hist2, writes2, err2⟩ := q
              rw [h4] at h; cases h
              rw [g1] at h4
              obtain ⟨X, rest', done, todo, k1, k2, k3, k4, k5, k6⟩ := copyAllSeq_spec hnd.2 hinj' h4
              have hne : ∀ m ∈ ns, ∀ j', read m = .ok (some j') → j'.key ≠ j.key := by
                intro m hm j' hj' e
                have := hinj m (by simp [hm]) n (by simp) j' j hj' h1 e
                subst this
                exact hnd.1 hm
              have hdone : ∀ m ∈ done, m ∈ ns := fun m hm => by rw [k2]; simp [hm]
              refine ⟨X, rest', n :: done, todo, k1, by rw [k2]; rfl, k3, fun m hm j' hj' => ?_, fun k hk => ?_, fun k hk => ?_⟩
              · rcases List.mem_cons.1 hm with rfl | hm
                · rw [h1] at hj'; cases hj'
                  refine ⟨o, s, st.world, st.written, st.auto, h2, f1, ?_, fun i hi => writeAll_auto hi h3, ?_⟩
                  · rw [k5 j.key hne, set_self]
                    exact g2
                  · dsimp only
                    rw [k6 j.key fun m hm => hne m (hdone m hm), update_self]
                · have hn := hne m (hdone m hm) j' hj'
                  have := k4 m hm j' hj'
                  rw [set_ne hn, update_other fun e => hn e.symm] at this
                  exact this
              · rw [k5 k fun m hm => hk m (by simp [hm]), set_ne fun e => hk n (by simp) j h1 e.symm]
              · dsimp only
                rw [k6 k fun m hm => hk m (by simp [hm]), update_other (hk n (by simp) j h1)]

theorem copyAllSeq_read {cur : Key → Option Int} {W : Outside σ Val} {dialect : Dialect}
    {read : Str → Except RunErr (Option TableJob)} : ∀ {names : List Str} {hist hist' : List DbState} {s : σ} {writes : Writes}
      {Q Q' : Key → Sequence},
    copyAllSeq cur W dialect read names hist s Q = ((hist', writes, none), Q') → ∀ n ∈ names, ∀ e, read n ≠ .error e
  | [], _, _, _, _, _, _, _, n, hn, _, _ => by cases hn
  | n :: ns, hist, hist', s, writes, Q, Q', h, m, hm, e, he => by
    unfold copyAllSeq at h
    cases h1 : read n with
    | error e => rw [h1] at h; cases h
    | ok o =>
      have hm' : m ∈ ns := by
        rcases List.mem_cons.1 hm with rfl | hm
        · rw [h1] at he; cases he
        · exact hm
      rw [h1] at h
      cases o with
      | none => exact copyAllSeq_read h m hm' e he
      | some j =>
        dsimp only at h
        cases h2 : outPlan j.input with
        | error e => rw [h2] at h; cases h
        | ok o =>
          rw [h2] at h; dsimp only at h
          cases h3 : writeAll W (flushTo dialect j.strategy j.key j.input.dest o.colsOut) o j.rows hist s with
          | error q => rw [h3] at h; cases h
          | ok st =>
            rw [h3] at h; dsimp only at h
            cases h4 : copyAllSeq cur W dialect read ns st.dest st.world (updateSequence cur j st.auto Q) with
            | mk q Q2 =>
              obtain ⟨hist2, writes2, err2⟩ := q
              rw [h4] at h; cases h
              exact copyAllSeq_read h4 m hm' e he

variable {C : RunConfig} {D : Setting σ} {p : Plan} {S : DbState} {s : σ}

theorem sampleSeq_fst (cur : Key → Option Int) (Q : Key → Sequence) :
    (sampleSeq C D p S s cur Q).1 = sample C D p S s := by
  unfold sampleSeq sample
  cases h1 : startRun C D p with
  | error e => rfl
  | ok r =>
    dsimp only
    cases h2 : createStep C D r with
    | error e => rfl
    | ok dx =>
      obtain ⟨db, x⟩ := dx
      dsimp only
      cases h3 : insertOrder x with
      | error e => rfl
      | ok order =>
        dsimp only
        cases h4 : truncateStep C x S with
        | error e => rfl
        | ok states =>
          dsimp only
          cases h5 : prepareStep C r.tables x ((states.reverse ++ [S]).head?.getD S) p with
          | error e => rfl
          | ok offs =>
            dsimp only
            cases h6 : getCompactColumns r.tables p.passthrough C.compact with
            | error e => rfl
            | ok compact =>
              dsimp only
              cases h7 : materializationOrder r.tables compact p with
              | error e => rfl
              | ok mat =>
                dsimp only
                cases h8 : materialize D.engine r.tables D.src D.reopen p mat [] with
                | error e => rfl
                | ok temps =>
                  dsimp only
                  rw [← copyAllSeq_fst (cur := cur) _ _ _ Q]

/-- The sequences of a run that gets to copying. -/
theorem sampleSeq_cases (C : RunConfig) (D : Setting σ) (p : Plan) (S : DbState) (s : σ) (cur : Key → Option Int)
    (Q : Key → Sequence) :
    ((sampleSeq C D p S s cur Q).2 = Q ∧ ∃ e, (sample C D p S s).err = some e) ∨
    ∃ r db x order states offs compact mat temps, Steps C D p S r db x order states offs compact mat temps ∧
      (sample C D p S s).schema = db ∧
      copyAllSeq cur D.world D.dialect (readTable C D r x offs compact p temps) order (states.reverse ++ [S]) s Q =
        (((sample C D p S s).hist, (sample C D p S s).writes, (sample C D p S s).err), (sampleSeq C D p S s cur Q).2) := by
  rw [← sampleSeq_fst cur Q]
  unfold sampleSeq
  cases h1 : startRun C D p with
  | error e => exact .inl ⟨rfl, _, rfl⟩
  | ok r =>
    dsimp only
    cases h2 : createStep C D r with
    | error e => exact .inl ⟨rfl, _, rfl⟩
    | ok dx =>
      obtain ⟨db, x⟩ := dx
      dsimp only
      cases h3 : insertOrder x with
      | error e => exact .inl ⟨rfl, _, rfl⟩
      | ok order =>
        dsimp only
        cases h4 : truncateStep C x S with
        | error e => exact .inl ⟨rfl, _, rfl⟩
        | ok states =>
          dsimp only
          cases h5 : prepareStep C r.tables x ((states.reverse ++ [S]).head?.getD S) p with
          | error e => exact .inl ⟨rfl, _, rfl⟩
          | ok offs =>
            dsimp only
            cases h6 : getCompactColumns r.tables p.passthrough C.compact with
            | error e => exact .inl ⟨rfl, _, rfl⟩
            | ok compact =>
              dsimp only
              cases h7 : materializationOrder r.tables compact p with
              | error e => exact .inl ⟨rfl, _, rfl⟩
              | ok mat =>
                dsimp only
                cases h8 : materialize D.engine r.tables D.src D.reopen p mat [] with
                | error e => exact .inl ⟨rfl, _, rfl⟩
                | ok temps =>
                  dsimp only
                  exact .inr ⟨r, db, x, order, states, offs, compact, mat, temps, ⟨h1, h2, h3, h4, h5, h6, h7, h8⟩, rfl, rfl⟩

theorem read_auto {r : Started} {x : DestMeta} {offs : Dict Key (Dict Str Int)} {compact : Dict Key (List Str)} {temps : Temps}
    {n : Str} {j : TableJob} (h : readTable C D r x offs compact p temps n = .ok (some j)) :
    ∃ td, dget x.tables j.key = some td ∧
      j.input.autoincrement = if D.dialect = .postgresql then td.autoincrement else none := by
  unfold readTable tableJob at h
  repeat' split at h
  all_goals first
    | cases h; done
    | skip
  all_goals
    rename_i hj
    repeat' split at hj
    all_goals first
      | cases hj; done
      | cases hj; cases h; exact ⟨_, by assumption, by simp_all⟩

/-- What a successful run does to a table and its sequence. -/
theorem sampleSeq_table (hok : RunOK C D p) {cur : Key → Option Int} {Q : Key → Sequence} (herr : (sample C D p S s).err = none)
    (hpg : D.dialect = .postgresql) {n : Str} {k kd : Key} {t td : TableMeta}
    (hc : Copied C D p (sample C D p S s).schema n k kd t td) {c : Str} (hauto : td.autoincrement = some c) :
    ∃ order B Smp ids T mult compact offs ch rows bs m,
      Copying C D p S (sample C D p S s).schema order B Smp ids T mult compact offs ∧
      Sent C D p T mult compact offs Smp ids n k kd t td ch rows bs.flatten ∧
      Commits (flushBuffer D.dialect (strategyFor C p n) (target D kd td) (writtenColumns ch (target D kd td))) (B kd) bs
        ((sample C D p S s).final kd) ∧
      (∀ i, firstIndex c (writtenColumns ch (target D kd td)) = some i → AutoInv i m bs.flatten) ∧
      (sampleSeq C D p S s cur Q).2 kd = autoincrementUpdate (cur kd) (autoValue m) (Q kd) := by
  rcases sampleSeq_cases C D p S s cur Q with ⟨-, e, he⟩ | ⟨r, db, x, order, states, offs, compact, mat, temps, hst, hsch, hcopy⟩
  · rw [herr] at he; cases he
  · rw [hsch] at hc ⊢
    obtain ⟨B, rest, Smp, ids, hB, hcp, hinj, hsent, -⟩ := hst.copying hok
    rw [hB] at hcopy
    obtain ⟨X, rest', done, todo, k1, k2, k3, k4, -, -⟩ := copyAllSeq_spec hcp.nodup hinj hcopy
    have htodo := k3.1 herr
    rw [htodo, List.append_nil] at k2
    have hn : n ∈ order := (hcp.all n).2 ⟨k, kd, t, td, hc⟩
    have hfin : (sample C D p S s).final = X := by
      unfold RunResult.final
      rw [k1]
      rfl
    cases h3 : readTable C D r x offs compact p temps n with
    | error e =>
      exfalso
      rw [herr] at hcopy
      exact copyAllSeq_read hcopy n hn e h3
    | ok oj =>
      cases oj with
      | none => exact absurd h3 (hst.read_some hok hn)
      | some j =>
        obtain ⟨g1, g2, g3, rows, -, g5⟩ := hsent n k kd t td hc j h3
        obtain ⟨o, s1, s2, bs, m, e1, e2, e3, e4, e5⟩ := k4 n (by rw [← k2]; exact hn) j h3
        obtain ⟨f1, -, f3⟩ := g5 o _ s1 s2 _ _ e1 (List.prefix_refl _) e2 (List.prefix_refl _)
        obtain ⟨td', d1, d2⟩ := read_auto h3
        rw [g1] at d1
        have htd := schema_get (prepared_run hok hst.start hst.create) hc.schema d1
        subst htd
        rw [if_pos hpg, hauto] at d2
        rw [d2, if_pos (by rfl), g1] at e5
        refine ⟨order, B, Smp, ids, _, _, _, _, _, rows, bs, m, hcp, f3, ?_, fun i hi => e4 i ?_, e5⟩
        · rw [g1, g2, g3, f1] at e3
          rw [hfin]
          exact e3
        · rw [(outPlan_ok e1).2.2.2.2.2.1, d2, f1]
          exact hi

theorem update_ahead {i : Nat} {m : Val} {rows : List (List Val)} (h : AutoInv i m rows) {cur : Option Int} {q : Sequence}
    (hq : Given cur q) : ∀ row ∈ rows, ∀ v : Int, row[i]? = some (.int v) → v < (autoincrementUpdate cur (autoValue m) q).next := by
  intro row hr v hv
  obtain ⟨M, rfl, h2⟩ := h.1 row hr v hv
  unfold autoValue autoincrementUpdate
  dsimp only
  cases cur with
  | none => simp only [Sequence.next, if_true]; omega
  | some c =>
    obtain ⟨h7, h8⟩ := hq c rfl
    dsimp only
    split
    · simp only [Sequence.next, h7, if_true]; omega
    · simp only [Sequence.next, if_true]; omega

theorem update_none {i : Nat} {m : Val} {rows : List (List Val)} (h : AutoInv i m rows) {cur : Option Int} {q : Sequence}
    (hrows : ∀ row ∈ rows, ∀ v : Int, row[i]? ≠ some (.int v)) : autoincrementUpdate cur (autoValue m) q = q := by
  have : autoValue m = none := by
    unfold autoValue
    split
    · rename_i v
      obtain ⟨row, h1, h2⟩ := h.2 v rfl
      exact absurd h2 (hrows row h1 v)
    · rfl
  rw [this]
  rfl

theorem update_back {cur : Option Int} {v : Option Int} {q : Sequence} (h : cur = some q.last) :
    q.next ≤ (autoincrementUpdate cur v q).next := by
  subst h
  unfold autoincrementUpdate
  split
  · exact le_refl _
  · dsimp only
    split
    · exact le_refl _
    · simp only [Sequence.next, if_true]; split <;> omega

section
variable {schema : Dict Str TableMeta} {order : List Str} {B : DbState}
  {Smp : Key → List Row} {ids : Key → List Int} {T : Tables} {mult : Dict Str (List Str)}
  {compact : Dict Key (List Str)} {offs : Dict Key (Dict Str Int)}

/-- Keys sent to a merged table are larger than those it held. -/
theorem sent_past (hok : RunOK C D p) (hfo : LookupsFollow C D p)
    (hcp : Copying C D p S schema order B Smp ids T mult compact offs)
    {cfg : PlannerConfig} {T0 : Tables} (hI : Input cfg T0) (hplan : planInternal cfg T0 = .ok p)
    (hall : Compacts C → ∀ n y, dget cfg.targets n = some y → y.all = true → y.amount = none)
    (hpk : PkOK (dbTables D.srcDb) D.src) (hsrc : Compacts C → Intact D.srcDb D.src)
    (hnames : (schema.map Prod.fst).Nodup) {n : Str} {k kd : Key} {t td : TableMeta}
    (hc : Copied C D p schema n k kd t td) (hka : KeysApart C D cfg T0 p S schema n k kd t td)
    (htr : C.truncate ≠ true) (hpast : Past C D p S schema n k kd t td) {c : Str} (hkey : td.primaryKey = [c]) {ch : Chain Val}
    {rows : List Row} {outs : List (List Val)} (h : Sent C D p T mult compact offs Smp ids n k kd t td ch rows outs)
    {b : List Val} (hb : b ∈ outs) {q : Row} (hq : q ∈ B kd) {w : Int} (hw : q.get c = .int w) :
    ∃ v : Int, valueOf (writtenColumns ch (target D kd td)) b c = some (.int v) ∧ w < v := by
  have hlook : ∀ c d dc, PointsTo T compact k c d dc → ¬ IsCompacted compact k c → UniqueIn (Smp d) dc :=
    fun c d dc h _ => lookups_unique hok hfo hcp hI hplan hpk hc h
  have hplanned : ∃ q, Planned p k q := by
    obtain ⟨⟨m, q⟩, g1, g2⟩ := List.mem_map.1 hc.planned
    dsimp only at g2
    exact ⟨q, m, g1, by rw [g2]; exact hc.name⟩
  obtain ⟨-, -, hval⟩ := sent_copy hcp (hok.srcColumns n t hc.source) hlook h
  have hpos := timesWritten_pos C p n
  obtain ⟨i, hi⟩ := List.getElem?_of_mem hb
  obtain ⟨r, row, id, h1, h2, h3, h4⟩ := hval (i / timesWritten C p n) (i % timesWritten C p n) b (Nat.mod_lt _ hpos)
    (by rw [Nat.div_add_mod']; exact hi)
  have hBS : ∀ k', B k' = S k' := fun k' => hcp.begins.kept k' fun g => absurd g htr
  obtain ⟨hmg, hp, hst0, c', hcc, hnat, hor, hcov⟩ := hpast
  have e : c' = c := by
    have := (hka.same c').2 hcc
    rw [hkey] at this
    exact List.mem_singleton.1 this
  subst e
  have hx : ∃ x : Int, 0 ≤ x ∧ row.get c' = .int x := by
    rcases key_column hok hfo hcp hI hplan hall hpk hsrc hc hka hcc with g | ⟨d, dc, g⟩ | g
    · refine ⟨id, ?_, g r id row h2 h3⟩
      have := (((hcp.ids k).2.2 id).1 (List.of_mem_zip h2).1).1
      omega
    · obtain ⟨j, m, g1, -, g3⟩ := g r id row h2 h3
      refine ⟨j, ?_, g3⟩
      have := (((hcp.ids d).2.2 j).1 (List.of_mem_zip g1).1).1
      omega
    · rw [g r id row h2 h3]
      exact hnat r (c07_sample_from_source hI hplan hpk hcp.sample hplanned _ (List.of_mem_zip h2).2)
  obtain ⟨x, hx0, hx⟩ := hx
  obtain ⟨y, hy0, hy⟩ : ∃ y : Int, 0 ≤ y ∧ outVal ((dget mult n).getD []) (timesWritten C p n)
      ((i % timesWritten C p n : Nat) : Int) ((dget offs kd).getD []) c' (.int x) =
        .int (y + (dget ((dget offs kd).getD []) c').getD 0) := by
    unfold outVal
    split
    · refine ⟨x * (timesWritten C p n) + ((i % timesWritten C p n : Nat) : Int), ?_, rfl⟩
      have := Int.mul_nonneg hx0 (Int.natCast_nonneg (timesWritten C p n))
      omega
    · exact ⟨x, hx0, rfl⟩
  obtain ⟨o, ho, hlt⟩ := below_offset hok hfo hcp hc hnames hmg hp hor (fun kb d hkp r hr hn => by
    rw [hBS] at hr ⊢
    exact hcov kb d hkp r hr hn) hq hw
  refine ⟨_, (h4 c' (hka.kept c' hcc)).trans (by rw [hx, hy]), ?_⟩
  rw [ho]
  simp only [Option.getD_some]
  omega

end
end Subsetter
