import Verif.Proofs.RunSource
import Verif.Proofs.Insert

/- The steps of a run, and what copying leaves in each table. -/
namespace Subsetter
open Spec Props

variable {σ : Type} {C : RunConfig} {D : Setting σ} {p : Plan} {S : DbState} {s : σ}

/-! ### The steps -/

/-- Everything before copying succeeded. -/
structure Steps (C : RunConfig) (D : Setting σ) (p : Plan) (S : DbState) (r : Started) (db : Dict Str TableMeta)
    (x : DestMeta) (order : List Str) (states : List DbState) (offs : Dict Key (Dict Str Int))
    (compact : Dict Key (List Str)) (mat : List (Key × Nat)) (temps : Temps) : Prop where
  start : startRun C D p = .ok r
  create : createStep C D r = .ok (db, x)
  order : insertOrder x = .ok order
  truncate : truncateStep C x S = .ok states
  prepare : prepareStep C r.tables x ((states.reverse ++ [S]).head?.getD S) p = .ok offs
  compacted : getCompactColumns r.tables p.passthrough C.compact = .ok compact
  ordered : materializationOrder r.tables compact p = .ok mat
  materialized : materialize D.engine r.tables D.src D.reopen p mat [] = .ok temps

/-- A run fails before any row is changed, fails after truncating, or copies. -/
theorem sample_cases (C : RunConfig) (D : Setting σ) (p : Plan) (S : DbState) (s : σ) :
    ((sample C D p S s).writes = [] ∧ (sample C D p S s).hist = [S] ∧ (∃ e, (sample C D p S s).err = some e) ∧
      ((sample C D p S s).schema = D.dstDb ∨
        ∃ r x, startRun C D p = .ok r ∧ createStep C D r = .ok ((sample C D p S s).schema, x))) ∨
    (∃ r db x order states, startRun C D p = .ok r ∧ createStep C D r = .ok (db, x) ∧ insertOrder x = .ok order ∧
      truncateStep C x S = .ok states ∧ (sample C D p S s).schema = db ∧ (sample C D p S s).writes = [] ∧
      (sample C D p S s).hist = states.reverse ++ [S] ∧ ∃ e, (sample C D p S s).err = some e ∧
        ((∃ e', e = .dest e' ∧ prepareStep C r.tables x ((states.reverse ++ [S]).head?.getD S) p = .error e') ∨
          (∃ e', e = .compact e') ∨ ∃ e', e = .exec e')) ∨
    ∃ r db x order states offs compact mat temps, Steps C D p S r db x order states offs compact mat temps ∧
      (sample C D p S s).schema = db ∧
      copyAll D.world D.dialect (readTable C D r x offs compact p temps) order (states.reverse ++ [S]) s =
        ((sample C D p S s).hist, (sample C D p S s).writes, (sample C D p S s).err) := by
  cases h1 : startRun C D p with
  | error e =>
    have e0 : sample C D p S s = ⟨D.dstDb, [S], [], some e⟩ := by simp only [sample, h1]
    rw [e0]
    exact .inl ⟨rfl, rfl, ⟨_, rfl⟩, .inl rfl⟩
  | ok r =>
    cases h2 : createStep C D r with
    | error e =>
      have e0 : sample C D p S s = ⟨D.dstDb, [S], [], some (.dest e)⟩ := by simp only [sample, h1, h2]
      rw [e0]
      exact .inl ⟨rfl, rfl, ⟨_, rfl⟩, .inl rfl⟩
    | ok dx =>
      obtain ⟨db, x⟩ := dx
      cases h3 : insertOrder x with
      | error e =>
        have e0 : sample C D p S s = ⟨db, [S], [], some (.dest e)⟩ := by simp only [sample, h1, h2, h3]
        rw [e0]
        exact .inl ⟨rfl, rfl, ⟨_, rfl⟩, .inr ⟨r, x, rfl, h2⟩⟩
      | ok order =>
        cases h4 : truncateStep C x S with
        | error e =>
          have e0 : sample C D p S s = ⟨db, [S], [], some (.dest e)⟩ := by simp only [sample, h1, h2, h3, h4]
          rw [e0]
          exact .inl ⟨rfl, rfl, ⟨_, rfl⟩, .inr ⟨r, x, rfl, h2⟩⟩
        | ok states =>
          right
          cases h5 : prepareStep C r.tables x ((states.reverse ++ [S]).head?.getD S) p with
          | error e =>
            have e0 : sample C D p S s = ⟨db, states.reverse ++ [S], [], some (.dest e)⟩ := by
              simp only [sample, h1, h2, h3, h4, h5]
            rw [e0]
            exact .inl ⟨r, db, x, order, states, rfl, h2, h3, h4, rfl, rfl, rfl, _, rfl, .inl ⟨_, rfl, h5⟩⟩
          | ok offs =>
            cases h6 : getCompactColumns r.tables p.passthrough C.compact with
            | error e =>
              have e0 : sample C D p S s = ⟨db, states.reverse ++ [S], [], some (.compact e)⟩ := by
                simp only [sample, h1, h2, h3, h4, h5, h6]
              rw [e0]
              exact .inl ⟨r, db, x, order, states, rfl, h2, h3, h4, rfl, rfl, rfl, _, rfl, .inr (.inl ⟨_, rfl⟩)⟩
            | ok compact =>
              cases h7 : materializationOrder r.tables compact p with
              | error e =>
                have e0 : sample C D p S s = ⟨db, states.reverse ++ [S], [], some (.exec e)⟩ := by
                  simp only [sample, h1, h2, h3, h4, h5, h6, h7]
                rw [e0]
                exact .inl ⟨r, db, x, order, states, rfl, h2, h3, h4, rfl, rfl, rfl, _, rfl, .inr (.inr ⟨_, rfl⟩)⟩
              | ok mat =>
                cases h8 : materialize D.engine r.tables D.src D.reopen p mat [] with
                | error e =>
                  have e0 : sample C D p S s = ⟨db, states.reverse ++ [S], [], some (.exec e)⟩ := by
                    simp only [sample, h1, h2, h3, h4, h5, h6, h7, h8]
                  rw [e0]
                  exact .inl ⟨r, db, x, order, states, rfl, h2, h3, h4, rfl, rfl, rfl, _, rfl, .inr (.inr ⟨_, rfl⟩)⟩
                | ok temps =>
                  refine .inr ⟨r, db, x, order, states, offs, compact, mat, temps,
                    ⟨h1, h2, h3, h4, h5, h6, h7, h8⟩, ?_, ?_⟩
                  · simp only [sample, h1, h2, h3, h4, h5, h6, h7, h8]
                  · simp only [sample, h1, h2, h3, h4, h5, h6, h7, h8]

theorem prepared_of_step {r : Started} {db : Dict Str TableMeta} {x : DestMeta} (h : startRun C D p = .ok r)
    (h2 : createStep C D r = .ok (db, x)) :
    Prepared D.fnmatch C.remap (dkeys p.queries) r.raw D.dstDb C.create db x := by
  obtain ⟨l, -, -, -, -, -, h3⟩ := startRun_ok h
  unfold createStep at h2
  cases hc : C.create with
  | false =>
    rw [hc] at h2
    cases h2
    exact .plain h3
  | true =>
    rw [hc, if_pos rfl] at h2
    cases h4 : createdTables r.raw r.dest with
    | error e => rw [h4] at h2; cases h2
    | ok ts =>
      rw [h4] at h2
      cases h2
      exact .created h3 h4 (D.setOrder_perm ts)

/-! ### Reading and writing in turn -/

/-- The jobs read for some tables. -/
inductive Reads (read : Str → Except RunErr (Option TableJob)) : List Str → List TableJob → Prop
  | nil : Reads read [] []
  | skip {n : Str} {ns : List Str} {js : List TableJob} : read n = .ok none → Reads read ns js → Reads read (n :: ns) js
  | cons {n : Str} {j : TableJob} {ns : List Str} {js : List TableJob} : read n = .ok (some j) → Reads read ns js →
    Reads read (n :: ns) (j :: js)

theorem copyAll_jobs {W : Outside σ Val} {dialect : Dialect} {read : Str → Except RunErr (Option TableJob)} :
    ∀ {names : List Str} {hist hist' : List DbState} {s : σ} {writes : Writes} {err : Option RunErr},
    copyAll W dialect read names hist s = (hist', writes, err) →
    ∃ done rest jobs err', names = done ++ rest ∧ Reads read done jobs ∧
      copyTables W dialect jobs hist s = (hist', writes, err') ∧
      ((err' = none ∧ ((err = none ∧ rest = []) ∨ ∃ n rest' e, rest = n :: rest' ∧ read n = .error e ∧ err = some e)) ∨
        ∃ e, err' = some e ∧ err = some (.dest e))
  | [], hist, hist', s, writes, err, h => by
    cases h
    exact ⟨[], [], [], none, rfl, .nil, rfl, .inl ⟨rfl, .inl ⟨rfl, rfl⟩⟩⟩
  | n :: ns, hist, hist', s, writes, err, h => by
    unfold copyAll at h
    cases h1 : read n with
    | error e =>
      rw [h1] at h; cases h
      exact ⟨[], n :: ns, [], none, rfl, .nil, rfl, .inl ⟨rfl, .inr ⟨n, ns, e, rfl, h1, rfl⟩⟩⟩
    | ok o =>
      rw [h1] at h
      cases o with
      | none =>
        obtain ⟨done, rest, jobs, err', g1, g2, g3, g4⟩ := copyAll_jobs h
        exact ⟨n :: done, rest, jobs, err', by rw [g1]; rfl, .skip h1 g2, g3, g4⟩
      | some j =>
        dsimp only at h
        cases h2 : outPlan j.input with
        | error e =>
          rw [h2] at h; cases h
          exact ⟨[n], ns, [j], some (.output e), rfl, .cons h1 .nil, by simp only [copyTables, h2],
            .inr ⟨_, rfl, rfl⟩⟩
        | ok o =>
          rw [h2] at h; dsimp only at h
          cases h3 : writeAll W (flushTo dialect j.strategy j.key j.input.dest o.colsOut) o j.rows hist s with
          | error q =>
            obtain ⟨st, e⟩ := q
            rw [h3] at h; cases h
            exact ⟨[n], ns, [j], some (.output e), rfl, .cons h1 .nil, by simp only [copyTables, h2, h3],
              .inr ⟨_, rfl, rfl⟩⟩
          | ok st =>
            rw [h3] at h; dsimp only at h
            cases h4 : copyAll W dialect read ns st.dest st.world with
            | mk hist2 q =>
              obtain ⟨writes2, err2⟩ := q
              rw [h4] at h; cases h
              obtain ⟨done, rest, jobs, err', g1, g2, g3, g4⟩ := copyAll_jobs h4
              exact ⟨n :: done, rest, j :: jobs, err', by rw [g1]; rfl, .cons h1 g2,
                by simp only [copyTables, h2, h3, g3], g4⟩

theorem commits_flushTo {dialect : Dialect} {st : Strategy} {k : Key} {d : DestTable} {cols : List Str} :
    ∀ {bs : List (List (List Val))} {S : DbState} {hist hist' : List DbState},
    Commits (flushTo dialect st k d cols) (S :: hist) bs hist' →
    ∃ rows rest, hist' = S.set k rows :: rest ∧ Commits (flushBuffer dialect st d cols) (S k) bs rows
  | [], S, hist, hist', h => by
    cases h
    refine ⟨S k, hist, ?_, .nil _⟩
    congr 1
    funext k'
    by_cases e : k' = k
    · subst e; rw [set_self]
    · rw [set_ne e]
  | b :: bs, S, hist, hist', h => by
    cases h with
    | cons h1 h2 =>
      unfold flushTo at h1
      dsimp only at h1
      cases h3 : flushBuffer dialect st d cols b (S k) with
      | error e => rw [h3] at h1; cases h1
      | ok rows =>
        rw [h3] at h1; cases h1
        obtain ⟨rows', rest, g1, g2⟩ := commits_flushTo h2
        rw [set_self] at g2
        refine ⟨rows', rest, ?_, .cons h3 g2⟩
        rw [g1]
        congr 1
        funext k'
        by_cases e : k' = k
        · subst e; rw [set_self, set_self]
        · rw [set_ne e, set_ne e, set_ne e]

/-- All rows of a job have been written. -/
def Filled (W : Outside σ Val) (dialect : Dialect) (j : TableJob) (a b : List Row) : Prop :=
  ∃ o s s' bs, outPlan j.input = .ok o ∧ Run W o (copies o.multiplier j.rows) s bs.flatten s' ∧
    Batches (o.buffer + 1) bs ∧ Commits (flushBuffer dialect j.strategy j.input.dest o.colsOut) a bs b

/-- Some batches of a job have been written. -/
def Begun (W : Outside σ Val) (dialect : Dialect) (j : TableJob) (a b : List Row) : Prop :=
  b = a ∨ ∃ o s s' bs pre outs, outPlan j.input = .ok o ∧ pre <+: copies o.multiplier j.rows ∧
    Run W o pre s outs s' ∧ bs.flatten <+: outs ∧ (∀ b ∈ bs, b.length = o.buffer + 1) ∧
    Commits (flushBuffer dialect j.strategy j.input.dest o.colsOut) a bs b

/-- Contents at some time of copying. -/
structure Content (W : Outside σ Val) (dialect : Dialect) (read : Str → Except RunErr (Option TableJob))
    (names : List Str) (S X : DbState) (done todo : List Str) : Prop where
  names_eq : names = done ++ todo
  filled : ∀ n ∈ done, read n = .ok none ∨ ∃ j, read n = .ok (some j) ∧ Filled W dialect j (S j.key) (X j.key)
  begun : ∀ n, todo.head? = some n → ∀ j, read n = .ok (some j) → Begun W dialect j (S j.key) (X j.key)
  other : ∀ k, (∀ n, (n ∈ done ∨ todo.head? = some n) → ∀ j, read n = .ok (some j) → j.key ≠ k) → X k = S k

theorem Content.start {W : Outside σ Val} {dialect : Dialect} {read : Str → Except RunErr (Option TableJob)}
    {names : List Str} {S : DbState} : Content W dialect read names S S [] names :=
  ⟨rfl, by simp, fun _ _ _ _ => .inl rfl, fun _ _ => rfl⟩

theorem Content.skip {W : Outside σ Val} {dialect : Dialect} {read : Str → Except RunErr (Option TableJob)}
    {n : Str} {ns : List Str} {S X : DbState} {done todo : List Str} (h : read n = .ok none)
    (g : Content W dialect read ns S X done todo) : Content W dialect read (n :: ns) S X (n :: done) todo := by
  refine ⟨by rw [g.names_eq]; rfl, fun m hm => ?_, g.begun,
    fun k hk => g.other k fun m hm => hk m (hm.imp (fun h => by simp [h]) id)⟩
  rcases List.mem_cons.1 hm with rfl | hm
  · exact .inl h
  · exact g.filled m hm

theorem Content.next {W : Outside σ Val} {dialect : Dialect} {read : Str → Except RunErr (Option TableJob)}
    {n : Str} {ns : List Str} {S X : DbState} {done todo : List Str} {j : TableJob} {rows : List Row}
    (hn : n ∉ ns) (hinj : ∀ m ∈ ns, ∀ j', read m = .ok (some j') → j'.key = j.key → m = n)
    (h1 : read n = .ok (some j)) (hf : Filled W dialect j (S j.key) rows)
    (k2 : Content W dialect read ns (S.set j.key rows) X done todo) :
    Content W dialect read (n :: ns) S X (n :: done) todo := by
  have hne : ∀ m, (m ∈ done ∨ todo.head? = some m) → ∀ j', read m = .ok (some j') → j'.key ≠ j.key := by
    intro m hm j' hj' e
    have hm' : m ∈ ns := by
      rw [k2.names_eq]
      rcases hm with hm | hm
      · exact List.mem_append_left _ hm
      · exact List.mem_append_right _ (List.mem_of_mem_head? hm)
    exact hn (hinj m hm' j' hj' e ▸ hm')
  refine ⟨by rw [k2.names_eq]; rfl, fun m hm => ?_, fun m hm j' hj' => ?_, fun k hk => ?_⟩
  · rcases List.mem_cons.1 hm with rfl | hm
    · right
      refine ⟨j, h1, ?_⟩
      have hX : X j.key = rows := by rw [k2.other j.key hne, set_self]
      rw [hX]
      exact hf
    · rcases k2.filled m hm with h5 | ⟨j', h5, h6⟩
      · exact .inl h5
      · rw [set_ne (hne m (.inl hm) j' h5)] at h6
        exact .inr ⟨j', h5, h6⟩
  · have := k2.begun m hm j' hj'
    rwa [set_ne (hne m (.inr hm) j' hj')] at this
  · rw [k2.other k fun m hm => hk m (hm.imp (fun h => by simp [h]) id),
      set_ne (Ne.symm (hk n (.inl (by simp)) j h1))]

theorem Content.within {W : Outside σ Val} {dialect : Dialect} {read : Str → Except RunErr (Option TableJob)}
    {n : Str} {ns : List Str} {S : DbState} {j : TableJob} {rows : List Row}
    (h1 : read n = .ok (some j)) (hf : Begun W dialect j (S j.key) rows) :
    Content W dialect read (n :: ns) S (S.set j.key rows) [] (n :: ns) := by
  refine ⟨rfl, by simp, ?_, ?_⟩
  · intro m hm j' hj
    simp only [List.head?_cons, Option.some.injEq] at hm
    subst hm
    rw [h1] at hj; cases hj
    rw [set_self]
    exact hf
  · intro k hk
    exact set_ne (Ne.symm (hk n (.inr rfl) j h1))

theorem commits_history {dialect : Dialect} {st : Strategy} {k : Key} {d : DestTable} {cols : List Str} :
    ∀ {bs : List (List (List Val))} {S : DbState} {hist hist' : List DbState},
    Commits (flushTo dialect st k d cols) (S :: hist) bs hist' →
    ∀ X ∈ hist', X ∈ hist ∨ ∃ bs1 rows, bs1 <+: bs ∧ X = S.set k rows ∧
      Commits (flushBuffer dialect st d cols) (S k) bs1 rows
  | [], S, hist, hist', h, X, hX => by
    cases h
    rcases List.mem_cons.1 hX with rfl | hX
    · refine .inr ⟨[], X k, List.prefix_refl _, ?_, .nil _⟩
      funext k'
      by_cases e : k' = k
      · subst e; rw [set_self]
      · rw [set_ne e]
    · exact .inl hX
  | b :: bs, S, hist, hist', h, X, hX => by
    cases h with
    | cons h1 h2 =>
      unfold flushTo at h1
      dsimp only at h1
      cases h3 : flushBuffer dialect st d cols b (S k) with
      | error e => rw [h3] at h1; cases h1
      | ok rows =>
        rw [h3] at h1; cases h1
        rcases commits_history h2 X hX with g | ⟨bs1, rows', g1, g2, g3⟩
        · rcases List.mem_cons.1 g with rfl | g
          · refine .inr ⟨[], X k, by simp, ?_, .nil _⟩
            funext k'
            by_cases e : k' = k
            · subst e; rw [set_self]
            · rw [set_ne e]
          · exact .inl g
        · rw [set_self] at g3
          refine .inr ⟨b :: bs1, rows', (List.cons_prefix_cons.2 ⟨rfl, g1⟩), ?_, .cons h3 g3⟩
          rw [g2]
          funext k'
          by_cases e : k' = k
          · subst e; rw [set_self, set_self]
          · rw [set_ne e, set_ne e, set_ne e]

theorem batches_prefix {α : Type} {m : Nat} {bs bs1 : List (List α)} (h : Batches m bs) (hp : bs1 <+: bs)
    (hne : bs1 ≠ bs) : ∀ b ∈ bs1, b.length = m := by
  obtain ⟨tl, rfl⟩ := hp
  have htl : tl ≠ [] := by rintro rfl; simp at hne
  intro b hb
  refine h.2 b ?_
  rw [List.dropLast_append_of_ne_nil htl]
  exact List.mem_append_left _ hb

/-- Every state committed while copying is the contents at some time. -/
theorem copyAll_history {W : Outside σ Val} {dialect : Dialect} {read : Str → Except RunErr (Option TableJob)} :
    ∀ {names : List Str} {S : DbState} {hist hist' : List DbState} {s : σ} {writes : Writes} {err : Option RunErr},
    names.Nodup → (∀ n ∈ names, ∀ n' ∈ names, ∀ j j', read n = .ok (some j) → read n' = .ok (some j') →
      j.key = j'.key → n = n') →
    copyAll W dialect read names (S :: hist) s = (hist', writes, err) →
    ∀ X ∈ hist', X ∈ hist ∨ ∃ done todo, Content W dialect read names S X done todo
  | [], S, hist, hist', s, writes, err, _, _, h, X, hX => by
    cases h
    rcases List.mem_cons.1 hX with rfl | hX
    · exact .inr ⟨_, _, .start⟩
    · exact .inl hX
  | n :: ns, S, hist, hist', s, writes, err, hnd, hinj, h, X, hX => by
    unfold copyAll at h
    rw [List.nodup_cons] at hnd
    have hinj' : ∀ m ∈ ns, ∀ m' ∈ ns, ∀ j j', read m = .ok (some j) → read m' = .ok (some j') →
        j.key = j'.key → m = m' := fun m hm m' hm' => hinj m (by simp [hm]) m' (by simp [hm'])
    have hstart : X ∈ S :: hist → X ∈ hist ∨ ∃ done todo, Content W dialect read (n :: ns) S X done todo := by
      intro hX
      rcases List.mem_cons.1 hX with rfl | hX
      · exact .inr ⟨_, _, .start⟩
      · exact .inl hX
    cases h1 : read n with
    | error e =>
      rw [h1] at h; cases h
      exact hstart hX
    | ok o =>
      rw [h1] at h
      cases o with
      | none =>
        rcases copyAll_history hnd.2 hinj' h X hX with g | ⟨done, todo, g⟩
        · exact .inl g
        · exact .inr ⟨_, _, g.skip h1⟩
      | some j =>
        dsimp only at h
        cases h2 : outPlan j.input with
        | error e =>
          rw [h2] at h; cases h
          exact hstart hX
        | ok o =>
          rw [h2] at h; dsimp only at h
          cases h3 : writeAll W (flushTo dialect j.strategy j.key j.input.dest o.colsOut) o j.rows (S :: hist) s with
          | error q =>
            obtain ⟨st, e⟩ := q
            rw [h3] at h; cases h
            obtain ⟨pre, outs, f1, f2, f3, f4, f5⟩ := writeAll_error h3
            rcases commits_history f5 X hX with g | ⟨bs1, rows, g1, rfl, g3⟩
            · exact .inl g
            · have hfl : bs1.flatten <+: outs := by
                obtain ⟨tl, e⟩ := g1
                refine List.IsPrefix.trans ⟨tl.flatten, ?_⟩ f3
                rw [← List.flatten_append, e]
              exact .inr ⟨_, _, .within h1 (.inr ⟨o, s, st.world, bs1, pre, outs, h2, f1, f2, hfl,
                fun b hb => f4 b (g1.subset hb), g3⟩)⟩
          | ok st =>
            rw [h3] at h; dsimp only at h
            obtain ⟨outs, f1, rfl, f3, f4, -⟩ := writeAll_ok h3
            obtain ⟨rows, rest, g1, g2⟩ := commits_flushTo f4
            have hfill : Filled W dialect j (S j.key) rows := ⟨o, s, st.world, st.written, h2, f1, f3, g2⟩
            have hinj1 : ∀ m ∈ ns, ∀ j', read m = .ok (some j') → j'.key = j.key → m = n :=
              fun m hm j' hj' e => hinj m (by simp [hm]) n (by simp) j' j hj' h1 e
            cases h4 : copyAll W dialect read ns st.dest st.world with
            | mk hist2 q =>
              obtain ⟨writes2, err2⟩ := q
              rw [h4] at h; cases h
              rw [g1] at h4
              rcases copyAll_history hnd.2 hinj' h4 X hX with k1 | ⟨done, todo, k1⟩
              · rcases commits_history f4 X (by rw [g1]; simp [k1]) with g | ⟨bs1, rows', e1, rfl, e3⟩
                · exact .inl g
                · right
                  by_cases hb : bs1 = st.written
                  · subst hb
                    exact ⟨_, _, Content.next hnd.1 hinj1 h1 ⟨o, s, st.world, st.written, h2, f1, f3, e3⟩ .start⟩
                  · refine ⟨_, _, .within h1 (.inr ⟨o, s, st.world, bs1, _, _, h2, List.prefix_refl _, f1, ?_,
                      batches_prefix f3 e1 hb, e3⟩)⟩
                    obtain ⟨tl, e⟩ := e1
                    exact ⟨tl.flatten, by rw [← List.flatten_append, e]⟩
              · exact .inr ⟨_, _, k1.next hnd.1 hinj1 h1 hfill⟩

theorem copyAll_content {W : Outside σ Val} {dialect : Dialect} {read : Str → Except RunErr (Option TableJob)} :
    ∀ {names : List Str} {S : DbState} {hist hist' : List DbState} {s : σ} {writes : Writes} {err : Option RunErr},
    names.Nodup → (∀ n ∈ names, ∀ n' ∈ names, ∀ j j', read n = .ok (some j) → read n' = .ok (some j') →
      j.key = j'.key → n = n') →
    copyAll W dialect read names (S :: hist) s = (hist', writes, err) →
    ∃ X rest done todo, hist' = X :: rest ∧ Content W dialect read names S X done todo ∧ (err = none ↔ todo = [])
  | [], S, hist, hist', s, writes, err, _, _, h => by
    cases h
    exact ⟨S, hist, [], [], rfl, .start, by simp⟩
  | n :: ns, S, hist, hist', s, writes, err, hnd, hinj, h => by
    unfold copyAll at h
    rw [List.nodup_cons] at hnd
    have hinj' : ∀ m ∈ ns, ∀ m' ∈ ns, ∀ j j', read m = .ok (some j) → read m' = .ok (some j') →
        j.key = j'.key → m = m' := fun m hm m' hm' => hinj m (by simp [hm]) m' (by simp [hm'])
    cases h1 : read n with
    | error e =>
      rw [h1] at h; cases h
      exact ⟨S, hist, [], n :: ns, rfl, .start, by simp⟩
    | ok o =>
      rw [h1] at h
      cases o with
      | none =>
        obtain ⟨X, rest, done, todo, g1, g2, g3⟩ := copyAll_content hnd.2 hinj' h
        exact ⟨X, rest, n :: done, todo, g1, g2.skip h1, g3⟩
      | some j =>
        dsimp only at h
        cases h2 : outPlan j.input with
        | error e =>
          rw [h2] at h; cases h
          exact ⟨S, hist, [], n :: ns, rfl, .start, by simp⟩
        | ok o =>
          rw [h2] at h; dsimp only at h
          cases h3 : writeAll W (flushTo dialect j.strategy j.key j.input.dest o.colsOut) o j.rows (S :: hist) s with
          | error q =>
            obtain ⟨st, e⟩ := q
            rw [h3] at h; cases h
            obtain ⟨pre, outs, f1, f2, f3, f4, f5⟩ := writeAll_error h3
            obtain ⟨rows, rest, g1, g2⟩ := commits_flushTo f5
            exact ⟨_, rest, [], n :: ns, g1, .within h1 (.inr ⟨o, s, st.world, st.written, pre, outs, h2, f1, f2, f3, f4, g2⟩),
              by simp⟩
          | ok st =>
            rw [h3] at h; dsimp only at h
            obtain ⟨outs, f1, rfl, f3, f4, -⟩ := writeAll_ok h3
            obtain ⟨rows, rest, g1, g2⟩ := commits_flushTo f4
            cases h4 : copyAll W dialect read ns st.dest st.world with
            | mk hist2 q =>
              obtain ⟨writes2, err2⟩ := q
              rw [h4] at h; cases h
              rw [g1] at h4
              obtain ⟨X, rest', done, todo, k1, k2, k3⟩ := copyAll_content hnd.2 hinj' h4
              exact ⟨X, rest', n :: done, todo, k1, k2.next hnd.1
                (fun m hm j' hj' e => hinj m (by simp [hm]) n (by simp) j' j hj' h1 e) h1
                ⟨o, s, st.world, st.written, h2, f1, f3, g2⟩, k3⟩

end Subsetter
