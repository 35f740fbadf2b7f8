import Verif.Spec.Repeat
import Verif.Proofs.Fresh
import Verif.Props.RunSequences
import Verif.Props.Conflict
import Verif.Model.RunDirectory
import Verif.Spec.RunDirectory

/- Lemmas for C98. -/
namespace Subsetter
open Spec Props

variable {σ : Type} {C : RunConfig} {D : Setting σ} {p : Plan}

/-! ### Lists of insertions -/

/-- How rows are inserted into a table. -/
abbrev How := Key → Strategy × DestTable × List Str

/-- The contents after the insertions `ops`, latest first. -/
def latest (how : How) (S : DbState) : List (Key × List Row) → DbState
  | [] => S
  | op :: ops => (latest how S ops).set op.1 (op.2.foldl (ins (how op.1).1 (how op.1).2.1 (how op.1).2.2) (latest how S ops op.1))

/-- The contents after each of the insertions. -/
def statesOf (how : How) (S : DbState) : List (Key × List Row) → List DbState
  | [] => [S]
  | op :: ops => latest how S (op :: ops) :: statesOf how S ops

/-- The rows inserted into table `k`. -/
def rowsTo (k : Key) : List (Key × List Row) → List Row
  | [] => []
  | op :: ops => rowsTo k ops ++ if op.1 = k then op.2 else []

theorem statesOf_cons (how : How) (S : DbState) (ops : List (Key × List Row)) :
    ∃ rest, statesOf how S ops = latest how S ops :: rest := by
  cases ops with
  | nil => exact ⟨[], rfl⟩
  | cons op ops => exact ⟨_, rfl⟩

theorem mem_statesOf {how : How} {S X : DbState} : ∀ {ops : List (Key × List Row)}, X ∈ statesOf how S ops →
    ∃ a b, ops = a ++ b ∧ X = latest how S b
  | [], h => ⟨[], [], rfl, by simpa [statesOf, latest] using h⟩
  | op :: ops, h => by
    rcases List.mem_cons.1 h with rfl | h
    · exact ⟨[], op :: ops, rfl, rfl⟩
    · obtain ⟨a, b, rfl, rfl⟩ := mem_statesOf h
      exact ⟨op :: a, b, rfl, rfl⟩

theorem rowsTo_append (k : Key) : ∀ a b : List (Key × List Row), rowsTo k (a ++ b) = rowsTo k b ++ rowsTo k a
  | [], b => by simp [rowsTo]
  | op :: a, b => by
    show rowsTo k (a ++ b) ++ _ = rowsTo k b ++ (rowsTo k a ++ _)
    rw [rowsTo_append k a b, List.append_assoc]

theorem latest_get (how : How) (S : DbState) (k : Key) : ∀ ops : List (Key × List Row),
    latest how S ops k = (rowsTo k ops).foldl (ins (how k).1 (how k).2.1 (how k).2.2) (S k)
  | [] => rfl
  | op :: ops => by
    unfold latest rowsTo
    rw [List.foldl_append, ← latest_get how S k ops]
    unfold DbState.set
    by_cases e : k = op.1
    · subst e
      rw [if_pos rfl, if_pos rfl]
    · rw [if_neg e, if_neg (Ne.symm e)]
      rfl

/-- Each insertion is of complete rows into a table with a primary key; in case of `Q`, rows present are skipped. -/
def Sound (Q : Prop) (how : How) (ops : List (Key × List Row)) : Prop :=
  ∀ op ∈ ops, (how op.1).1 ≠ .error ∧ (how op.1).2.1.pk ≠ [] ∧ (∀ r ∈ op.2, ∃ q, r = fullRow (how op.1).2.1 q) ∧
    (Q → (how op.1).1 = .skip)

theorem rowsTo_sound {Q : Prop} {how : How} {k : Key} : ∀ {ops : List (Key × List Row)}, Sound Q how ops → rowsTo k ops = [] ∨
    ((how k).1 ≠ .error ∧ (how k).2.1.pk ≠ [] ∧ (∀ r ∈ rowsTo k ops, ∃ q, r = fullRow (how k).2.1 q) ∧ (Q → (how k).1 = .skip))
  | [], _ => .inl rfl
  | op :: ops, h => by
    have ih := rowsTo_sound (k := k) (ops := ops) fun o ho => h o (List.mem_cons_of_mem _ ho)
    unfold rowsTo
    by_cases e : op.1 = k
    · subst e
      obtain ⟨h1, h2, h3, h4⟩ := h op List.mem_cons_self
      rw [if_pos rfl]
      refine .inr ⟨h1, h2, fun r hr => ?_, h4⟩
      rcases List.mem_append.1 hr with hr | hr
      · rcases ih with ih | ⟨-, -, ih, -⟩
        · rw [ih] at hr; cases hr
        · exact ih r hr
      · exact h3 r hr
    · rw [if_neg e, List.append_nil]
      exact ih

/-- Some of the insertions followed by all of them. -/
theorem latest_again {Q : Prop} {how : How} {S : DbState} {a b : List (Key × List Row)} (h : Sound Q how (a ++ b)) :
    latest how (latest how S b) (a ++ b) = latest how S (a ++ b) := by
  funext k
  rw [latest_get, latest_get, latest_get, rowsTo_append, List.foldl_append, List.foldl_append]
  rcases rowsTo_sound (k := k) (ops := b) fun o ho => h o (List.mem_append_right _ ho) with e | ⟨h1, h2, h3, -⟩
  · rw [e]; rfl
  · rw [foldl_ins_idem h1 h2 h3]

/-- If rows present are skipped, repeating the first insertions changes nothing. -/
theorem latest_skip {how : How} {S : DbState} {a b : List (Key × List Row)} (h : Sound True how (a ++ b)) :
    latest how (latest how S (a ++ b)) b = latest how S (a ++ b) := by
  funext k
  rw [latest_get how (latest how S (a ++ b)) k b]
  rcases rowsTo_sound (k := k) (ops := b) fun o ho => h o (List.mem_append_right _ ho) with e | ⟨-, h2, -, h4⟩
  · rw [e]; rfl
  · rw [latest_get how S k (a ++ b), h4 trivial, foldl_skip_present h2]
    intro r hr
    refine (mem_foldl_keys h2).2 (.inr (List.mem_map_of_mem ?_))
    rw [rowsTo_append]
    exact List.mem_append_left _ hr

/-- So a repetition goes through the same contents. -/
theorem statesOf_skip {how : How} {S X Y : DbState} {ops : List (Key × List Row)} (h : Sound True how ops)
    (hX : X ∈ statesOf how S ops) (hY : Y ∈ statesOf how X ops) : Y ∈ statesOf how S ops := by
  have hmem : ∀ a b : List (Key × List Row), latest how S b ∈ statesOf how S (a ++ b) := by
    intro a b
    induction a with
    | nil => obtain ⟨rest, e⟩ := statesOf_cons how S b; rw [List.nil_append, e]; exact List.mem_cons_self
    | cons op a ih => exact List.mem_cons_of_mem _ ih
  obtain ⟨a, b, rfl, rfl⟩ := mem_statesOf hX
  obtain ⟨a', b', e, rfl⟩ := mem_statesOf hY
  rcases List.append_eq_append_iff.1 e with ⟨c, rfl, rfl⟩ | ⟨c, rfl, rfl⟩
  · rw [latest_skip (fun o ho => h o (List.mem_append_right _ ho))]
    exact hX
  · rw [latest_again (Q := True) (fun o ho => h o (by rw [e]; exact List.mem_append_right _ ho)), e]
    exact hmem _ _

/-! ### Two runs -/

/-- Two histories made by the same insertions. -/
def Parallel (Q : Prop) (how : How) (S S' : DbState) (h h' : List DbState) : Prop :=
  ∃ ops, h = statesOf how S ops ∧ h' = statesOf how S' ops ∧ Sound Q how ops

theorem copyAll_rel {W : Outside σ Val} {dialect : Dialect} {read : Str → Except RunErr (Option TableJob)}
    {R : List DbState → List DbState → Prop} :
    ∀ (ns : List Str) {h h' : List DbState} (s : σ),
      (∀ n ∈ ns, ∀ j, read n = .ok (some j) → ∀ o, outPlan j.input = .ok o → ∀ b d d', R d d' →
        (∃ e, flushTo dialect j.strategy j.key j.input.dest o.colsOut b d = .error e ∧
          flushTo dialect j.strategy j.key j.input.dest o.colsOut b d' = .error e) ∨
        ∃ x x', flushTo dialect j.strategy j.key j.input.dest o.colsOut b d = .ok x ∧
          flushTo dialect j.strategy j.key j.input.dest o.colsOut b d' = .ok x' ∧ R x x') → R h h' →
      R (copyAll W dialect read ns h s).1 (copyAll W dialect read ns h' s).1 ∧
      (copyAll W dialect read ns h s).2 = (copyAll W dialect read ns h' s).2
  | [], _, _, _, _, hh => ⟨hh, rfl⟩
  | n :: ns, h, h', s, hr, hh => by
    have hr' := fun m hm => hr m (List.mem_cons_of_mem n hm)
    unfold copyAll
    cases hn : read n with
    | error e => exact ⟨hh, rfl⟩
    | ok o =>
      cases o with
      | none => exact copyAll_rel ns s hr' hh
      | some j =>
        dsimp only
        cases ho : outPlan j.input with
        | error e => exact ⟨hh, rfl⟩
        | ok o =>
          dsimp only
          have := writeAll_fresh (W := W) (o := o) (hr n List.mem_cons_self j hn o ho) j.rows s hh
          generalize writeAll W _ o j.rows h s = y at this
          generalize writeAll W _ o j.rows h' s = y' at this
          cases this with
          | error h1 => exact ⟨h1, rfl⟩
          | ok h1 =>
            dsimp only
            obtain ⟨g1, g2⟩ := copyAll_rel ns _ hr' h1
            exact ⟨g1, congrArg (fun y => ((j.key, _) :: y.1, y.2)) g2⟩

/-- Batches are inserted in the same way whatever the contents. -/
theorem flushTo_parallel {Q : Prop} {how : How} {S S' : DbState} {dialect : Dialect} {strategy : Strategy} {k : Key} {d : DestTable}
    {cols : List Str} (h1 : (how k).1 ≠ .error) (h2 : (how k).2.1 = d) (h3 : d.pk ≠ []) (h5 : Q → (how k).1 = .skip)
    (h4 : ∀ b U, flushBuffer dialect strategy d cols b U = .ok ((fullRows d cols b).foldl (ins (how k).1 d (how k).2.2) U))
    (b : List (List Val)) (x x' : List DbState) (h : Parallel Q how S S' x x') :
    ∃ y y', flushTo dialect strategy k d cols b x = .ok y ∧ flushTo dialect strategy k d cols b x' = .ok y' ∧
      Parallel Q how S S' y y' := by
  obtain ⟨ops, rfl, rfl, hs⟩ := h
  have hcase : ∀ U : DbState, flushTo dialect strategy k d cols b (statesOf how U ops) =
      .ok (statesOf how U ((k, fullRows d cols b) :: ops)) := by
    intro U
    obtain ⟨rest, e⟩ := statesOf_cons how U ops
    show _ = Except.ok (latest how U ((k, fullRows d cols b) :: ops) :: statesOf how U ops)
    rw [e]
    unfold flushTo
    dsimp only
    rw [h4]
    dsimp only [latest]
    rw [h2]
  refine ⟨_, _, hcase S, hcase S', _, rfl, rfl, fun op hop => ?_⟩
  rcases List.mem_cons.1 hop with rfl | hop
  · dsimp only
    rw [h2]
    refine ⟨h1, h3, fun r hr => ?_, h5⟩
    obtain ⟨b', -, rfl⟩ := List.mem_map.1 hr
    exact ⟨_, rfl⟩
  · exact hs op hop

section
variable {S : DbState} {r : Started} {db : Dict Str TableMeta} {x : DestMeta} {order : List Str} {states : List DbState}
  {offs : Dict Key (Dict Str Int)} {compact : Dict Key (List Str)} {mat : List (Key × Nat)} {temps : Temps}

/-- The way rows are inserted into each table. -/
theorem repeat_how (hok : RunOK C D p) (hr : Repeatable C D p)
    (hst : Steps C D p S r db x order states offs compact mat temps) :
    ∃ how : How, ∀ n ∈ order, ∀ j, readTable C D r x offs compact p temps n = .ok (some j) → ∀ o, outPlan j.input = .ok o →
      (how j.key).1 ≠ .error ∧ (how j.key).2.1 = j.input.dest ∧ j.input.dest.pk ≠ [] ∧
      (C.strategy = .skip → (how j.key).1 = .skip) ∧ ∀ b U, flushBuffer D.dialect j.strategy j.input.dest o.colsOut b U =
        .ok ((fullRows j.input.dest o.colsOut b).foldl (ins (how j.key).1 j.input.dest (how j.key).2.2) U) := by
  have hdb : db = D.dstDb := by
    have h := hst.create
    unfold createStep at h
    rw [hr.create] at h
    cases h; rfl
  subst hdb
  have hone : ∀ n ∈ order, ∀ j, readTable C D r x offs compact p temps n = .ok (some j) → ∀ o, outPlan j.input = .ok o →
      ∃ st upd, st ≠ .error ∧ j.input.dest.pk ≠ [] ∧ (C.strategy = .skip → st = .skip) ∧ ∀ b U, flushBuffer D.dialect j.strategy j.input.dest o.colsOut b U =
        .ok ((fullRows j.input.dest o.colsOut b).foldl (ins st j.input.dest upd) U) := by
    intro n hn j hj o ho
    obtain ⟨k, kd, t, td, hc⟩ := (hst.mem_order hok n).1 hn
    obtain ⟨Smp, -, hS, hT⟩ := hst.sample hok
    obtain ⟨rfl, e2, e3, e4, -⟩ := hst.job hok hS hT hc hj
    obtain ⟨k1, k2⟩ := hr.key _ _ _ _ _ hc
    have hpk : j.input.dest.pk = td.primaryKey := by
      rw [e2]; unfold target; split <;> rfl
    have hcol : j.input.dest.columns = td.columns := by
      rw [e2]; unfold target; split <;> rfl
    have hst4 : j.strategy = C.strategy := by
      rw [e4]; unfold strategyFor; rw [hr.merge]; simp
    rw [(outPlan_ok ho).2.1, hst4]
    have hsub : ∀ c ∈ j.input.dest.pk, c ∈ writtenColumns j.input.chain j.input.dest := fun c hcc => by
      rw [hpk] at hcc
      obtain ⟨f1, f2, f3⟩ := k2 c hcc
      rw [e2]
      exact column_sent f1 f2 f3 e3
    by_cases hsk : C.strategy = .skip
    · exact ⟨.skip, _, by decide, by rw [hpk]; exact k1, fun _ => rfl, fun b U => flush_skip hr.dialect (by rw [hpk]; exact k1) hsub (.inl hsk)⟩
    obtain ⟨st, upd, g1, g2⟩ := flush_total (dialect := D.dialect) (d := j.input.dest)
      (cols := writtenColumns j.input.chain j.input.dest) hr.strategy hr.dialect (by rw [hpk]; exact k1) hsub
      (fun c hcc => by simpa using (List.mem_filter.1 hcc).2)
      (fun q1 q2 c hcc => by
        rw [hcol] at hcc
        rw [e2]
        exact hr.generated q1 q2 _ _ _ _ _ hc c hcc)
    exact ⟨st, upd, g1, by rw [hpk]; exact k1, fun h => absurd h hsk, g2⟩
  have huniq : ∀ n ∈ order, ∀ j, readTable C D r x offs compact p temps n = .ok (some j) →
      ∀ n' ∈ order, ∀ j', readTable C D r x offs compact p temps n' = .ok (some j') → j.key = j'.key → j = j' := by
    intro n hn j hj n' hn' j' hj' e
    obtain ⟨k, kd, t, td, hc⟩ := (hst.mem_order hok n).1 hn
    obtain ⟨k', kd', t', td', hc'⟩ := (hst.mem_order hok n').1 hn'
    obtain ⟨Smp, -, hS, hT⟩ := hst.sample hok
    obtain ⟨rfl, -⟩ := hst.job hok hS hT hc hj
    obtain ⟨rfl, -⟩ := hst.job hok hS hT hc' hj'
    have : n = n' := hst.dest_inj hc.planned hc'.planned hc.dest (by rw [e]; exact hc'.dest) hok
    subst this
    rw [hj] at hj'
    cases hj'; rfl
  have hkey : ∀ kd : Key, ∃ h : Strategy × DestTable × List Str, ∀ n ∈ order, ∀ j,
      readTable C D r x offs compact p temps n = .ok (some j) → ∀ o, outPlan j.input = .ok o → j.key = kd →
      h.1 ≠ .error ∧ h.2.1 = j.input.dest ∧ j.input.dest.pk ≠ [] ∧ (C.strategy = .skip → h.1 = .skip) ∧
      ∀ b U, flushBuffer D.dialect j.strategy j.input.dest o.colsOut b U =
        .ok ((fullRows j.input.dest o.colsOut b).foldl (ins h.1 j.input.dest h.2.2) U) := by
    intro kd
    by_cases hex : ∃ n ∈ order, ∃ j, readTable C D r x offs compact p temps n = .ok (some j) ∧ (∃ o, outPlan j.input = .ok o) ∧ j.key = kd
    · obtain ⟨n, hn, j, hj, ⟨o, ho⟩, rfl⟩ := hex
      obtain ⟨st, upd, g1, g2, g4, g3⟩ := hone n hn j hj o ho
      refine ⟨(st, j.input.dest, upd), fun n' hn' j' hj' o' ho' e => ?_⟩
      have := huniq n hn j hj n' hn' j' hj' e.symm
      subst this
      rw [ho] at ho'
      cases ho'
      exact ⟨g1, rfl, g2, g4, g3⟩
    · exact ⟨(.error, ⟨[], [], fun _ => .null, []⟩, []), fun n hn j hj o ho e => absurd ⟨n, hn, j, hj, ⟨o, ho⟩, e⟩ hex⟩
  choose how hhow using hkey
  exact ⟨how, fun n hn j hj o ho => hhow j.key n hn j hj o ho rfl⟩
end

/-- Two runs that differ only in the contents they begin with insert the same rows in the same way. -/
theorem sample_parallel (hok : RunOK C D p) (hr : Repeatable C D p) (S S' : DbState) (s : σ) :
    (sample C D p S s).schema = (sample C D p S' s).schema ∧ (sample C D p S s).writes = (sample C D p S' s).writes ∧
    (sample C D p S s).err = (sample C D p S' s).err ∧
    ∃ how, Parallel (C.strategy = .skip) how S S' (sample C D p S s).hist (sample C D p S' s).hist := by
  have h0 : ∃ how, Parallel (C.strategy = .skip) how S S' [S] [S'] := ⟨fun _ => (.error, ⟨[], [], fun _ => .null, []⟩, []), [], rfl, rfl, fun _ h => nomatch h⟩
  have ht : ∀ (y : DestMeta) (U : DbState), truncateStep C y U = .ok [] := by
    intro y U; unfold truncateStep; rw [hr.truncate]; rfl
  have hp : ∀ (T : Tables) (y : DestMeta) (U : DbState), prepareStep C T y U p = .ok [] := by
    intro T y U; unfold prepareStep; rw [hr.merge]; rfl
  unfold sample
  cases h1 : startRun C D p with
  | error e => exact ⟨rfl, rfl, rfl, h0⟩
  | ok r =>
    dsimp only
    cases h2 : createStep C D r with
    | error e => exact ⟨rfl, rfl, rfl, h0⟩
    | ok y =>
      obtain ⟨db, x⟩ := y
      dsimp only
      cases h3 : insertOrder x with
      | error e => exact ⟨rfl, rfl, rfl, h0⟩
      | ok order =>
        dsimp only
        rw [ht, ht]
        dsimp only
        rw [hp, hp]
        dsimp only
        cases h4 : getCompactColumns r.tables p.passthrough C.compact with
        | error e => exact ⟨rfl, rfl, rfl, h0⟩
        | ok compact =>
          dsimp only
          cases h5 : materializationOrder r.tables compact p with
          | error e => exact ⟨rfl, rfl, rfl, h0⟩
          | ok mat =>
            dsimp only
            cases h6 : materialize D.engine r.tables D.src D.reopen p mat [] with
            | error e => exact ⟨rfl, rfl, rfl, h0⟩
            | ok temps =>
              dsimp only
              obtain ⟨how, hhow⟩ := repeat_how hok hr (S := S) ⟨h1, h2, h3, ht x S, hp _ _ _, h4, h5, h6⟩
              obtain ⟨a1, a2⟩ := copyAll_rel (W := D.world) (dialect := D.dialect) (R := Parallel (C.strategy = .skip) how S S')
                (read := readTable C D r x [] compact p temps) order (h := [S]) (h' := [S']) s
                (fun n hn j hj o ho b d d' hd => by
                  obtain ⟨f1, f2, f3, f5, f4⟩ := hhow n hn j hj o ho
                  exact .inr (flushTo_parallel f1 f2 f3 f5 f4 b d d' hd))
                ⟨[], rfl, rfl, fun _ h => nomatch h⟩
              exact ⟨rfl, congrArg Prod.fst a2, congrArg Prod.snd a2, how, a1⟩

/-! ### Directories -/

theorem copyFiles_agree {mult : Dict Str (List Str)} {read : Str → Except RunErr (Option (Key × Chain Val × List (List Val)))} :
    ∀ (ns : List Str) (F G : Files) (s : σ), (copyFiles C D mult read ns F s).2 = (copyFiles C D mult read ns G s).2 ∧
      (∀ f, F f = G f → (copyFiles C D mult read ns F s).1 f = (copyFiles C D mult read ns G s).1 f) ∧
      ((copyFiles C D mult read ns F s).2 = none → ∀ n ∈ ns, ∀ y, read n = .ok (some y) →
        (copyFiles C D mult read ns F s).1 (fileName y.1) = (copyFiles C D mult read ns G s).1 (fileName y.1))
  | [], _, _, _ => ⟨rfl, fun _ h => h, fun _ _ h => nomatch h⟩
  | n :: ns, F, G, s => by
    unfold copyFiles
    cases hn : read n with
    | error e => exact ⟨rfl, fun _ h => h, fun h => nomatch h⟩
    | ok o =>
      cases o with
      | none =>
        obtain ⟨h1, h2, h3⟩ := copyFiles_agree (mult := mult) (read := read) ns F G s
        refine ⟨h1, h2, fun he m hm y hy => ?_⟩
        rcases List.mem_cons.1 hm with rfl | hm
        · rw [hn] at hy; cases hy
        · exact h3 he m hm y hy
      | some y =>
        obtain ⟨k, ch, rows⟩ := y
        dsimp only
        have hset : ∀ lines f, (F f = G f ∨ f = fileName k) → F.set (fileName k) lines f = G.set (fileName k) lines f := by
          intro lines f h
          unfold Files.set
          by_cases e : f = fileName k
          · rw [if_pos e, if_pos e]
          · rw [if_neg e, if_neg e]
            exact h.resolve_right e
        obtain ⟨lines, s', err⟩ := directoryOutput D.world ch (if (dget mult n).isNone then 1 else C.mult.multiplier.toNat) ((dget mult n).getD []) rows s
        cases err with
        | some e => exact ⟨rfl, fun f h => hset lines f (.inl h), fun h => nomatch h⟩
        | none =>
          dsimp only
          obtain ⟨h1, h2, h3⟩ := copyFiles_agree (mult := mult) (read := read) ns (F.set (fileName k) lines) (G.set (fileName k) lines) s'
          refine ⟨h1, fun f h => h2 f (hset lines f (.inl h)), fun he m hm y hy => ?_⟩
          rcases List.mem_cons.1 hm with rfl | hm
          · rw [hn] at hy
            cases hy
            exact h2 _ (hset lines _ (.inr rfl))
          · exact h3 he m hm y hy

theorem copyFiles_fails {mult : Dict Str (List Str)} {read : Str → Except RunErr (Option (Key × Chain Val × List (List Val)))} :
    ∀ {ns : List Str} {n : Str} {e : RunErr}, n ∈ ns → read n = .error e → ∀ (F : Files) (s : σ), (copyFiles C D mult read ns F s).2 ≠ none
  | m :: ns, n, e, hn, h, F, s => by
    unfold copyFiles
    rcases List.mem_cons.1 hn with rfl | hn
    · rw [h]; exact nofun
    · have ih := copyFiles_fails (mult := mult) (read := read) hn h
      cases read m with
      | error e => exact nofun
      | ok o =>
        cases o with
        | none => exact ih F s
        | some y =>
          obtain ⟨k, ch, rows⟩ := y
          dsimp only
          obtain ⟨lines, s', err⟩ := directoryOutput D.world ch (if (dget mult m).isNone then 1 else C.mult.multiplier.toNat) ((dget mult m).getD []) rows s
          cases err with
          | some e => exact nofun
          | none => exact ih _ s'

theorem readRows_ok {T : Tables} {compact : Dict Key (List Str)} {temps : Temps} {n : Str} (hn : n ∈ dkeys p.queries)
    {o : Option (Key × Chain Val × List (List Val))} (h : readRows C D T compact p temps n = .ok o) :
    ∃ k q, parseTableName n = some k ∧ (∀ y, o = some y → y.1 = k) ∧ (o.isSome = true ∧ dget p.queries n = some q) := by
  unfold readRows at h
  split at h
  · cases h
  · rename_i k hk
    split at h
    · rename_i hq
      have := dget_isSome_iff.2 hn
      rw [hq] at this
      cases this
    · rename_i q hq
      split at h
      · cases h
      · split at h
        · cases h
        · split at h
          · cases h
          · cases h
            exact ⟨k, q, hk, fun y hy => by cases hy; rfl, rfl, hq⟩

/-- What a run writes to a directory does not depend on the files that are there. -/
theorem directory_agree (F G : Files) (s : σ)
    (hFG : ∀ f, (∀ n ∈ dkeys p.queries, f ≠ fileOf n) → F f = G f) :
    (sampleDirectory C D p F s).2 = (sampleDirectory C D p G s).2 ∧
    ((sampleDirectory C D p F s).2 = none → (sampleDirectory C D p F s).1 = (sampleDirectory C D p G s).1) := by
  unfold sampleDirectory
  cases h1 : fromEngine D.fnmatch D.srcDb (dkeys p.queries) false false with
  | none => exact ⟨rfl, fun h => nomatch h⟩
  | some l =>
    cases l with
    | none => exact ⟨rfl, fun h => nomatch h⟩
    | some l =>
      dsimp only
      cases h2 : validateFilters D.world (inferStep C.infer l.tables) C.filters with
      | error e => exact ⟨rfl, fun h => nomatch h⟩
      | ok u =>
        dsimp only
        cases h3 : multipliedColumns (inferStep C.infer l.tables) C.mult p.passthrough (dkeys p.queries) with
        | error e => exact ⟨rfl, fun h => nomatch h⟩
        | ok mult =>
          dsimp only
          cases h4 : getCompactColumns (inferStep C.infer l.tables) p.passthrough C.compact with
          | error e => exact ⟨rfl, fun h => nomatch h⟩
          | ok compact =>
            dsimp only
            cases h5 : materializationOrder (inferStep C.infer l.tables) compact p with
            | error e => exact ⟨rfl, fun h => nomatch h⟩
            | ok mat =>
              dsimp only
              cases h6 : materialize D.engine (inferStep C.infer l.tables) D.src D.reopen p mat [] with
              | error e => exact ⟨rfl, fun h => nomatch h⟩
              | ok temps =>
                dsimp only
                obtain ⟨a1, a2, a3⟩ := copyFiles_agree (C := C) (D := D) (mult := mult) (read := readRows C D (inferStep C.infer l.tables) compact p temps) (dkeys p.queries) F G s
                refine ⟨a1, fun he => funext fun f => ?_⟩
                by_cases hf : ∀ n ∈ dkeys p.queries, f ≠ fileOf n
                · exact a2 f (hFG f hf)
                · push Not at hf
                  obtain ⟨n, hn, rfl⟩ := hf
                  cases hr : readRows C D (inferStep C.infer l.tables) compact p temps n with
                  | error e => exact absurd he (copyFiles_fails hn hr _ _)
                  | ok o =>
                    obtain ⟨k, q, g1, g2, g3⟩ := readRows_ok hn hr
                    cases o with
                    | none => cases g3.1
                    | some y =>
                      have : fileName y.1 = fileOf n := by
                        rw [g2 y rfl]
                        unfold fileName fileOf
                        rw [parse_str g1]
                      rw [← this]
                      exact a3 he n hn y hr

end Subsetter
