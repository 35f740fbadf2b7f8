import Verif.Proofs.SqlTemps

/- Materialisation with the statements built. -/
namespace Subsetter
open Spec

variable {E : Engine} {le : List Val → List Val → Bool} {T : Tables} {start : Int} {compact : Dict Key (List Str)}
  {src : Key → List Row} {reopen : Bool} {temps' : SqlTemps} {temps : Temps}

theorem rel_set (h : TempsRel T le start compact temps' temps) {k : Key} {i : Nat} {x : TableObj × List Row} {rows : List Row}
    (hx : TempOK T le start compact k i x rows)
    (hi : (i = 0 ∧ ∀ j, dget temps (k, j) = none) ∨ (dget temps (k, 0) = some rows)) :
    TempsRel T le start compact (dset temps' (k, i) x) (dset temps (k, i) rows) := by
  refine ⟨fun k' i' => ?_, fun k' i' x' rows' h1 h2 => ?_, fun k' i' rows' h1 => ?_⟩
  · rw [dget_dset, dget_dset]
    split
    · simp
    · exact h.none_ k' i'
  · rw [dget_dset] at h1 h2
    split at h1
    · rename_i e
      cases e
      rw [if_pos rfl] at h2
      cases h1
      cases h2
      exact hx
    · rename_i e
      rw [if_neg e] at h2
      exact h.some_ k' i' x' rows' h1 h2
  · rw [dget_dset] at h1 ⊢
    split at h1
    · rename_i e
      cases e
      cases h1
      split
      · rfl
      · rename_i e
        rcases hi with ⟨rfl, -⟩ | hi
        · exact absurd rfl e
        · exact hi
    · have h0 := h.copies k' i' rows' h1
      split
      · rename_i e
        cases e
        rcases hi with ⟨-, hi⟩ | hi
        · rw [hi i'] at h1; cases h1
        · rw [hi] at h0
          exact h0
      · exact h0

theorem addCopies_same (hS : SourcePlain T src) {k : Key} {t : TableMeta} (ht : dget T k = some t) {o : TableObj}
    {rows rows' : List Row} (hk : o.obj = .temp k 0 ∧ o.columns = tempCols compact k t) :
    ∀ (is : List Nat) (temps' : SqlTemps) (temps : Temps), (∀ i ∈ is, i ≠ 0) → TempsRel T le start compact temps' temps →
    dget temps' (k, 0) = some (o, rows') → dget temps (k, 0) = some rows →
    ∃ new, addCopiesSql E le src k t.primaryKey o is temps' = .ok new ∧
      TempsRel T le start compact new (addCopies temps k rows is)
  | [], temps', temps, _, h, _, _ => ⟨temps', rfl, h⟩
  | i :: is, temps', temps, hi, h, h1, h2 => by
    obtain ⟨t', g1, -, g3, g4⟩ := h.some_ k 0 _ _ h1 h2
    rw [ht] at g1
    cases g1
    dsimp only at g3
    have hR : sqlRows src temps' o.obj = rows' := by
      rw [hk.1]
      simp [sqlRows, h1]
    obtain ⟨e1, e2⟩ := select_eval (E := E) (le := le) (R := sqlRows src temps') (o := o)
      (by rw [hk.2]; exact tempCols_nodup hS ht)
      (by
        rw [hR, hk.2, g3]
        exact addIds_keys g4)
    unfold addCopiesSql tempObj
    rw [e2]
    dsimp only
    rw [e1, hR, addCopies]
    have i0 := hi i List.mem_cons_self
    have ne : ¬ ((k, i) : Key × Nat) = (k, 0) := fun e => i0 (Prod.mk.inj e).2
    refine addCopies_same (rows' := rows') hS ht hk is _ _ (fun j hj => hi j (List.mem_cons_of_mem i hj))
      (rel_set h ⟨t, ht, ?_, g3, g4⟩ (.inr h2)) ?_ ?_
    · dsimp only
      rw [hk.2]
    · rw [dget_dset, if_neg ne]
      exact h1
    · rw [dget_dset, if_neg ne]
      exact h2

theorem addCopies_other {k k' : Key} {j : Nat} (hk : k ≠ k') {rows : List Row} : ∀ (is : List Nat) (temps : Temps),
    dget (addCopies temps k rows is) (k', j) = dget temps (k', j)
  | [], _ => rfl
  | i :: is, temps => by
    rw [addCopies, addCopies_other hk is, dget_dset, if_neg fun e => hk (Prod.mk.inj e).1]

theorem materialize_same (hS : SourcePlain T src) {p : Plan} : ∀ (order : List (Key × Nat)) (temps' : SqlTemps) (temps : Temps),
    (∀ k ∈ order.map Prod.fst, ∀ q, dget p.queries k.str = some q → QueryPlain T k q) →
    (order.map Prod.fst).Nodup → (∀ k ∈ order.map Prod.fst, ∀ i, dget temps (k, i) = none) →
    TempsRel T le start compact temps' temps →
    Same (TempsRel T le start compact) (materializeSql E T le start compact src reopen p order temps')
      (materialize E T src reopen p order temps)
  | [], temps', temps, _, _, _, h => h
  | (k, n) :: order, temps', temps, hp, hnd, hf, h => by
    rw [materializeSql, materialize]
    rw [List.map_cons, List.nodup_cons] at hnd
    dsimp only at hnd
    cases ht : dget T k with
    | none => rfl
    | some t =>
      dsimp only
      cases hq : dget p.queries k.str with
      | none => rfl
      | some q =>
        dsimp only
        have hqp := hp k (by simp) q hq
        unfold tempQuery runQuery
        rcases query_built (E := E) (reopen := reopen) hS h hqp ht with ⟨⟨e, h1⟩, -, h3⟩ | ⟨Q, s, h1, -, h3, h4, h5, h6⟩
        · rw [h1, h3]
          rfl
        · obtain ⟨l, h3⟩ := Option.isSome_iff_exists.1 h3
          rw [h1, h3]
          dsimp only
          obtain ⟨c1, -, c3⟩ := hS.columns k t ht
          have hQ : ∃ Q', (if (dget compact k).isSome = true then numberedQuery start t.primaryKey Q s.fresh else .ok Q) = .ok Q' ∧
              Q'.columns = some (tempCols compact k t) ∧ Query.eval E le (sqlRows src temps') [] Q' =
                addIds le start compact k t.primaryKey (q.eval E (execEnv T src temps)) := by
            unfold tempCols addIds
            split
            · rw [← h4]
              exact numbered_eval h5 c1 (by rw [h4]; exact h6) c3
            · exact ⟨Q, rfl, h5, h4⟩
          obtain ⟨Q', hQ1, hQ2, hQ3⟩ := hQ
          rw [hQ1]
          dsimp only
          unfold tempObj
          rw [hQ2]
          dsimp only
          rw [hQ3]
          have hrel := rel_set h (k := k) (i := 0)
            (x := (⟨.temp k 0, tempCols compact k t, (tempCols compact k t).filter fun c => decide (c ∈ t.primaryKey)⟩,
              addIds le start compact k t.primaryKey (q.eval E (execEnv T src temps))))
            (rows := q.eval E (execEnv T src temps)) ⟨t, ht, rfl, rfl, h6⟩ (.inl ⟨rfl, hf k (by simp)⟩)
          have hfresh : ∀ k' ∈ order.map Prod.fst, ∀ i,
              dget (dset temps (k, 0) (q.eval E (execEnv T src temps))) (k', i) = none := by
            intro k' hk' i
            rw [dget_dset, if_neg fun e => hnd.1 (by rw [(Prod.mk.inj e).1]; exact hk')]
            exact hf k' (List.mem_cons_of_mem _ hk') i
          have hp' : ∀ k ∈ order.map Prod.fst, ∀ q, dget p.queries k.str = some q → QueryPlain T k q :=
            fun k' hk' => hp k' (List.mem_cons_of_mem _ hk')
          cases hre : reopen with
          | true =>
            simp only [if_true]
            have := materialize_same hS order _ _ hp' hnd.2 hfresh hrel
            rw [hre] at this
            exact this
          | false =>
            simp only [Bool.false_eq_true, if_false]
            obtain ⟨new, g1, g2⟩ := addCopies_same (E := E) (le := le) hS ht
              (o := ⟨.temp k 0, tempCols compact k t, (tempCols compact k t).filter fun c => decide (c ∈ t.primaryKey)⟩)
              ⟨rfl, rfl⟩ (List.range' 1 (n - 1)) _ _
              (fun i hi => by rw [List.mem_range'] at hi; obtain ⟨j, -, rfl⟩ := hi; omega) hrel
              (dget_dset_self _ _ _) (dget_dset_self _ _ _)
            rw [g1]
            dsimp only
            have := materialize_same hS order _ _ hp' hnd.2 (fun k' hk' i => by
              rw [addCopies_other (fun e => hnd.1 (by rw [e]; exact hk'))]
              exact hfresh k' hk' i) g2
            rw [hre] at this
            exact this

theorem record_covers : Covers (recordCtx T) T := by
  intro t s o s' hc c ⟨m, h1, h2⟩
  have : ∃ m', dget T t.key = some m' ∧ o = ⟨.src t.key, m'.columns, m'.primaryKey⟩ := by
    cases hs : t.sampled with
    | false => exact source_some (call_source hs hc).1
    | true =>
      unfold BuildCtx.call at hc
      rw [if_pos hs] at hc
      dsimp only [recordCtx] at hc
      split at hc
      · cases hc
      · rename_i o' ho
        cases hc
        exact source_some ho
  obtain ⟨m', h3, rfl⟩ := this
  rw [show dget T t.key = some m from h1] at h3
  cases h3
  exact h2

theorem record_counts : ∀ (l : List TableId) (c : Dict Key Nat),
    (countsAfter (recordCtx T) c l).isSome = l.all fun t => (dget T t.key).isSome
  | [], c => rfl
  | t :: l, c => by
    rw [countsAfter, List.all_cons]
    have hcall : (recordCtx T).call t ⟨c, 0⟩ = match sourceObj T t.key with
        | none => .error .keyError
        | some o => .ok (o, ⟨c, 0⟩) := by
      unfold BuildCtx.call
      cases t.sampled <;> rfl
    rw [hcall]
    unfold sourceObj
    cases hT : dget T t.key with
    | none => rfl
    | some m =>
      dsimp only [Option.map_some]
      rw [record_counts l c]
      rfl

theorem depLoop_same : ∀ (qs : List (Str × TableQuery)) (g : Graph Key) (m : Dict Key Nat),
    (∀ n q, (n, q) ∈ qs → ∃ st, q = .statement st ∧ StmtPlain T st) → depLoopSql T compact qs g m = depLoop T compact qs g m
  | [], g, m, _ => rfl
  | (n, q) :: qs, g, m, h => by
    rw [depLoopSql, depLoop]
    obtain ⟨st, rfl, h1⟩ := h n q List.mem_cons_self
    have hy := stmt_yields (record_covers (T := T)) st ⟨[], 0⟩ h1
    have hc := record_counts (T := T) st.refs []
    have ih := fun g m => depLoop_same qs g m fun n q hq => h n q (List.mem_cons_of_mem _ hq)
    cases e : countsAfter (recordCtx T) [] st.refs with
    | none =>
      rw [e] at hy hc
      obtain ⟨x, hx⟩ := hy
      rw [show TableQuery.build (recordCtx T) (.statement st) = .error x from hx]
      exact (if_neg (by rw [show (TableQuery.statement st).refs = st.refs from rfl, ← hc]; simp)).symm
    | some c =>
      rw [e] at hy hc
      obtain ⟨Q, f, hx⟩ := hy
      rw [show TableQuery.build (recordCtx T) (.statement st) = .ok (Q, ⟨c, f⟩) from hx,
        if_pos (by rw [show (TableQuery.statement st).refs = st.refs from rfl, ← hc]; rfl)]
      simp only [ih]
      rfl

theorem order_same {p : Plan} (h : ∀ n q, (n, q) ∈ p.queries → ∃ st, q = .statement st ∧ StmtPlain T st) :
    materializationOrderSql T compact p = materializationOrder T compact p := by
  unfold materializationOrderSql materializationOrder
  rw [depLoop_same _ _ _ h]
  rfl

end Subsetter
