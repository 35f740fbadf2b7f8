import Verif.Proofs.Multiply
import Mathlib.Data.List.Pairwise
import Mathlib.Tactic.Ring

/-
Properties C26-C28: multiplicity.
-/
namespace Subsetter.Props
open Subsetter Spec

/-! ### C26 -/

theorem int_copy_inj {v w m i j : Int} (hi : 0 ≤ i) (him : i < m) (hj : 0 ≤ j) (hjm : j < m)
    (h : v * m + i = w * m + j) : v = w ∧ i = j := by
  have h1 : (v * m + i) % m = i := by
    rw [Int.add_comm, Int.add_mul_emod_self_right, Int.emod_eq_of_lt hi him]
  have h2 : (w * m + j) % m = j := by
    rw [Int.add_comm, Int.add_mul_emod_self_right, Int.emod_eq_of_lt hj hjm]
  have hij : i = j := by rw [← h1, ← h2, h]
  subst hij
  have hm : m ≠ 0 := by omega
  exact ⟨Int.eq_of_mul_eq_mul_right hm (by omega), rfl⟩

/-- C26 for one column: two copies with the same non-NULL value come from the same value and the
same copy number. -/
theorem c26_column_injective {v w x : Val} {m i j : Int} (hi : 0 ≤ i) (him : i < m) (hj : 0 ≤ j)
    (hjm : j < m) (hv : multiplyColumn v m i = some x) (hw : multiplyColumn w m j = some x)
    (hx : x ≠ .null) : v = w ∧ i = j := by
  cases v <;> cases w <;> simp only [multiplyColumn, Option.some.injEq] at hv hw <;>
    first
    | exact absurd hv.symm hx
    | exact absurd hw.symm hx
    | (cases hv; done)
    | (cases hw; done)
    | skip
  rw [← hw, Val.int.injEq] at hv
  obtain ⟨h1, h2⟩ := int_copy_inj hi him hj hjm hv
  exact ⟨by rw [h1], h2⟩

/-- NULL, and only NULL, becomes NULL. -/
theorem c26_null {v : Val} {m i : Int} : multiplyColumn v m i = some .null ↔ v = .null := by
  cases v <;> simp [multiplyColumn]

example : multiplyColumn (.int (-3)) 5 4 = some (.int (-11)) ∧ multiplyColumn (.int (-2)) 5 4 = some (.int (-6)) := by
  decide

theorem copyRow_get (cols : List Str) (m i : Int) (r : Row) (c : Str) :
    (copyRow cols m i r).get c = if c ∈ cols then copyVal m i (r.get c) else r.get c := by
  unfold Row.get copyRow
  induction r with
  | nil => simp [dget, copyVal]
  | cons p r ih =>
    obtain ⟨k, v⟩ := p
    simp only [List.map_cons, dget]
    by_cases h : k = c
    · subst h; simp only [if_true, Option.getD_some]
    · simp only [if_neg h, ih]

theorem copyVal_inj {v w : Val} {m i j : Int} (hi : 0 ≤ i) (him : i < m) (hj : 0 ≤ j) (hjm : j < m)
    (hv : ∃ a, v = .int a) (h : copyVal m i v = copyVal m j w) : v = w ∧ i = j := by
  obtain ⟨a, rfl⟩ := hv
  cases w <;> simp only [copyVal, Val.int.injEq, reduceCtorEq] at h
  obtain ⟨h1, h2⟩ := int_copy_inj hi him hj hjm h
  exact ⟨by rw [h1], h2⟩

/-- C26 for rows: if at least one primary key column is multiplied and multiplied key columns hold
integers, all copies of all rows have different primary keys. -/
theorem c26_primary_keys_distinct {pk cols : List Str} {rows : List Row} {m : Nat}
    (hnd : (rows.map fun r => pk.map r.get).Nodup) (hex : ∃ c ∈ pk, c ∈ cols)
    (hint : ∀ r ∈ rows, ∀ c ∈ pk, c ∈ cols → ∃ a, r.get c = .int a) :
    ((rows.flatMap fun r => (List.range m).map fun i : Nat => copyRow cols m (i : Int) r).map
      fun r => pk.map r.get).Nodup := by
  have key : ∀ r ∈ rows, ∀ r' : Row, ∀ i j : Nat, i < m → j < m →
      pk.map (copyRow cols m i r).get = pk.map (copyRow cols m j r').get →
      pk.map r.get = pk.map r'.get ∧ i = j := by
    intro r hr r' i j hi hj h
    have hc : ∀ c ∈ pk, (copyRow cols m i r).get c = (copyRow cols m j r').get c := by
      intro c hc
      exact (List.map_inj_left.1 h) c hc
    have hbound : ∀ n : Nat, n < m → (0 : Int) ≤ n ∧ (n : Int) < m := fun n hn => by omega
    refine ⟨List.map_congr_left fun c hcp => ?_, ?_⟩
    · have := hc c hcp
      rw [copyRow_get, copyRow_get] at this
      by_cases hcc : c ∈ cols
      · rw [if_pos hcc, if_pos hcc] at this
        exact (copyVal_inj (hbound i hi).1 (hbound i hi).2 (hbound j hj).1 (hbound j hj).2
          (hint r hr c hcp hcc) this).1
      · rwa [if_neg hcc, if_neg hcc] at this
    · obtain ⟨c, hcp, hcc⟩ := hex
      have := hc c hcp
      rw [copyRow_get, copyRow_get, if_pos hcc, if_pos hcc] at this
      have := (copyVal_inj (hbound i hi).1 (hbound i hi).2 (hbound j hj).1 (hbound j hj).2
          (hint r hr c hcp hcc) this).2
      omega
  induction rows with
  | nil => simp
  | cons r rows ih =>
    simp only [List.map_cons, List.nodup_cons] at hnd
    rw [List.flatMap_cons, List.map_append, List.nodup_append]
    refine ⟨?_, ih hnd.2 (fun r hr => hint r (.tail _ hr)) (fun r hr => key r (.tail _ hr)), ?_⟩
    · rw [List.map_map]
      refine List.Nodup.map_on ?_ List.nodup_range
      intro i hi j hj h
      exact (key r (.head _) r i j (List.mem_range.1 hi) (List.mem_range.1 hj) h).2
    · intro x hx y hy hxy
      subst hxy
      rw [List.map_map] at hx
      obtain ⟨i, hi, hx⟩ := List.mem_map.1 hx
      obtain ⟨r'', h1, h2⟩ := List.mem_map.1 hy
      obtain ⟨r', h3, h4⟩ := List.mem_flatMap.1 h1
      obtain ⟨j, h5, h6⟩ := List.mem_map.1 h4
      subst h6
      have := key r (.head _) r' i j (List.mem_range.1 hi) (List.mem_range.1 h5) (hx.trans h2.symm)
      exact hnd.1 (List.mem_map.2 ⟨r', h3, this.1.symm⟩)

/-- Two users, three copies each. -/
example : ((([[(str! "id", .int 1)], [(str! "id", .int 2)]] : List Row).flatMap fun r =>
    (List.range 3).map fun i => copyRow [str! "id"] 3 i r).map fun r => r.get (str! "id")) =
    [.int 3, .int 4, .int 5, .int 6, .int 7, .int 8] := by decide

/-! ### C28 -/

/-- C28: the computation never runs forever; it stops with one of the documented errors or for lack
of table metadata. -/
theorem c28_terminates (T : Tables) (cfg : MultConfig) (pass names : List Str) :
    multipliedColumns T cfg pass names ≠ .error .fuel := by
  by_cases hm : 1 < cfg.multiplier
  · rcases multipliedColumns_spec (T := T) hm (names := names) (pass := pass) with
      ⟨res, h, -⟩ | ⟨e, h, h'⟩
    · rw [h]; simp
    · rw [h]
      rcases h' with rfl | rfl | ⟨rfl, -⟩ | ⟨n, c, t, rfl, -⟩ <;> simp
  · unfold multipliedColumns
    rw [if_pos (by omega)]
    simp

/-- C28: the multiplied columns are exactly the least set containing configured and primary key
columns of the tables that are not ignored, closed under the propagation rule; all of them are
integer columns. -/
theorem c28_exact {T : Tables} {cfg : MultConfig} {pass names : List Str} (hm : 1 < cfg.multiplier)
    {res : Dict Str (List Str)} (h : multipliedColumns T cfg pass names = .ok res) :
    (∀ n c, c ∈ (dget res n).getD [] ↔ MultCol T cfg (pass ++ cfg.ignoreTables) names n c) ∧
    (∀ n, (dget res n).isSome ↔ n ∈ names ∧ n ∉ pass ∧ n ∉ cfg.ignoreTables) ∧
    ∀ n t, n ∈ names → TableOf T n t → ∀ c ∈ (dget res n).getD [], c ∈ t.columns ∧ c ∈ t.intColumns := by
  rcases multipliedColumns_spec (T := T) hm (names := names) (pass := pass) with
    ⟨res', h', h1, h2, h3, h4⟩ | ⟨e, h', -⟩
  · rw [h] at h'; cases h'
    refine ⟨h2, fun n => ?_, fun n t hn ht => ?_⟩
    · rw [h1]; simp
    · obtain ⟨t', ht', h5⟩ := h4 n hn
      obtain ⟨k, a, b⟩ := ht
      obtain ⟨k', a', b'⟩ := ht'
      rw [a] at a'; cases a'
      rw [b] at b'; cases b'
      exact h5
  · rw [h] at h'; cases h'

/-- C28: if a table that must not be multiplied would have to be, that is an error; and this error is
given for no other reason. -/
theorem c28_passthrough_rejected {T : Tables} {cfg : MultConfig} {pass names : List Str}
    (hm : 1 < cfg.multiplier) :
    (Blocked T cfg (pass ++ cfg.ignoreTables) names →
      ∃ e, multipliedColumns T cfg pass names = .error e) ∧
    (multipliedColumns T cfg pass names = .error .passthroughFk →
      Blocked T cfg (pass ++ cfg.ignoreTables) names) := by
  rcases multipliedColumns_spec (T := T) hm (names := names) (pass := pass) with
    ⟨res', h', h1, h2, h3, h4⟩ | ⟨e, h', h5⟩
  · exact ⟨fun h => absurd h h3, fun h => by rw [h'] at h; cases h⟩
  · refine ⟨fun _ => ⟨e, h'⟩, fun h => ?_⟩
    rw [h'] at h; cases h
    rcases h5 with h | h | ⟨-, h⟩ | ⟨n, c, t, h, -⟩
    · cases h
    · cases h
    · exact h
    · cases h

/-- Without a multiplier above one nothing is multiplied. -/
theorem c28_no_multiplier (T : Tables) {cfg : MultConfig} (hm : cfg.multiplier ≤ 1)
    (pass names : List Str) : multipliedColumns T cfg pass names = .ok [] := by
  unfold multipliedColumns; rw [if_pos hm]

/-- Users; orders refer to users by a column of the same name and to themselves; logs have no key of
their own and refer to orders. -/
def exMultTables : Tables := [
  ((str! "s", str! "u"), { schema := str! "s", name := str! "u", columns := [str! "uid"], primaryKey := [str! "uid"], intColumns := [str! "uid"] }),
  ((str! "s", str! "o"), { schema := str! "s", name := str! "o", columns := [str! "oid", str! "uid"], primaryKey := [str! "oid"], intColumns := [str! "oid", str! "uid"], foreignKeys := [⟨[str! "uid"], str! "s", str! "u", [str! "uid"]⟩] }),
  ((str! "s", str! "l"), { schema := str! "s", name := str! "l", columns := [str! "oid", str! "uid"], primaryKey := [], intColumns := [str! "oid", str! "uid"], foreignKeys := [⟨[str! "uid", str! "oid"], str! "s", str! "o", [str! "uid", str! "oid"]⟩] })]

/-- The closure needs more than one pass because logs are listed first. -/
example : multipliedColumns exMultTables { multiplier := 3 } [] [str! "s.l", str! "s.o", str! "s.u"] =
    .ok [(str! "s.l", [str! "oid", str! "uid"]), (str! "s.o", [str! "oid", str! "uid"]),
      (str! "s.u", [str! "uid"])] := by decide +kernel

/-! ### C27 -/

/-- C27, when the key columns have the same names in both tables: a column referring to a multiplied
column is multiplied.  Missing: keys whose columns are named differently, see
`c27_renamed_column_not_multiplied`. -/
theorem c27_children_multiplied_partial {T : Tables} {cfg : MultConfig} {pass names : List Str}
    (hm : 1 < cfg.multiplier) {res : Dict Str (List Str)}
    (h : multipliedColumns T cfg pass names = .ok res) {a : Str} {t : TableMeta} (ha : a ∈ names)
    (ht : TableOf T a t) {fk : ForeignKey} (hfk : fk ∈ t.foreignKeys) (hcols : fk.columns = fk.dstColumns)
    {s d : Str} (hsd : (s, d) ∈ fk.columns.zip fk.dstColumns)
    (hd : d ∈ (dget res (render fk.dstSchema fk.dstTable)).getD []) : s ∈ (dget res a).getD [] := by
  have hs : s = d := by
    rw [← hcols] at hsd
    clear hfk hcols hd
    generalize fk.columns = l at hsd
    induction l with
    | nil => cases hsd
    | cons x l ih =>
      rcases List.mem_cons.1 hsd with h | h
      · cases h; rfl
      · exact ih h
  subst hs
  have hin : s ∈ fk.columns := (List.of_mem_zip hsd).1
  rcases multipliedColumns_spec (T := T) hm (names := names) (pass := pass) with
    ⟨res', h', h1, h2, h3, h4⟩ | ⟨e, h', -⟩
  · rw [h] at h'; cases h'
    have hd' := (h2 _ _).1 hd
    by_cases hi : a ∈ pass ++ cfg.ignoreTables
    · exact absurd ⟨a, t, fk, s, ha, hi, ht, hfk, hin, hd'⟩ h3
    · exact (h2 _ _).2 (.fk ha hi ht hfk hin hd')
  · rw [h] at h'; cases h'

/-- If the two ends of every column pair of a key are both multiplied or both not, copies refer to
the copy with the same number; and if some pair is multiplied, to no other copy. -/
theorem c27_same_copy {A B : List Str} {fk : ForeignKey} {m : Nat}
    (hal : ∀ p ∈ fk.columns.zip fk.dstColumns, p.1 ∈ A ↔ p.2 ∈ B) {r p : Row}
    (hint : ∀ q ∈ fk.columns.zip fk.dstColumns, q.1 ∈ A → ∃ a, r.get q.1 = .int a)
    {i j : Nat} (hi : i < m) (hj : j < m) :
    (Refers fk.columns fk.dstColumns r p →
      Refers fk.columns fk.dstColumns (copyRow A m i r) (copyRow B m i p)) ∧
    (Refers fk.columns fk.dstColumns (copyRow A m i r) (copyRow B m j p) →
      Refers fk.columns fk.dstColumns r p ∧ ((∃ q ∈ fk.columns.zip fk.dstColumns, q.1 ∈ A) → i = j)) := by
  have hbound : ∀ n : Nat, n < m → (0 : Int) ≤ n ∧ (n : Int) < m := fun n hn => by omega
  constructor
  · intro h q hq
    obtain ⟨h1, h2⟩ := h q hq
    rw [copyRow_get, copyRow_get]
    by_cases hA : q.1 ∈ A
    · rw [if_pos hA, if_pos ((hal q hq).1 hA), ← h2]
      obtain ⟨a, ha⟩ := hint q hq hA
      exact ⟨by rw [ha]; simp [copyVal], rfl⟩
    · rw [if_neg hA, if_neg fun hB => hA ((hal q hq).2 hB)]
      exact ⟨h1, h2⟩
  · intro h
    refine ⟨fun q hq => ?_, ?_⟩
    · obtain ⟨h1, h2⟩ := h q hq
      rw [copyRow_get] at h1
      rw [copyRow_get, copyRow_get] at h2
      by_cases hA : q.1 ∈ A
      · rw [if_pos hA, if_pos ((hal q hq).1 hA)] at h2
        obtain ⟨a, ha⟩ := hint q hq hA
        exact ⟨by rw [ha]; simp, (copyVal_inj (hbound i hi).1 (hbound i hi).2 (hbound j hj).1
          (hbound j hj).2 ⟨a, ha⟩ h2).1⟩
      · rw [if_neg hA, if_neg fun hB => hA ((hal q hq).2 hB)] at h2
        rw [if_neg hA] at h1
        exact ⟨h1, h2⟩
    · rintro ⟨q, hq, hA⟩
      obtain ⟨-, h2⟩ := h q hq
      rw [copyRow_get, copyRow_get, if_pos hA, if_pos ((hal q hq).1 hA)] at h2
      have := (copyVal_inj (hbound i hi).1 (hbound i hi).2 (hbound j hj).1
          (hbound j hj).2 (hint q hq hA) h2).2
      omega

/-- C27 for rows: with equal column names, and no key column multiplied that refers to a column
which is not, copies of a child refer exactly to the copy of the parent with the same number. -/
theorem c27_references_kept_partial {T : Tables} {cfg : MultConfig} {pass names : List Str} {m : Nat}
    (hmul : cfg.multiplier = m) (hm : 1 < m) {res : Dict Str (List Str)}
    (h : multipliedColumns T cfg pass names = .ok res) {a : Str} {t : TableMeta} (ha : a ∈ names)
    (ht : TableOf T a t) {fk : ForeignKey} (hfk : fk ∈ t.foreignKeys) (hcols : fk.columns = fk.dstColumns)
    (hrev : ∀ c ∈ fk.columns, c ∈ (dget res a).getD [] →
      c ∈ (dget res (render fk.dstSchema fk.dstTable)).getD [])
    {r p : Row} (hint : ∀ c ∈ fk.columns, c ∈ (dget res a).getD [] → ∃ i, r.get c = .int i)
    {i j : Nat} (hi : i < m) (hj : j < m) :
    (Refers fk.columns fk.dstColumns r p →
      Refers fk.columns fk.dstColumns (copyRow ((dget res a).getD []) m i r)
        (copyRow ((dget res (render fk.dstSchema fk.dstTable)).getD []) m i p)) ∧
    (Refers fk.columns fk.dstColumns (copyRow ((dget res a).getD []) m i r)
        (copyRow ((dget res (render fk.dstSchema fk.dstTable)).getD []) m j p) →
      Refers fk.columns fk.dstColumns r p ∧
        ((∃ c ∈ fk.columns, c ∈ (dget res a).getD []) → i = j)) := by
  have hpair : ∀ q ∈ fk.columns.zip fk.dstColumns, q.1 = q.2 ∧ q.1 ∈ fk.columns := by
    intro q hq
    refine ⟨?_, (List.of_mem_zip (a := q.1) (b := q.2) hq).1⟩
    rw [← hcols] at hq
    clear hfk hcols hrev hint
    generalize fk.columns = l at hq
    induction l with
    | nil => cases hq
    | cons x l ih =>
      rcases List.mem_cons.1 hq with h | h
      · cases h; rfl
      · exact ih h
  have hal : ∀ q ∈ fk.columns.zip fk.dstColumns, q.1 ∈ (dget res a).getD [] ↔
      q.2 ∈ (dget res (render fk.dstSchema fk.dstTable)).getD [] := by
    intro q hq
    constructor
    · intro h'
      rw [← (hpair q hq).1]
      exact hrev _ (hpair q hq).2 h'
    · exact c27_children_multiplied_partial (by omega) h ha ht hfk hcols hq
  obtain ⟨h1, h2⟩ := c27_same_copy (m := m) hal (r := r) (p := p)
    (fun q hq hA => hint q.1 (hpair q hq).2 hA) hi hj
  refine ⟨h1, fun h3 => ⟨(h2 h3).1, ?_⟩⟩
  rintro ⟨c, hc, hcA⟩
  refine (h2 h3).2 ?_
  have : ∀ l l' : List Str, l.length = l'.length → c ∈ l → ∃ q ∈ l.zip l', q.1 = c := by
    intro l
    induction l with
    | nil => intro _ _ h; cases h
    | cons x l ih =>
      intro l' hl hx
      cases l' with
      | nil => cases hl
      | cons y l' =>
        rcases List.mem_cons.1 hx with rfl | hx
        · exact ⟨_, .head _, rfl⟩
        · obtain ⟨q, h1, h2⟩ := ih l' (by simpa using hl) hx
          exact ⟨q, .tail _ h1, h2⟩
  obtain ⟨q, h4, h5⟩ := this fk.columns fk.dstColumns (by rw [hcols]) hc
  exact ⟨q, h4, by rw [h5]; exact hcA⟩

/-- The hypotheses hold for orders and users: copy 2 of order 7 refers to copy 2 of user 1 and to no
other copy. -/
example : Refers [str! "uid"] [str! "uid"]
      (copyRow [str! "oid", str! "uid"] 3 2 [(str! "oid", .int 7), (str! "uid", .int 1)])
      (copyRow [str! "uid"] 3 2 [(str! "uid", .int 1)]) ∧
    ¬ Refers [str! "uid"] [str! "uid"]
      (copyRow [str! "oid", str! "uid"] 3 2 [(str! "oid", .int 7), (str! "uid", .int 1)])
      (copyRow [str! "uid"] 3 1 [(str! "uid", .int 1)]) := by
  constructor
  · intro q hq
    simp only [List.zip_cons_cons, List.zip_nil_right, List.mem_singleton] at hq
    subst hq
    decide
  · intro h
    exact absurd (h (str! "uid", str! "uid") (by simp)).2 (by decide)

/-- C27 is false when names differ: orders refer to users by `owner`, which is not multiplied although
the key of users is; copies of order 7 refer to user 1, which is a copy of user 0 if anything. -/
theorem c27_renamed_column_not_multiplied :
    multipliedColumns [
      ((str! "s", str! "u"), { schema := str! "s", name := str! "u", columns := [str! "uid"], primaryKey := [str! "uid"], intColumns := [str! "uid"] }),
      ((str! "s", str! "o"), { schema := str! "s", name := str! "o", columns := [str! "oid", str! "owner"], primaryKey := [str! "oid"], intColumns := [str! "oid", str! "owner"], foreignKeys := [⟨[str! "owner"], str! "s", str! "u", [str! "uid"]⟩] })]
      { multiplier := 3 } [] [str! "s.o", str! "s.u"] =
    .ok [(str! "s.o", [str! "oid"]), (str! "s.u", [str! "uid"])] := by decide +kernel

/-- The hypothesis that no key column is multiplied unless what it refers to is, is needed: a key of
`s.x` made of references into the passthrough table `s.u` is multiplied, the table itself is not. -/
theorem c27_key_into_passthrough_multiplied :
    multipliedColumns [
      ((str! "s", str! "u"), { schema := str! "s", name := str! "u", columns := [str! "uid"], primaryKey := [str! "uid"], intColumns := [str! "uid"] }),
      ((str! "s", str! "x"), { schema := str! "s", name := str! "x", columns := [str! "uid"], primaryKey := [str! "uid"], intColumns := [str! "uid"], foreignKeys := [⟨[str! "uid"], str! "s", str! "u", [str! "uid"]⟩] })]
      { multiplier := 3 } [str! "s.u"] [str! "s.x", str! "s.u"] =
    .ok [(str! "s.x", [str! "uid"])] := by decide +kernel

/-- A passthrough table referring to a multiplied column is rejected. -/
example : multipliedColumns exMultTables { multiplier := 3 } [str! "s.o"] [str! "s.o", str! "s.u"] =
    .error .passthroughFk := by decide +kernel

end Subsetter.Props
