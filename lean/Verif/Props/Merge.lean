import Verif.Proofs.Merge
import Verif.Props.Multiply

/-
Properties C29 and C30: merge mode.
-/
namespace Subsetter.Props
open Subsetter Spec

theorem merged_dest {M : MergeCtx} {n : Str} {k k' : Key} (h : Merged M n k) (h' : Merged M n k') : k = k' :=
  destOf_unique h.2.2 h'.2.2

theorem shifted_iff {M : MergeCtx} {n : Str} {k : Key} {c : Str} {m : Option Int}
    (hn : Merged M n k) : Shifted M n c m ↔ IntKey M k c ∧ IsMax (M.contents k) c m := by
  constructor
  · rintro ⟨k', t, h1, h2, h3, h4, h5⟩
    cases merged_dest hn h1
    exact ⟨⟨t, h2, h3, h4⟩, h5⟩
  · rintro ⟨⟨t, h2, h3, h4⟩, h5⟩
    exact ⟨k, t, hn, h2, h3, h4, h5⟩

theorem intKey_unique {M : MergeCtx} (hM : M.OK) {k : Key} {c d : Str} (h : IntKey M k c) (h' : IntKey M k d) :
    c = d := by
  obtain ⟨t, h1, h2, -⟩ := h
  obtain ⟨t', h1', h2', -⟩ := h'
  have e := dget_of_mem hM.dest h1
  rw [dget_of_mem hM.dest h1'] at e
  cases e
  rw [h2] at h2'
  cases h2'
  rfl

theorem isMax_exists (rows : List Row) (c : Str) : ∃ m, IsMax rows c m := ⟨_, colMax_isMax rows c⟩

theorem shiftRow_get (o : Dict Str Int) (r : Row) (c : Str) :
    (shiftRow o r).get c = shiftVal (dget o c) (r.get c) := by
  unfold shiftRow Row.get
  induction r with
  | nil => simp [dget, shiftVal]
  | cons e r ih =>
    obtain ⟨a, v⟩ := e
    simp only [List.map_cons, dget]
    by_cases h : a = c
    · simp [h]
    · simpa [h] using ih

/-- The source columns of a merged table's key refer, in the destination, to values that exist: the
destination respects the foreign keys that decide the offset of the key. -/
def KeyCovered (M : MergeCtx) (n : Str) (k : Key) (c : Str) : Prop :=
  ∀ n' k' d, KeyRef M n c n' → Merged M n' k' → IntKey M k' d → Covered M k c k' d

/-- C29. The key of a merged row is above every key the destination table holds: with a single integer primary
key `c`, a non-negative key of the source, also when multiplied, is written as a number larger than every key
present.  The hypothesis on keys that are also foreign keys is that the destination respects them. -/
theorem c29_above_existing {M : MergeCtx} (hM : M.OK) {offs : Dict Key (Dict Str Int)}
    (h : prepare M.remap M.src M.dest M.contents M.pass M.planned = .ok offs) {n : Str} {k : Key}
    (hn : Merged M n k) {c : Str} (hc : IntKey M k c) (hcov : KeyCovered M n k c) (mult : List Str)
    {m i v : Int} (hm : 0 ≤ m) (hi : 0 ≤ i) (hv : 0 ≤ v) :
    ∃ u, outVal mult m i (offsetsOf offs k) c (.int v) = .int u ∧
      ∀ r ∈ M.contents k, ∀ w, r.get c = .int w → w < u := by
  have hpos : ∃ x, 0 ≤ x ∧ (if c ∈ mult then copyVal m i (.int v) else .int v) = .int x := by
    split
    · exact ⟨v * m + i, by have := Int.mul_nonneg hv hm; omega, rfl⟩
    · exact ⟨v, hv, rfl⟩
  obtain ⟨x, hx, hxe⟩ := hpos
  unfold outVal
  rw [hxe]
  refine ⟨_, rfl, fun r hr w hw => ?_⟩
  rcases (prepare_ok hM.dest hM.src hM.planned hM.inj h).2 n k hn c with ⟨n', d, mx, h1, h2, h3⟩ | ⟨h1, h2 | ⟨h2, -⟩⟩
  · obtain ⟨k', t, h4, h5, h6, h7, h8⟩ := h2
    obtain ⟨p, h9, h10⟩ := hcov n' k' d h1 h4 ⟨t, h5, h6, h7⟩ r hr (by rw [hw]; simp)
    rw [hw] at h10
    have := h8.2 p h9 w h10
    rw [h3]
    simp only [Option.getD_some]
    omega
  · obtain ⟨mx, h3, h4⟩ := h2
    rw [h4]
    obtain ⟨-, h5⟩ := (shifted_iff hn).1 h3
    cases mx with
    | none => exact absurd hw (h5 r hr w)
    | some mx =>
      have := h5.2 r hr w hw
      simp only [Option.map_some, Option.getD_some]
      omega
  · obtain ⟨mx, hmx⟩ := isMax_exists (M.contents k) c
    exact absurd ((shifted_iff hn).2 ⟨hc, hmx⟩) (h2 mx)

/-- C29. Merging rows keeps the primary keys of a table unique: neither an existing row nor another new row has
the key of a new row. -/
theorem c29_keys_unique {M : MergeCtx} (hM : M.OK) {offs : Dict Key (Dict Str Int)}
    (h : prepare M.remap M.src M.dest M.contents M.pass M.planned = .ok offs) {n : Str} {k : Key}
    (hn : Merged M n k) {c : Str} (hc : IntKey M k c) (hcov : KeyCovered M n k c)
    (hold : KeysUnique [c] (M.contents k)) {rows : List Row} (hrows : KeysUnique [c] rows)
    (hint : ∀ r ∈ rows, ∃ v, 0 ≤ v ∧ r.get c = .int v) :
    KeysUnique [c] (M.contents k ++ rows.map (shiftRow (offsetsOf offs k))) := by
  unfold KeysUnique at hold hrows ⊢
  rw [List.map_append, List.nodup_append]
  refine ⟨hold, ?_, ?_⟩
  · rw [List.map_map]
    refine List.Nodup.map_on ?_ (List.Nodup.of_map _ hrows)
    intro a ha b hb e
    have key : [c].map a.get = [c].map b.get := by
      obtain ⟨v, -, hv⟩ := hint a ha
      obtain ⟨w, -, hw⟩ := hint b hb
      simp only [Function.comp, List.map_cons, List.map_nil, shiftRow_get, hv, hw, shiftVal, List.cons.injEq,
        Val.int.injEq, and_true] at e ⊢
      omega
    exact List.inj_on_of_nodup_map hrows ha hb key
  · intro x hx y hy
    obtain ⟨r, hr, rfl⟩ := List.mem_map.1 hx
    rw [List.map_map] at hy
    obtain ⟨s, hs, rfl⟩ := List.mem_map.1 hy
    obtain ⟨v, hv0, hv⟩ := hint s hs
    obtain ⟨u, hu, habove⟩ := c29_above_existing hM h hn hc hcov [] (m := 1) (i := 0) (by omega) (by omega) hv0
    have hu' : shiftVal (dget (offsetsOf offs k) c) (.int v) = .int u := by simpa [outVal] using hu
    simp only [Function.comp, List.map_cons, List.map_nil, shiftRow_get, hv, hu', ne_eq, List.cons.injEq, and_true]
    intro e
    have := habove r hr u e
    omega

/-- C29. Different keys, and different copies of a key, are written as different keys. -/
theorem c29_distinct {mult : List Str} {m i j : Int} (hi : 0 ≤ i) (him : i < m) (hj : 0 ≤ j) (hjm : j < m)
    {offsets : Dict Str Int} {c : Str} {v w : Int}
    (h : outVal mult m i offsets c (.int v) = outVal mult m j offsets c (.int w)) :
    v = w ∧ (c ∈ mult → i = j) := by
  unfold outVal at h
  by_cases hc : c ∈ mult
  · simp only [hc, if_true, copyVal, shiftVal, Val.int.injEq] at h
    have h' : v * m + i = w * m + j := by omega
    obtain ⟨h1, h2⟩ := c26_column_injective (v := .int v) (w := .int w) (x := .int (v * m + i)) hi him hj hjm rfl
      (by simp [multiplyColumn, h']) (by simp)
    exact ⟨by cases h1; rfl, fun _ => h2⟩
  · simp only [hc, if_false, shiftVal, Val.int.injEq] at h
    exact ⟨by omega, fun h => absurd h hc⟩

/-- References between rows survive shifting if the paired columns are shifted alike. -/
theorem refers_shift {oa ob : Dict Str Int} {cols dcols : List Str}
    (h : ∀ e ∈ cols.zip dcols, dget oa e.1 = dget ob e.2) (r p : Row) :
    Refers cols dcols (shiftRow oa r) (shiftRow ob p) ↔ Refers cols dcols r p := by
  unfold Refers
  refine forall_congr' fun e => forall_congr' fun he => ?_
  rw [shiftRow_get, shiftRow_get, h e he]
  cases r.get e.1 <;> cases p.get e.2 <;> simp [shiftVal]

/-- C30. A foreign key column of a merged table is shifted exactly as the key it refers to, provided that the
parent is merged as well and has a single integer primary key that is not itself a reference to a merged
table, that the column is not at the same time a reference to another merged table, and that the destination
respects the reference. -/
theorem c30_same_shift {M : MergeCtx} (hM : M.OK) {offs : Dict Key (Dict Str Int)}
    (h : prepare M.remap M.src M.dest M.contents M.pass M.planned = .ok offs) {a b : Str} {ka kb : Key}
    (ha : Merged M a ka) (hb : Merged M b kb) {c d : Str} (href : KeyRef M a c b) (hd : IntKey M kb d)
    (honly : ∀ b' k', KeyRef M a c b' → Merged M b' k' → b' = b)
    (hroot : ∀ b' k', KeyRef M b d b' → ¬ Merged M b' k') (hcov : Covered M ka c kb d) :
    dget (offsetsOf offs ka) c = dget (offsetsOf offs kb) d := by
  obtain ⟨mx, hmx⟩ := isMax_exists (M.contents kb) d
  have hsb : Shifted M b d mx := (shifted_iff hb).2 ⟨hd, hmx⟩
  have hB : dget (offsetsOf offs kb) d = mx.map (· + 1) := by
    rcases (prepare_ok hM.dest hM.src hM.planned hM.inj h).2 b kb hb d with ⟨n', d', m, h1, ⟨k', t, h2, -⟩, -⟩ | ⟨-, ⟨m, h1, h2⟩ | ⟨h1, -⟩⟩
    · exact absurd h2 (hroot n' k' h1)
    · rw [h2, isMax_unique ((shifted_iff hb).1 h1).2 hmx]
    · exact absurd hsb (h1 mx)
  rw [hB]
  rcases (prepare_ok hM.dest hM.src hM.planned hM.inj h).2 a ka ha c with ⟨n', d', m, h1, h2, h3⟩ | ⟨h1, h2⟩
  · have h2' := h2
    obtain ⟨k', t, h4, -⟩ := h2'
    cases honly n' k' h1 h4
    obtain ⟨h5, h6⟩ := (shifted_iff hb).1 h2
    cases intKey_unique hM h5 hd
    rw [h3, isMax_unique hmx h6]
    rfl
  · cases mx with
    | some mx => exact absurd hsb (h1 b d mx href)
    | none =>
      rcases h2 with ⟨m, h2, h3⟩ | ⟨-, h3⟩
      · rw [h3]
        obtain ⟨-, h4⟩ := (shifted_iff ha).1 h2
        cases m with
        | none => rfl
        | some m =>
          obtain ⟨⟨r, h5, h6⟩, -⟩ := h4
          obtain ⟨p, h7, h8⟩ := hcov r h5 (by rw [h6]; simp)
          rw [h6] at h8
          exact absurd h8 (hmx p h7 m)
      · rw [h3]; rfl

/-- C30. Under the same conditions a child row refers after shifting to the shifted version of the parent row
it referred to, and to no other. -/
theorem c30_reference_kept_partial {M : MergeCtx} (hM : M.OK) {offs : Dict Key (Dict Str Int)}
    (h : prepare M.remap M.src M.dest M.contents M.pass M.planned = .ok offs) {a b : Str} {ka kb : Key}
    (ha : Merged M a ka) (hb : Merged M b kb) {c d : Str} (href : KeyRef M a c b) (hd : IntKey M kb d)
    (honly : ∀ b' k', KeyRef M a c b' → Merged M b' k' → b' = b)
    (hroot : ∀ b' k', KeyRef M b d b' → ¬ Merged M b' k') (hcov : Covered M ka c kb d) (r p : Row) :
    Refers [c] [d] (shiftRow (offsetsOf offs ka) r) (shiftRow (offsetsOf offs kb) p) ↔ Refers [c] [d] r p := by
  refine refers_shift ?_ r p
  intro e he
  simp only [List.zip_cons_cons, List.zip_nil_right, List.mem_singleton] at he
  subst he
  exact c30_same_shift hM h ha hb href hd honly hroot hcov

/-- C30. With a multiplier, copy `i` of the child value and copy `i` of the parent value are written alike. -/
theorem c30_copies_kept_partial {M : MergeCtx} (hM : M.OK) {offs : Dict Key (Dict Str Int)}
    (h : prepare M.remap M.src M.dest M.contents M.pass M.planned = .ok offs) {a b : Str} {ka kb : Key}
    (ha : Merged M a ka) (hb : Merged M b kb) {c d : Str} (href : KeyRef M a c b) (hd : IntKey M kb d)
    (honly : ∀ b' k', KeyRef M a c b' → Merged M b' k' → b' = b)
    (hroot : ∀ b' k', KeyRef M b d b' → ¬ Merged M b' k') (hcov : Covered M ka c kb d)
    {multA multB : List Str} (hmult : c ∈ multA ↔ d ∈ multB) (m i : Int) (v : Val) :
    outVal multA m i (offsetsOf offs ka) c v = outVal multB m i (offsetsOf offs kb) d v := by
  unfold outVal
  rw [c30_same_shift hM h ha hb href hd honly hroot hcov]
  simp only [hmult]

/-- C30. References into a table that is passed through are left alone: nothing there is shifted, and neither
is a referring column that is not the primary key and not at the same time a reference to a merged table. -/
theorem c30_passthrough_kept_partial {M : MergeCtx} (hM : M.OK) {offs : Dict Key (Dict Str Int)}
    (h : prepare M.remap M.src M.dest M.contents M.pass M.planned = .ok offs) {a b : Str} {ka kb : Key}
    (ha : Merged M a ka) (hb : b ∈ M.planned) (hp : b ∈ M.pass) (hbk : DestOf M.remap b kb)
    {cols dcols : List Str}
    (hfree : ∀ c ∈ cols, ¬ IntKey M ka c ∧ ∀ b' k', KeyRef M a c b' → ¬ Merged M b' k') (r p : Row) :
    shiftRow (offsetsOf offs kb) p = p ∧
    (Refers cols dcols (shiftRow (offsetsOf offs ka) r) (shiftRow (offsetsOf offs kb) p) ↔ Refers cols dcols r p) := by
  have hB : offsetsOf offs kb = [] := by
    refine (prepare_ok hM.dest hM.src hM.planned hM.inj h).1 kb fun n hn => ?_
    have e := hM.inj n hn.1 b hb kb hn.2.2 hbk
    subst e
    exact hn.2.1 hp
  have hid : ∀ v, shiftVal none v = v := fun v => by cases v <;> simp [shiftVal]
  refine ⟨?_, refers_shift (fun e he => ?_) r p⟩
  · rw [hB]
    unfold shiftRow
    conv_rhs => rw [← List.map_id p]
    refine List.map_congr_left fun e _ => ?_
    simp [dget, hid]
  · obtain ⟨h1, h2⟩ := hfree e.1 (List.of_mem_zip he).1
    rw [hB]
    rcases (prepare_ok hM.dest hM.src hM.planned hM.inj h).2 a ka ha e.1 with ⟨n', d', m, h3, ⟨k', t, h4, -⟩, -⟩ | ⟨-, ⟨m, h3, -⟩ | ⟨-, h3⟩⟩
    · exact absurd h4 (h2 n' k' h3)
    · exact absurd ((shifted_iff ha).1 h3).1 h1
    · rw [h3]; rfl

/-- Rows of tables that are passed through, and of tables without a single integer primary key and without
references to merged tables, are written unchanged. -/
theorem c29_unshifted {M : MergeCtx} (hM : M.OK) {offs : Dict Key (Dict Str Int)}
    (h : prepare M.remap M.src M.dest M.contents M.pass M.planned = .ok offs) :
    (∀ k, (∀ n, ¬ Merged M n k) → offsetsOf offs k = []) ∧
    ∀ n k c, Merged M n k → ¬ IntKey M k c → (∀ b' k', KeyRef M n c b' → ¬ Merged M b' k') →
      dget (offsetsOf offs k) c = none := by
  refine ⟨(prepare_ok hM.dest hM.src hM.planned hM.inj h).1, fun n k c hn h1 h2 => ?_⟩
  rcases (prepare_ok hM.dest hM.src hM.planned hM.inj h).2 n k hn c with ⟨n', d', m, h3, ⟨k', t, h4, -⟩, -⟩ | ⟨-, ⟨m, h3, -⟩ | ⟨-, h3⟩⟩
  · exact absurd h4 (h2 n' k' h3)
  · exact absurd ((shifted_iff hn).1 h3).1 h1
  · exact h3

/-! ### Examples -/

def mxU (s : Str) : TableMeta := { schema := s, name := str! "users", columns := [str! "id"], primaryKey := [str! "id"], intColumns := [str! "id"] }
/-- Orders refer to users. -/
def mxO (s : Str) : TableMeta := { schema := s, name := str! "orders", columns := [str! "id", str! "uid"], primaryKey := [str! "id"], intColumns := [str! "id", str! "uid"], foreignKeys := [⟨[str! "uid"], s, str! "users", [str! "id"]⟩] }
/-- The key of a profile is the user's. -/
def mxP (s : Str) : TableMeta := { schema := s, name := str! "profiles", columns := [str! "uid"], primaryKey := [str! "uid"], intColumns := [str! "uid"], foreignKeys := [⟨[str! "uid"], s, str! "users", [str! "id"]⟩] }
/-- Pictures refer to profiles. -/
def mxQ (s : Str) : TableMeta := { schema := s, name := str! "pics", columns := [str! "id", str! "pid"], primaryKey := [str! "id"], intColumns := [str! "id", str! "pid"], foreignKeys := [⟨[str! "pid"], s, str! "profiles", [str! "uid"]⟩] }

def mxTables (s : Str) : Tables := [mxU s, mxO s, mxP s, mxQ s].map fun t => (t.key, t)
def mxRemap (n : Str) : Str := 'd' :: n.drop 1
/-- What the destination holds: users 1 to 5, of whom 2 has a profile, an order and a picture. -/
def mxContents : DbState := fun k =>
  if k.2 = str! "users" then [1, 5, 2].map fun i : Int => [(str! "id", .int i)]
  else if k.2 = str! "orders" then [[(str! "id", .int 10), (str! "uid", .int 2)]]
  else if k.2 = str! "profiles" then [[(str! "uid", .int 2)]]
  else [[(str! "id", .int 7), (str! "pid", .int 2)]]
def mxNames : List Str := [str! "s.users", str! "s.orders", str! "s.profiles", str! "s.pics"]
def mxCtx (pass planned : List Str) (S : DbState) : MergeCtx := ⟨mxRemap, mxTables (str! "s"), mxTables (str! "d"), S, pass, planned⟩

def mxOffs (pass planned : List Str) (S : DbState) : Except DestErr (List (Str × Dict Str Int)) :=
  match prepare mxRemap (mxTables (str! "s")) (mxTables (str! "d")) S pass planned with
  | .error e => .error e
  | .ok offs => .ok (offs.map fun e => (e.1.2, e.2))

/-- Users and orders are shifted as they should be. -/
example : mxOffs [] [str! "s.users", str! "s.orders"] mxContents =
    .ok [(str! "users", [(str! "id", 6)]), (str! "orders", [(str! "id", 11), (str! "uid", 6)])] := by decide

/-- C30 fails for a reference to a key that is itself a reference: the profile of user 3 is written with key 9,
a picture of it refers to profile 6. -/
theorem c30_chain_broken : mxOffs [] mxNames mxContents =
    .ok [(str! "users", [(str! "id", 6)]), (str! "orders", [(str! "id", 11), (str! "uid", 6)]),
      (str! "profiles", [(str! "uid", 6)]), (str! "pics", [(str! "id", 8), (str! "pid", 3)])] ∧
    Refers [str! "pid"] [str! "uid"] [(str! "id", .int 1), (str! "pid", .int 3)] [(str! "uid", .int 3)] ∧
    ¬ Refers [str! "pid"] [str! "uid"] (shiftRow [(str! "id", 8), (str! "pid", 3)] [(str! "id", .int 1), (str! "pid", .int 3)])
      (shiftRow [(str! "uid", 6)] [(str! "uid", .int 3)]) := by
  refine ⟨by decide, by unfold Refers; decide, by unfold Refers; decide⟩

/-- C30 fails for a key that is a reference into a table passed through: the key is shifted, the row it refers
to is not. -/
theorem c30_passthrough_key_broken : mxOffs [str! "s.users"] [str! "s.users", str! "s.profiles"] mxContents =
    .ok [(str! "profiles", [(str! "uid", 3)])] := by decide

/-- C30 fails for a table passed through that refers to a merged one: the key is shifted, the reference is
not. -/
theorem c30_passthrough_child_broken : mxOffs [str! "s.orders"] [str! "s.users", str! "s.orders"] mxContents =
    .ok [(str! "users", [(str! "id", 6)])] := by decide

/-- Planned references only: a reference to a table that was not loaded with the plan makes merging fail. -/
theorem c30_unknown_parent_fails :
    (match prepare mxRemap [((str! "s", str! "orders"), mxO (str! "s"))] (mxTables (str! "d")) mxContents [] [str! "s.orders"] with
      | .error e => some e
      | .ok _ => none) = some .keyError := by decide

/-- Tables whose first column is shifted and that are referred to by both columns. -/
def mxPair (s : Str) : TableMeta := { schema := s, name := str! "pairs", columns := [str! "uid", str! "k"], primaryKey := [str! "uid", str! "k"], intColumns := [str! "uid"], foreignKeys := [⟨[str! "uid"], s, str! "users", [str! "id"]⟩] }
def mxNote (s : Str) : TableMeta := { schema := s, name := str! "notes", columns := [str! "id", str! "uid", str! "k"], primaryKey := [str! "id"], intColumns := [str! "id", str! "uid"], foreignKeys := [⟨[str! "uid", str! "k"], s, str! "pairs", [str! "uid", str! "k"]⟩] }

/-- C30 fails for references by several columns: `pairs.uid` is shifted with the users, `notes.uid` is not. -/
theorem c30_composite_broken :
    (match prepare mxRemap ([mxU, mxPair, mxNote].map fun t => ((t (str! "s")).key, t (str! "s"))) ([mxU, mxPair, mxNote].map fun t => ((t (str! "d")).key, t (str! "d")))
        (fun k => if k.2 = str! "users" then [[(str! "id", .int 5)]] else []) [] [str! "s.users", str! "s.pairs", str! "s.notes"] with
      | .error _ => []
      | .ok offs => offs.map fun e => (e.1.2, e.2)) =
    [(str! "users", [(str! "id", 6)]), (str! "pairs", [(str! "uid", 6)]), (str! "notes", [])] := by decide

/-- README promises `new_id = source_id + max(0, existing_ids...) + 1`; an empty table is not shifted, and if
all keys present are negative the shift may be too. -/
theorem c29_readme_differs : mxOffs [] [str! "s.users"] (fun _ => []) = .ok [(str! "users", [])] ∧
    mxOffs [] [str! "s.users"] (fun _ => [[(str! "id", .int (-4))]]) = .ok [(str! "users", [(str! "id", -3)])] :=
  ⟨by decide, by decide⟩

/-- C29 needs keys that are not negative: key -1 of the source becomes key 5 of the destination. -/
theorem c29_negative_collides : outVal [] 1 0 [(str! "id", 6)] (str! "id") (.int (-1)) = .int 5 := by decide

theorem mxCtx_ok (pass : List Str) (S : DbState) : (mxCtx pass mxNames S).OK := by
  refine ⟨show (((mxTables (str! "d")).map Prod.fst).Nodup) by decide, show (((mxTables (str! "s")).map Prod.fst).Nodup) by decide, show mxNames.Nodup by decide, ?_⟩
  intro n hn n' hn' k h h'
  simp only [mxCtx, mxNames, List.mem_cons, List.not_mem_nil, or_false] at hn hn'
  have hd : ∀ x, DestOf mxRemap x k → (parseTableName x).bind (remapTable mxRemap) = some k := by
    rintro x ⟨s, t, h1, h2⟩
    rw [h1]; exact h2
  have e := (hd _ h).trans (hd _ h').symm
  rcases hn with rfl | rfl | rfl | rfl <;> rcases hn' with rfl | rfl | rfl | rfl <;> first | rfl | exact absurd e (by decide)

/-- The hypotheses of the theorems are met: orders and users. -/
example : ∃ offs, prepare mxRemap (mxTables (str! "s")) (mxTables (str! "d")) mxContents [] mxNames = .ok offs ∧
    ∀ r p, Refers [str! "uid"] [str! "id"] (shiftRow (offsetsOf offs (str! "d", str! "orders")) r)
      (shiftRow (offsetsOf offs (str! "d", str! "users")) p) ↔ Refers [str! "uid"] [str! "id"] r p := by
  cases h : prepare mxRemap (mxTables (str! "s")) (mxTables (str! "d")) mxContents [] mxNames with
  | error e =>
    have : mxOffs [] mxNames mxContents ≠ .error e := by rw [c30_chain_broken.1]; simp
    unfold mxOffs at this
    rw [h] at this
    exact absurd rfl this
  | ok offs =>
    have hno : ∀ n c b', KeyRef (mxCtx [] mxNames mxContents) n c b' →
        (n = str! "s.orders" → b' = str! "s.users") ∧ n ≠ str! "s.users" := by
      rintro n c b' ⟨k, t, fk, p, h1, h2, h3, h4, h5, h6, rfl⟩
      simp only [mxCtx, mxTables, List.map_cons, List.map_nil, List.mem_cons, Prod.mk.injEq, List.not_mem_nil, or_false] at h2
      rcases h2 with ⟨rfl, rfl⟩ | ⟨rfl, rfl⟩ | ⟨rfl, rfl⟩ | ⟨rfl, rfl⟩
      · cases h3
      · cases List.mem_singleton.1 h3
        exact ⟨fun _ => rfl, by rintro rfl; revert h1; decide⟩
      · refine ⟨?_, ?_⟩ <;> (rintro rfl; exact absurd h1 (by decide))
      · refine ⟨?_, ?_⟩ <;> (rintro rfl; exact absurd h1 (by decide))
    refine ⟨offs, rfl, fun r p => c30_reference_kept_partial (M := mxCtx [] mxNames mxContents) (mxCtx_ok _ _) h
      (a := str! "s.orders") (b := str! "s.users") ⟨by decide, by decide, ⟨str! "s", str! "orders", by decide, by decide⟩⟩
      ⟨by decide, by decide, ⟨str! "s", str! "users", by decide, by decide⟩⟩
      ⟨(str! "s", str! "orders"), mxO (str! "s"), ⟨[str! "uid"], str! "s", str! "users", [str! "id"]⟩, mxU (str! "s"), by decide, by decide, by decide, rfl, by decide, rfl, by decide⟩
      ⟨mxU (str! "d"), by decide, by decide, by decide⟩ (fun b' _ hb' _ => (hno _ _ _ hb').1 rfl)
      (fun b' _ hb' => absurd rfl (hno _ _ _ hb').2) ?_ r p⟩
    unfold Covered
    decide

end Subsetter.Props
