import Verif.Proofs.DestTop
import Verif.Props.Output

/-
Properties C36 to C39 and C55: tables of the destination, their order, truncation and creation.
-/
namespace Subsetter.Props
open Subsetter Spec

section
variable {fnmatch : Str → Str → Bool} {remap : Str → Str} {planned : List Str} {src : Tables} {create : Bool}
  {db0 db : Dict Str TableMeta} {x : DestMeta}

/-! ### C38 -/

/-- C38: splitting a qualified name and joining the parts again gives the name, and the schema part has no
dot. -/
theorem c38_split_join {s : Str} {k : Key} (h : parseTableName s = some k) :
    k.1 ++ '.' :: k.2 = s ∧ '.' ∉ k.1 := ⟨parse_str h, parse_fst_nodot h⟩

/-- C38: a name can be split exactly if it has a dot. -/
theorem c38_splits_iff_dot (s : Str) : (∃ k, parseTableName s = some k) ↔ '.' ∈ s := by
  constructor
  · rintro ⟨k, h⟩
    rw [← (c38_split_join h).1]
    simp
  · intro h
    induction s with
    | nil => cases h
    | cons c cs ih =>
      by_cases hc : c = '.'
      · exact ⟨([], cs), by simp [parseTableName, splitDot, hc]⟩
      · obtain ⟨k, hk⟩ := ih (by simpa [Ne.symm hc] using h)
        exact ⟨(c :: k.1, k.2), by
          unfold parseTableName at hk ⊢
          unfold splitDot
          rw [if_neg hc, hk]⟩

/-- C38: joining and then splitting gives the parts back exactly if the schema has no dot. -/
theorem c38_join_split (s t : Str) : parseTableName (s ++ '.' :: t) = some (s, t) ↔ '.' ∉ s :=
  ⟨fun h => (c38_split_join h).2, fun h => parse_of_nodot (k := (s, t)) h⟩

/-- C38: tables of schemas without a dot never share a name. -/
theorem c38_names_differ {s t s' t' : Str} (hs : '.' ∉ s) (hs' : '.' ∉ s')
    (h : s ++ '.' :: t = s' ++ '.' :: t') : s = s' ∧ t = t' := by
  have := str_inj (k := (s, t)) (k' := (s', t')) hs hs' h
  exact ⟨congrArg Prod.fst this, congrArg Prod.snd this⟩

/-- C38: a table name may have dots, but with a dot in a schema two tables share a name. -/
theorem c38_dot_in_schema : parseTableName (str! "a.b.c") = some (str! "a", str! "b.c") ∧
    Key.str (str! "a.b", str! "c") = Key.str (str! "a", str! "b.c") ∧
    parseTableName (Key.str (str! "a.b", str! "c")) ≠ some (str! "a.b", str! "c") := by decide

/-! ### C37 -/

/-- C37: if the output is accepted, every planned table has a destination, and different planned tables
have different ones. -/
theorem c37_no_merge (h : destInit fnmatch db remap planned = .ok x) :
    (∀ n ∈ planned, ∃ k, DestOf remap n k) ∧
    ∀ n ∈ planned, ∀ n' ∈ planned, ∀ k, DestOf remap n k → DestOf remap n' k → n = n' := by
  obtain ⟨h1, -⟩ := destInit_ok h
  obtain ⟨-, h2, -⟩ := remapped_facts h1
  exact ⟨fun n hn => (h2 n hn).imp fun k hk => hk.1, fun n hn n' hn' k hk hk' => remapped_inj h1 hn hn' hk hk'⟩

/-- C37: an output is refused only for a name that cannot be split or for two planned tables with one
destination, which the error names. -/
theorem c37_refused {e : DestErr} (hdb : DbOK db) (h : destInit fnmatch db remap planned = .error e) :
    (e = .badName ∧ ∃ n ∈ planned, ∀ k, ¬ DestOf remap n k) ∨
    ∃ n ∈ planned, ∃ n' ∈ planned, n' ≠ n ∧ ∃ k : Key, DestOf remap n k ∧ DestOf remap n' k ∧
      e = .duplicate (k.1 ++ '.' :: k.2) := by
  unfold destInit at h
  cases h1 : buildRemap remap planned [] with
  | error e' =>
    rw [h1] at h; cases h
    rcases buildRemap_error h1 with h2 | ⟨n, n', k, h2, h3, h4, h5, h6⟩
    · exact .inl h2
    · rcases h6 with h6 | ⟨h6, h7⟩
      · cases h6
      · exact .inr ⟨n, h3, n', h6, h5, k, h4, h7, h2⟩
  | ok m =>
    rw [h1] at h; dsimp only at h
    rcases fromEngine_spec (fnmatch := fnmatch) hdb (dkeys m) false true with ⟨l', h2, -⟩ | ⟨-, s, k, h3, h4, h5⟩
    · rw [h2] at h; cases h
    · exfalso
      refine h5 ?_
      induction h4 with
      | refl =>
        obtain ⟨n, t, g1, g2, -⟩ := h3
        exact ⟨n, t, g1, g2⟩
      | tail _ hst _ =>
        rcases hst with ⟨g, -⟩ | ⟨-, n, t, fk, g1, g2, -⟩
        · cases g
        · exact ⟨n, t, g1, g2⟩

/-! ### C36: truncation -/

/-- C36: truncation never leaves a dangling reference, after whichever of its commits it stops.  It only
ever empties tables, and in the end exactly the loaded ones are empty. -/
theorem c36_truncation (hdb : DbOK db0) (hcl : DbClosed db0) (hsrc : TablesOK src)
    (hself : create = true → ∀ n ∈ dkeys db0, fnmatch n n = true) (hp : Prepared fnmatch remap planned src db0 create db x)
    {S : DbState} {states : List DbState} (h : truncate x S = .ok states) :
    (Intact db S → ∀ X ∈ states, Intact db X) ∧
    (∀ X ∈ states, ∀ k, X k = S k ∨ ((∃ t, (k, t) ∈ x.tables) ∧ X k = [])) ∧
    (∀ k, (∃ t, (k, t) ∈ x.tables) → (states.getLast?.getD S) k = []) ∧
    ∀ k, (¬ ∃ t, (k, t) ∈ x.tables) → (states.getLast?.getD S) k = S k :=
  (prepared_facts hdb hcl hsrc hself hp).truncate h

/-- C36: the tables emptied are those whose names match a destination name as a pattern, and all tables
that refer to those, directly or not. -/
theorem c36_emptied (hdb : DbOK db) (h : destInit fnmatch db remap planned = .ok x) {S : DbState}
    {states : List DbState} (ht : truncate x S = .ok states) (k : Key) :
    ((states.getLast?.getD S) k = [] ∧ ∃ n ∈ planned, ∃ d : Key, DestOf remap n d ∧
      ∃ s, Selected fnmatch db [d.1 ++ '.' :: d.2] s ∧ Relation.ReflTransGen (fun a b => DbRef db b a) s k) ∨
    ((states.getLast?.getD S) k = S k ∧ ¬ ∃ n ∈ planned, ∃ d : Key, DestOf remap n d ∧
      ∃ s, Selected fnmatch db [d.1 ++ '.' :: d.2] s ∧ Relation.ReflTransGen (fun a b => DbRef db b a) s k) := by
  obtain ⟨h1, h2⟩ := destInit_ok h
  obtain ⟨hl, hk⟩ := loads_of_init hdb h2
  obtain ⟨-, hall, hback⟩ := remapped_facts h1
  have hf : PreparedFacts remap planned db x :=
    ⟨destInit_tables hdb h, hdb.names_nodup, hdb.name_eq, h1, hl⟩
  obtain ⟨-, -, g1, g2⟩ := hf.truncate ht
  have hiff : (∃ t, (k, t) ∈ x.tables) ↔ ∃ n ∈ planned, ∃ d : Key, DestOf remap n d ∧
        ∃ s, Selected fnmatch db [d.1 ++ '.' :: d.2] s ∧ Relation.ReflTransGen (fun a b => DbRef db b a) s k := by
    rw [hk]
    constructor
    · rintro ⟨s, ⟨n, t, e1, e2, pat, e3, e4⟩, e5⟩
      have := dget_isSome_iff.2 e3
      obtain ⟨p, hp⟩ := Option.isSome_iff_exists.1 this
      obtain ⟨e6, d, e7, e8⟩ := hback pat p hp
      exact ⟨p, e6, d, e7, s, ⟨n, t, e1, e2, pat, by rw [← e8]; exact List.mem_singleton.2 rfl, e4⟩, e5⟩
    · rintro ⟨p, e1, d, e2, s, ⟨n, t, e3, e4, pat, e5, e6⟩, e7⟩
      obtain ⟨d', f1, f2⟩ := hall p e1
      rw [destOf_unique f1 e2] at f2
      rw [List.mem_singleton] at e5
      subst e5
      exact ⟨s, ⟨n, t, e3, e4, _, dget_isSome_iff.1 (by rw [show d.1 ++ '.' :: d.2 = d.str from rfl, f2]; rfl), e6⟩, e7⟩
  by_cases hc : ∃ t, (k, t) ∈ x.tables
  · exact .inl ⟨g1 k hc, hiff.1 hc⟩
  · exact .inr ⟨g2 k hc, fun h => hc (hiff.2 h)⟩

/-! ### C36: insertion -/

/-- C36: no committed state while tables are written has a dangling reference, whether or not writing fails
at some point.  The rows written are assumed to refer to rows that were there before or that the referred
table is given (`WritesClosed`), and skipping or replacing rows not to change referenced columns
(`KeysKept`; see `c36_skip_dangles`). -/
theorem c36_insertion_partial {σ : Type} {W : Outside σ Val} {dialect : Dialect} (hdb : DbOK db0)
    (hcl : DbClosed db0) (hsrc : TablesOK src) (hself : create = true → ∀ n ∈ dkeys db0, fnmatch n n = true)
    (hp : Prepared fnmatch remap planned src db0 create db x)
    {order : List Str} (ho : insertOrder x = .ok order) {jobs : List TableJob}
    (hj : List.Forall₂ (fun n j => DestOf remap n (TableJob.key j)) order jobs)
    (hok : ∀ j ∈ jobs, JobOK W j) (hkept : KeysKept db jobs) {S0 : DbState}
    (hold : ∀ j ∈ jobs, TableHolds j.input.dest (S0 j.key)) (h0 : Intact db S0) {s : σ}
    {hist : List DbState} {writes : List (Key × List (List (List Val)))} {err : Option DestErr}
    (hrun : copyTables W dialect jobs [S0] s = (hist, writes, err))
    (hw : WritesClosed db jobs S0 writes err) : ∀ X ∈ hist, Intact db X :=
  (prepared_facts hdb hcl hsrc hself hp).insertion ho hj hok hkept hold h0 hrun hw

/-- C36: with the strategy `error` the same holds without the assumption on skipped and replaced rows. -/
theorem c36_insertion_error {σ : Type} {W : Outside σ Val} {dialect : Dialect} (hdb : DbOK db0)
    (hcl : DbClosed db0) (hsrc : TablesOK src) (hself : create = true → ∀ n ∈ dkeys db0, fnmatch n n = true)
    (hp : Prepared fnmatch remap planned src db0 create db x)
    {order : List Str} (ho : insertOrder x = .ok order) {jobs : List TableJob}
    (hj : List.Forall₂ (fun n j => DestOf remap n (TableJob.key j)) order jobs)
    (hok : ∀ j ∈ jobs, JobOK W j) (herr : ∀ j ∈ jobs, j.strategy = .error) {S0 : DbState}
    (hold : ∀ j ∈ jobs, TableHolds j.input.dest (S0 j.key)) (h0 : Intact db S0) {s : σ}
    {hist : List DbState} {writes : List (Key × List (List (List Val)))} {err : Option DestErr}
    (hrun : copyTables W dialect jobs [S0] s = (hist, writes, err))
    (hw : WritesClosed db jobs S0 writes err) : ∀ X ∈ hist, Intact db X := by
  refine c36_insertion_partial hdb hcl hsrc hself hp ho hj hok ?_ hold h0 hrun hw
  intro a fk b _
  refine ⟨fun j hj _ => .inl (herr j hj), fun j hj _ e => ?_⟩
  rw [herr j hj] at e; cases e

/-! ### C39 -/

/-- C39: the order of insertion has no table twice, has exactly the planned tables whose destinations are
loaded, and has tables before those that refer to them. -/
theorem c39_order (hdb : DbOK db0) (hcl : DbClosed db0) (hsrc : TablesOK src)
    (hself : create = true → ∀ n ∈ dkeys db0, fnmatch n n = true) (hp : Prepared fnmatch remap planned src db0 create db x)
    {order : List Str} (ho : insertOrder x = .ok order) :
    order.Nodup ∧
    (∀ n, n ∈ order ↔ n ∈ planned ∧ ∃ k, DestOf remap n k ∧ ∃ t, (k, t) ∈ x.tables) ∧
    ∀ a b na nb, DbRef db a b → DestOf remap na a → DestOf remap nb b → na ∈ order → nb ∈ order →
      Before order nb na :=
  (prepared_facts hdb hcl hsrc hself hp).order ho

/-- C39: with `create` every planned table is written. -/
theorem c39_create_writes_all (hdb : DbOK db0) (hcl : DbClosed db0) (hsrc : TablesOK src)
    (hself : ∀ n ∈ dkeys db0, fnmatch n n = true) (hp : Prepared fnmatch remap planned src db0 true db x)
    {order : List Str} (ho : insertOrder x = .ok order) : ∀ n, n ∈ order ↔ n ∈ planned := by
  intro n
  rw [(c39_order hdb hcl hsrc (fun _ => hself) hp ho).2.1]
  refine ⟨fun h => h.1, fun hn => ⟨hn, ?_⟩⟩
  cases hp with
  | @created x ts ts' h hc hperm =>
    have hT := destInit_tables hdb h
    have hF := created_facts hT (destInit_ok h).1 hc
    obtain ⟨k, h1, h2⟩ := hF.all n hn
    refine ⟨k, h1, ?_⟩
    have hnd : (ts'.map TableMeta.key).Nodup := (hperm.map _).nodup_iff.2 hF.nodup
    by_cases hk : ∃ t ∈ ts', t.key = k
    · obtain ⟨t, h3, h4⟩ := hk
      exact ⟨t, dget_some_mem ((trackTables_get hnd k t).2 (.inl ⟨h3, h4⟩))⟩
    · rcases h2 with h2 | ⟨t, h3, h4⟩
      · obtain ⟨t, h3⟩ := Option.isSome_iff_exists.1 h2
        exact ⟨t, dget_some_mem ((trackTables_get hnd k t).2 (.inr ⟨fun t' ht e => hk ⟨t', ht, e⟩, h3⟩))⟩
      · exact absurd ⟨t, hperm.mem_iff.2 h3, h4⟩ hk

/-- C39: without `create` a planned table is written if its destination exists, provided the names of
destination tables match themselves as patterns. -/
theorem c39_existing_written_partial (hdb : DbOK db0) (hcl : DbClosed db0) (hsrc : TablesOK src)
    (hself : ∀ n ∈ dkeys db0, fnmatch n n = true) (hp : Prepared fnmatch remap planned src db0 false db x)
    {order : List Str} (ho : insertOrder x = .ok order) {n : Str} (hn : n ∈ planned) {k : Key}
    (hk : DestOf remap n k) : n ∈ order ↔ InDb db k := by
  rw [(c39_order hdb hcl hsrc (fun h => by cases h) hp ho).2.1]
  cases hp with
  | plain h =>
    obtain ⟨h1, h2⟩ := destInit_ok h
    obtain ⟨hl, hk'⟩ := loads_of_init hdb h2
    obtain ⟨-, hall, -⟩ := remapped_facts h1
    constructor
    · rintro ⟨-, k', g1, t, g2⟩
      rw [destOf_unique g1 hk] at g2
      obtain ⟨m, hm⟩ := hl.sub k t g2
      exact ⟨m, t, hm, (destInit_tables hdb h).key_eq k t g2⟩
    · rintro ⟨m, t, g1, g2⟩
      refine ⟨hn, k, hk, ?_⟩
      rw [hk']
      refine ⟨k, ⟨m, t, g1, g2, m, ?_, hself m (List.mem_map_of_mem (f := Prod.fst) g1)⟩, .refl⟩
      obtain ⟨k', g3, g4⟩ := hall n hn
      rw [destOf_unique g3 hk] at g4
      have : m = k.str := by rw [hdb.name_eq m t g1, ← g2]; rfl
      rw [this]
      exact List.mem_map.2 ⟨_, dget_some_mem g4, rfl⟩

/-- C39: there is an order of insertion unless tables of the destination refer to each other in a circle. -/
theorem c39_order_exists (hdb : DbOK db0) (hcl : DbClosed db0) (hsrc : TablesOK src)
    (hself : create = true → ∀ n ∈ dkeys db0, fnmatch n n = true) (hp : Prepared fnmatch remap planned src db0 create db x) :
    (∃ order, insertOrder x = .ok order) ∨ (insertOrder x = .error .cycle ∧ ∃ k, Relation.TransGen (DbRef db) k k) := by
  have hf := prepared_facts hdb hcl hsrc hself hp
  unfold insertOrder
  rcases metaToposort_spec hf.tables with ⟨ts, h1, -⟩ | ⟨h1, k, h2⟩
  · rw [h1]; exact .inl ⟨_, rfl⟩
  · rw [h1]
    refine .inr ⟨rfl, k, Relation.TransGen.mono ?_ k k h2⟩
    rintro a b ⟨⟨fk, t, g1, g2, g3⟩, -⟩
    obtain ⟨n, hn⟩ := hf.loads.sub a t g1
    exact ⟨n, t, fk, hn, hf.tables.key_eq a t g1, g2, g3⟩

/-- C39: what is copied are exactly the tables of the order of insertion, in that order. -/
theorem c39_copied {E : Engine} {T : Tables} {S : Key → List Row} {reopen : Bool} {p : Plan} {temps : Temps}
    {order : List Str} (ho : ∀ n ∈ order, n ∈ dkeys p.queries) {res : List (Key × List Row)}
    (h : copyResults E T S reopen p temps order = .ok res) : res.map (fun e => e.1.1 ++ '.' :: e.1.2) = order := by
  induction order generalizing res with
  | nil => cases h; rfl
  | cons n ns ih =>
    unfold copyResults at h
    cases h1 : parseTableName n with
    | none => rw [h1] at h; cases h
    | some k =>
      rw [h1] at h; dsimp only at h
      obtain ⟨q, hq⟩ := Option.isSome_iff_exists.1 (dget_isSome_iff.2 (ho n (by simp)))
      rw [hq] at h; dsimp only at h
      cases h2 : sampleRows E T S reopen temps k q with
      | error e => rw [h2] at h; cases h
      | ok rows =>
        rw [h2] at h; dsimp only at h
        cases h3 : copyResults E T S reopen p temps ns with
        | error e => rw [h3] at h; cases h
        | ok rest =>
          rw [h3] at h; cases h
          rw [List.map_cons, ih (fun m hm => ho m (by simp [hm])) h3, ← parse_str h1]
          rfl

/-! ### C55 -/

/-- C55: tables are created exactly for planned tables without loaded destination; each has the columns,
primary key columns and unique constraints of its source, and its foreign keys lead to the destinations
of the tables they led to. -/
theorem c55_created_mirror_source (hdb : DbOK db) (h : destInit fnmatch db remap planned = .ok x)
    {ts : List TableMeta} (hc : createdTables src x = .ok ts) :
    (ts.map fun t => (t.schema, t.name)).Nodup ∧
    (∀ t ∈ ts, ∃ n ∈ planned, ∃ k0 t0, DestOf remap n (t.schema, t.name) ∧ parseTableName n = some k0 ∧
      dget src k0 = some t0 ∧ CopyOf remap planned t0 t) ∧
    ∀ n ∈ planned, ∃ k, DestOf remap n k ∧
      ((∃ t ∈ ts, (t.schema, t.name) = k) ↔ ¬ ∃ t, (k, t) ∈ x.tables) := by
  have hT := destInit_tables hdb h
  have hF := created_facts hT (destInit_ok h).1 hc
  refine ⟨hF.nodup, fun t ht => ?_, fun n hn => ?_⟩
  · obtain ⟨n, h1, k0, t0, h2, -, h3, h4, -, h5⟩ := hF.each t ht
    exact ⟨n, h1, k0, t0, h2, h3, h4, h5⟩
  · obtain ⟨k, h1, h2⟩ := hF.all n hn
    refine ⟨k, h1, ?_, fun hno => ?_⟩
    · rintro ⟨t, ht, rfl⟩ ⟨t', h3⟩
      obtain ⟨n', -, k0, t0, -, h5, -⟩ := hF.each t ht
      rw [show t.key = (t.schema, t.name) from rfl, dget_of_mem hT.keys_nodup h3] at h5
      cases h5
    · rcases h2 with h2 | h2
      · obtain ⟨t, h3⟩ := Option.isSome_iff_exists.1 h2
        exact absurd ⟨t, dget_some_mem h3⟩ hno
      · exact h2
end

/-! ### Examples -/

/-- Names match as patterns if they are equal. -/
def dxEq (n pat : Str) : Bool := n == pat

/-- The destination is schema `m` instead of `s`. -/
def dxRemap (n : Str) : Str := 'm' :: n.drop 1

def dxP (s : Str) : TableMeta := { schema := s, name := str! "p", columns := [str! "id"], primaryKey := [str! "id"] }
def dxC (s : Str) : TableMeta := { schema := s, name := str! "c", columns := [str! "id", str! "pid"], primaryKey := [str! "id"], foreignKeys := [⟨[str! "pid"], s, str! "p", [str! "id"]⟩] }
/-- A table of the destination that is not planned but refers to one that is. -/
def dxO : TableMeta := { schema := str! "m", name := str! "o", columns := [str! "id", str! "cid"], primaryKey := [str! "id"], foreignKeys := [⟨[str! "cid"], str! "m", str! "c", [str! "id"]⟩] }

def dxDb : Dict Str TableMeta := [(str! "m.c", dxC (str! "m")), (str! "m.p", dxP (str! "m")), (str! "m.o", dxO)]
def dxSrc : Tables := [((str! "s", str! "p"), dxP (str! "s")), ((str! "s", str! "c"), dxC (str! "s"))]
def dxPlanned : List Str := [str! "s.c", str! "s.p"]

/-- What a prepared destination amounts to. -/
def dxOrder (r : Except DestErr DestMeta) : Except DestErr (List Str × List (Nat × Nat × Nat)) :=
  match r with
  | .error e => .error e
  | .ok x =>
    match insertOrder x with
    | .error e => .error e
    | .ok order =>
      match truncate x fun k => if k.1 = str! "m" then [[(str! "id", .int 1)], [(str! "id", .int 2)]] else [] with
      | .error e => .error e
      | .ok states => .ok (order, states.map fun S =>
          ((S (str! "m", str! "p")).length, (S (str! "m", str! "c")).length, (S (str! "m", str! "o")).length))

/-- The table `m.o` is emptied first, then `m.c`, then `m.p`. -/
example : dxOrder (destInit dxEq dxDb dxRemap dxPlanned) =
    .ok ([str! "s.p", str! "s.c"], [(2, 2, 0), (2, 0, 0), (0, 0, 0)]) := by decide

/-- The destination after `create`. -/
def dxCreate (db : Dict Str TableMeta) (src : Tables) (planned : List Str) : Except DestErr DestMeta :=
  match destInit dxEq db dxRemap planned with
  | .error e => .error e
  | .ok x =>
    match createdTables src x with
    | .error e => .error e
    | .ok ts => .ok ⟨x.remapped, trackTables x.tables ts, x.extra⟩

/-- An empty destination gets both tables; `create` adds the table `m.c` with a key to the existing
`m.p`. -/
example : dxOrder (dxCreate [] dxSrc dxPlanned) =
      .ok ([str! "s.p", str! "s.c"], [(2, 0, 2), (0, 0, 2)]) ∧
    dxOrder (dxCreate [(str! "m.p", dxP (str! "m"))] dxSrc dxPlanned) =
      .ok ([str! "s.p", str! "s.c"], [(2, 0, 2), (0, 0, 2)]) ∧
    (match dxCreate [(str! "m.p", dxP (str! "m"))] dxSrc dxPlanned with
      | .error _ => none
      | .ok x => dget x.tables (str! "m", str! "c")) = some (dxC (str! "m")) := by decide

/-- C39: without `create` a planned table that does not exist in the destination is skipped without an
error. -/
theorem c39_missing_skipped : dxOrder (destInit dxEq [(str! "m.c", dxC (str! "m"))] dxRemap dxPlanned) =
    .ok ([str! "s.c"], [(2, 0, 2)]) := by decide

/-- C39: nothing can be written if a destination table refers to itself, even if it is not planned. -/
theorem c39_self_reference_fails : dxOrder (destInit dxEq
    [(str! "m.p", dxP (str! "m")), (str! "m.t", { schema := str! "m", name := str! "t", columns := [str! "id", str! "up", str! "pid"], primaryKey := [str! "id"], foreignKeys := [⟨[str! "up"], str! "m", str! "t", [str! "id"]⟩, ⟨[str! "pid"], str! "m", str! "p", [str! "id"]⟩] })]
    dxRemap [str! "s.p"]) = .error .cycle := by decide

/-- C55: `create` fails with a `KeyError` if a new table refers to a table that is not planned. -/
theorem c55_unplanned_reference_fails : (match dxCreate [] dxSrc [str! "s.c"] with
    | .error e => some e
    | .ok _ => none) = some .keyError := by decide

/-- C37: two tables for one destination are refused. -/
example : (match destInit dxEq dxDb dxRemap [str! "s.c", str! "t.c"] with
    | .error e => some e
    | .ok _ => none) = some (.duplicate (str! "m.c")) := by decide

example : (match destInit dxEq dxDb (fun n => n.filter (· ≠ '.')) [str! "s.c"] with
    | .error e => some e
    | .ok _ => none) = some .badName := by decide

/-! An instance of the insertion theorem: parent rows 1 and 2, child rows (7, 1) and (8, NULL), with the
child table refusing the duplicate (7, 2). -/

def dxJobs : List TableJob :=
  [⟨(str! "m", str! "p"), .error, ⟨⟨[str! "id"], [str! "id"], []⟩, ⟨[str! "id"], [], fun _ => .null, [str! "id"]⟩, [], 1, [], none, bufferSize⟩,
      [[.int 1], [.int 2]]⟩,
   ⟨(str! "m", str! "c"), .error, ⟨⟨[str! "id", str! "pid"], [str! "id", str! "pid"], []⟩,
        ⟨[str! "id", str! "pid"], [], fun _ => .null, [str! "id"]⟩, [], 1, [], none, bufferSize⟩,
      [[.int 7, .int 1], [.int 8, .null]]⟩]

/-- The parents, the children and the error of a run. -/
def dxHist (jobs : List TableJob) (S0 : DbState) : List (List Row × List Row) × Option DestErr :=
  match copyTables exWorldV .postgresql jobs [S0] 0 with
  | (hist, _, err) => (hist.map fun S => (S (str! "m", str! "p"), S (str! "m", str! "c")), err)

example : dxHist dxJobs (fun _ => []) =
    ([([[(str! "id", .int 1)], [(str! "id", .int 2)]],
        [[(str! "id", .int 7), (str! "pid", .int 1)], [(str! "id", .int 8), (str! "pid", .null)]]),
      ([[(str! "id", .int 1)], [(str! "id", .int 2)]], []), ([], [])],
     none) := by decide

/-- The assumptions of the insertion theorem hold for this run. -/
example : ∃ x order hist writes err, destInit dxEq dxDb dxRemap dxPlanned = .ok x ∧ insertOrder x = .ok order ∧
    List.Forall₂ (fun n j => DestOf dxRemap n (TableJob.key j)) order dxJobs ∧
    (∀ j ∈ dxJobs, JobOK exWorldV j) ∧ (∀ j ∈ dxJobs, TableHolds j.input.dest []) ∧ Intact dxDb (fun _ => []) ∧
    copyTables exWorldV .postgresql dxJobs [fun _ => []] 0 = (hist, writes, err) ∧
    WritesClosed dxDb dxJobs (fun _ => []) writes err := by
  obtain ⟨x, hx⟩ : ∃ x, destInit dxEq dxDb dxRemap dxPlanned = .ok x := by
    cases h : destInit dxEq dxDb dxRemap dxPlanned with
    | error e =>
      have : (match destInit dxEq dxDb dxRemap dxPlanned with | .error _ => false | .ok _ => true) = true := by decide
      rw [h] at this; cases this
    | ok x => exact ⟨x, rfl⟩
  have ho : insertOrder x = .ok [str! "s.p", str! "s.c"] := by
    have : (match destInit dxEq dxDb dxRemap dxPlanned with
      | .error _ => none
      | .ok x => some (insertOrder x)) = some (.ok [str! "s.p", str! "s.c"]) := by decide
    rw [hx] at this
    exact Option.some.inj this
  obtain ⟨hist, writes, err, hrun⟩ : ∃ hist writes err,
      copyTables exWorldV .postgresql dxJobs [fun _ => []] 0 = (hist, writes, err) := ⟨_, _, _, rfl⟩
  refine ⟨x, _, hist, writes, err, hx, ho, ?_, ?_, ?_, ?_, hrun, ?_⟩
  · exact .cons ⟨str! "s", str! "p", by decide, by decide⟩ (.cons ⟨str! "s", str! "c", by decide, by decide⟩ .nil)
  · intro j hj
    simp only [dxJobs, List.mem_cons, List.not_mem_nil, or_false] at hj
    rcases hj with rfl | rfl
    · exact ⟨[str! "id"], [], rfl, by decide, by decide⟩
    · exact ⟨[str! "id", str! "pid"], [], rfl, by decide, by decide⟩
  · intro j hj
    refine ⟨fun _ => ?_, by simp⟩
    simp [KeysUnique]
  · intro a fk b h r hr
    cases hr
  · have hw : (copyTables exWorldV .postgresql dxJobs [fun _ => []] 0).2.1 =
        [((str! "m", str! "p"), [[[.int 1], [.int 2]]]), ((str! "m", str! "c"), [[[.int 7, .int 1], [.int 8, .null]]])] := by decide
    rw [hrun] at hw
    dsimp only at hw
    subst hw
    intro a r hr fk b hfk hnn
    right
    obtain ⟨n, t, h1, h2, h3, h4⟩ := hfk
    simp only [dxDb, List.mem_cons, Prod.mk.injEq, List.not_mem_nil, or_false] at h1
    rcases h1 with ⟨rfl, rfl⟩ | ⟨rfl, rfl⟩ | ⟨rfl, rfl⟩
    · simp only [dxC, List.mem_cons, List.not_mem_nil, or_false] at h2 h3 h4
      subst h3 h2 h4
      refine ⟨⟨dxJobs[0], List.getElem_mem _, rfl⟩, fun _ => ⟨[(str! "id", .int 1)], ?_, ?_⟩⟩
      · exact ⟨dxJobs[0], List.getElem_mem _, rfl, _, List.mem_cons_self, _, List.mem_cons_self, [.int 1], List.mem_cons_self, by decide, by decide, by decide⟩
      · obtain ⟨j, g1, g2, bs, g3, batch, g4, b, g5, -, g7, -⟩ := hr
        simp only [dxJobs, List.mem_cons, List.not_mem_nil, or_false] at g1
        rcases g1 with rfl | rfl
        · cases g2
        · simp only [List.mem_cons, Prod.mk.injEq, List.not_mem_nil, or_false] at g3
          rcases g3 with ⟨g3, -⟩ | ⟨-, rfl⟩
          · exact absurd g3 (by decide)
          · rw [List.mem_singleton] at g4
            subst g4
            have g8 := g7 (str! "pid") (by decide)
            simp only [List.mem_cons, List.not_mem_nil, or_false] at g5
            rcases g5 with rfl | rfl
            · have g9 : r.get (str! "pid") = .int 1 := (Option.some.inj g8).symm
              intro q hq
              obtain rfl : q = (str! "pid", str! "id") := List.mem_singleton.1 hq
              exact ⟨hnn _ (by simp), g9⟩
            · exact absurd (Option.some.inj g8).symm (hnn (str! "pid") (by simp))
    · cases h3
    · obtain ⟨j, g1, g2, -⟩ := hr
      simp only [dxJobs, List.mem_cons, List.not_mem_nil, or_false] at g1
      subst h2
      rcases g1 with rfl | rfl <;> exact absurd g2 (by decide)

/-- The same with parents (id, code), children referring to the code, and strategy `skip`. -/
def dxSkipJobs : List TableJob :=
  [⟨(str! "m", str! "p"), .skip, ⟨⟨[str! "id", str! "code"], [str! "id", str! "code"], []⟩,
        ⟨[str! "id", str! "code"], [], fun _ => .null, [str! "id"]⟩, [], 1, [], none, bufferSize⟩, [[.int 1, .int 6]]⟩,
   ⟨(str! "m", str! "c"), .skip, ⟨⟨[str! "id", str! "pcode"], [str! "id", str! "pcode"], []⟩,
        ⟨[str! "id", str! "pcode"], [], fun _ => .null, [str! "id"]⟩, [], 1, [], none, bufferSize⟩, [[.int 7, .int 6]]⟩]

/-- C36: if references lead to columns outside the primary key, skipping a row can leave the rows written
later without the row they refer to (a database that checks foreign keys refuses them, so sampling
fails). -/
theorem c36_skip_dangles : dxHist dxSkipJobs
      (fun k => if k = (str! "m", str! "p") then [[(str! "id", .int 1), (str! "code", .int 5)]] else []) =
    ([([[(str! "id", .int 1), (str! "code", .int 5)]], [[(str! "id", .int 7), (str! "pcode", .int 6)]]),
      ([[(str! "id", .int 1), (str! "code", .int 5)]], []),
      ([[(str! "id", .int 1), (str! "code", .int 5)]], [])], none) := by decide

end Subsetter.Props
