import Verif.Model.CreatedNames
import Verif.Proofs.Create
import Verif.Proofs.TempNames
import Mathlib.Data.List.Nodup

/-
C72: names of indexes and foreign keys of created tables.
-/
namespace Subsetter.Props
open Subsetter Spec

variable {fnmatch : Str → Str → Bool} {db : Dict Str TableMeta} {remap : Str → Str} {planned : List Str} {x : DestMeta}
  {src : Tables} {objs : List (Str × TableMeta × Bool)}

theorem createdIndexName_inj {a b : Str} {i j : Nat} (h : createdIndexName a i = createdIndexName b j) : a = b ∧ i = j := by
  unfold createdIndexName at h
  rw [List.append_assoc, List.append_assoc] at h
  have h := congrArg List.reverse (List.append_cancel_left h)
  simp only [List.reverse_append, List.reverse_cons, List.append_assoc, List.singleton_append] at h
  obtain ⟨h1, h2⟩ := sep_split (by simpa using natStr_no_sep i) (by simpa using natStr_no_sep j) h
  exact ⟨List.reverse_injective h2, natStr_inj (List.reverse_injective h1)⟩

/-- A created table: its name in the source, its name in the destination. -/
def MadeFrom (objs : List (Str × TableMeta × Bool)) (n : Str) (k : Key) : Prop := ∃ t, (n, t, true) ∈ objs ∧ t.key = k

theorem mem_createdIndexes {indexes : Str → Nat} {y : Str × Str} :
    y ∈ createdIndexes indexes objs ↔ ∃ n k i, MadeFrom objs n k ∧ i < indexes n ∧ y = (k.1, createdIndexName k.2 i) := by
  induction objs with
  | nil => simp [createdIndexes, MadeFrom]
  | cons o objs ih =>
    obtain ⟨n, t, b⟩ := o
    have hm : ∀ n' k, MadeFrom ((n, t, b) :: objs) n' k ↔ (b = true ∧ n' = n ∧ t.key = k) ∨ MadeFrom objs n' k := by
      intro n' k
      unfold MadeFrom
      simp only [List.mem_cons, Prod.mk.injEq]
      constructor
      · rintro ⟨t', ⟨rfl, rfl, rfl⟩ | h, e⟩
        · exact .inl ⟨rfl, rfl, e⟩
        · exact .inr ⟨t', h, e⟩
      · rintro (⟨rfl, rfl, e⟩ | ⟨t', h, e⟩)
        · exact ⟨t, .inl ⟨rfl, rfl, rfl⟩, e⟩
        · exact ⟨t', .inr h, e⟩
    cases b with
    | false =>
      unfold createdIndexes
      rw [ih]
      simp only [hm, Bool.false_eq_true, false_and, false_or]
    | true =>
      unfold createdIndexes
      rw [List.mem_append, ih]
      simp only [hm, true_and, List.mem_map, List.mem_range]
      constructor
      · rintro (⟨i, h, rfl⟩ | ⟨n', k, i, h⟩)
        · exact ⟨n, t.key, i, .inl ⟨rfl, rfl⟩, h, rfl⟩
        · exact ⟨n', k, i, .inr h.1, h.2⟩
      · rintro ⟨n', k, i, ⟨rfl, rfl⟩ | h, h1, h2⟩
        · exact .inl ⟨i, h1, h2.symm⟩
        · exact .inr ⟨n', k, i, h, h1, h2⟩

theorem mem_createdFkNames {names : Str → List (Option Str)} {y : Str × Str} :
    y ∈ createdFkNames names objs ↔ ∃ n k, MadeFrom objs n k ∧ some y.2 ∈ names n ∧ y.1 = k.1 := by
  induction objs with
  | nil => simp [createdFkNames, MadeFrom]
  | cons o objs ih =>
    obtain ⟨n, t, b⟩ := o
    obtain ⟨s, a⟩ := y
    cases b with
    | false =>
      unfold createdFkNames
      rw [ih]
      simp [MadeFrom]
    | true =>
      unfold createdFkNames
      rw [List.mem_append, ih]
      simp only [List.mem_map, List.mem_filterMap, id, Prod.mk.injEq, MadeFrom, List.mem_cons]
      constructor
      · rintro (⟨a', ⟨_, h, rfl⟩, rfl, rfl⟩ | ⟨n', k, ⟨t', h, e⟩, h2⟩)
        · exact ⟨n, t.key, ⟨t, .inl ⟨rfl, rfl, trivial⟩, rfl⟩, h, rfl⟩
        · exact ⟨n', k, ⟨t', .inr h, e⟩, h2⟩
      · rintro ⟨n', k, ⟨t', ⟨rfl, rfl, -⟩ | h, rfl⟩, h1, h2⟩
        · exact .inl ⟨a, ⟨_, h1, rfl⟩, h2.symm, rfl⟩
        · exact .inr ⟨n', _, ⟨t', h, rfl⟩, h1, h2⟩

/-- Created tables have different names in the source and in the destination. -/
theorem made_distinct (h : destInit fnmatch db remap planned = .ok x) (ho : tableObjs src x.tables x.remapped = .ok objs) :
    objs.Pairwise (fun a b => a.2.2 = true → b.2.2 = true → a.2.1.key ≠ b.2.1.key ∧ a.1 ≠ b.1) ∧
    ∀ n k, MadeFrom objs n k → n ∈ planned ∧ DestOf remap n k := by
  obtain ⟨hm, -⟩ := destInit_ok h
  obtain ⟨hnd, -, hback⟩ := remapped_facts hm
  have hobj := tableObjs_ok ho
  have key : ∀ e o, e ∈ x.remapped → ObjFor src x.tables e o → o.2.2 = true → o.1 ∈ planned ∧ DestOf remap o.1 o.2.1.key ∧
      parseTableName e.1 = some o.2.1.key := by
    rintro ⟨r, n⟩ ⟨n', t, b⟩ he ⟨h1, k, h2, h3⟩ hb
    obtain ⟨h4, k', h5, h6⟩ := hback r n (dget_of_mem hnd he)
    have hk : k = k' := by
      have := parse_of_nodot (destOf_nodot h5)
      rw [h6, h2] at this
      exact Option.some.inj this
    subst hk
    dsimp only at h1 hb h2
    subst h1
    have ht : t.key = k := by
      rcases h3 with ⟨h3, -⟩ | ⟨-, -, k0, t0, -, -, h3⟩
      · dsimp only at h3; rw [hb] at h3; cases h3
      · dsimp only at h3; rw [h3]; rfl
    dsimp only
    rw [ht]
    exact ⟨h4, h5, h2⟩
  constructor
  · have gen : ∀ (m : Dict Str Str) (os : List (Str × TableMeta × Bool)), (m.map Prod.fst).Nodup → (∀ e ∈ m, e ∈ x.remapped) →
        List.Forall₂ (ObjFor src x.tables) m os →
        os.Pairwise (fun a b => a.2.2 = true → b.2.2 = true → a.2.1.key ≠ b.2.1.key ∧ a.1 ≠ b.1) := by
      intro m os hn hsub h2
      induction h2 with
      | nil => exact .nil
      | @cons e o m os h3 h4 ih =>
        rw [List.map_cons, List.nodup_cons] at hn
        refine .cons (fun o' ho' hb hb' => ?_) (ih hn.2 fun e he => hsub e (List.mem_cons_of_mem _ he))
        obtain ⟨e', he', h5⟩ := forall₂_mem_right h4 ho'
        obtain ⟨a1, a2, a3⟩ := key e o (hsub e List.mem_cons_self) h3 hb
        obtain ⟨b1, b2, b3⟩ := key e' o' (hsub e' (List.mem_cons_of_mem _ he')) h5 hb'
        have hne : o.2.1.key ≠ o'.2.1.key := by
          intro hk
          rw [hk] at a3
          exact hn.1 (parse_inj a3 b3 ▸ List.mem_map_of_mem he')
        exact ⟨hne, fun hk => hne (destOf_unique a2 (hk ▸ b2))⟩
    exact gen _ _ hnd (fun _ h => h) hobj
  · rintro n k ⟨t, ht, rfl⟩
    obtain ⟨e, he, h2⟩ := forall₂_mem_right hobj ht
    obtain ⟨a1, a2, -⟩ := key e _ he h2 rfl
    exact ⟨a1, a2⟩

/-- C72: the indexes created have pairwise different names within a schema, as PostgreSQL and SQLite demand, and there
is one for every index of the source table. -/
theorem c72_indexes (h : destInit fnmatch db remap planned = .ok x) (ho : tableObjs src x.tables x.remapped = .ok objs)
    (indexes : Str → Nat) :
    (createdIndexes indexes objs).Nodup ∧
    (createdIndexes indexes objs).length = ((objs.filter fun o => o.2.2).map fun o => indexes o.1).sum := by
  have hp := (made_distinct h ho).1
  clear ho
  induction objs with
  | nil => exact ⟨List.nodup_nil, rfl⟩
  | cons o objs ih =>
    obtain ⟨n, t, b⟩ := o
    obtain ⟨h1, h2⟩ := List.pairwise_cons.1 hp
    obtain ⟨ih1, ih2⟩ := ih h2
    cases b with
    | false => exact ⟨ih1, ih2⟩
    | true =>
      unfold createdIndexes
      refine ⟨List.nodup_append.2 ⟨?_, ih1, ?_⟩, ?_⟩
      · refine (List.nodup_map_iff_inj_on List.nodup_range).2 fun i _ j _ e => ?_
        exact (createdIndexName_inj (Prod.mk.inj e).2).2
      · rintro y hy z hz rfl
        obtain ⟨i, -, rfl⟩ := List.mem_map.1 hy
        obtain ⟨n', k, j, ⟨t', ht', rfl⟩, -, e⟩ := mem_createdIndexes.1 hz
        obtain ⟨e1, e2⟩ := Prod.mk.inj e
        refine (h1 _ ht' rfl rfl).1 ?_
        exact Prod.ext e1 (createdIndexName_inj e2).1
      · rw [List.length_append, ih2, List.length_map, List.length_range, List.filter_cons_of_pos rfl, List.map_cons,
          List.sum_cons]

/-- C72, part: the names of the foreign keys created are pairwise different within a schema, as MySQL demands, if they
are in the source and tables of different schemas are not created in the same one.  (Missing: destinations that join
schemas, see `c72_joined_schemas`; foreign keys the destination already has, see `c72_beside_source`.) -/
theorem c72_foreign_keys_partial (h : destInit fnmatch db remap planned = .ok x)
    (ho : tableObjs src x.tables x.remapped = .ok objs) {names : Str → List (Option Str)}
    (honce : ∀ n ∈ planned, ((names n).filterMap id).Nodup)
    (hsrc : ∀ n ∈ planned, ∀ n' ∈ planned, ∀ k k', parseTableName n = some k → parseTableName n' = some k' → k.1 = k'.1 →
      ∀ a, some a ∈ names n → some a ∈ names n' → n = n')
    (hjoin : ∀ n n' k k' d d', parseTableName n = some k → parseTableName n' = some k' → DestOf remap n d →
      DestOf remap n' d' → d.1 = d'.1 → k.1 = k'.1) :
    (createdFkNames names objs).Nodup := by
  obtain ⟨hp, hmade⟩ := made_distinct h ho
  clear ho
  induction objs with
  | nil => exact List.nodup_nil
  | cons o objs ih =>
    obtain ⟨n, t, b⟩ := o
    obtain ⟨h1, h2⟩ := List.pairwise_cons.1 hp
    have ih1 := ih h2 fun n k ⟨t, ht, e⟩ => hmade n k ⟨t, List.mem_cons_of_mem _ ht, e⟩
    cases b with
    | false => exact ih1
    | true =>
      obtain ⟨a1, a2⟩ := hmade n t.key ⟨t, List.mem_cons_self, rfl⟩
      unfold createdFkNames
      refine List.nodup_append.2 ⟨?_, ih1, ?_⟩
      · exact (honce n a1).map fun _ _ e => (Prod.mk.inj e).2
      · rintro ⟨s, a⟩ hy z hz rfl
        obtain ⟨a', ha', e⟩ := List.mem_map.1 hy
        cases e
        obtain ⟨n', k, ⟨t', ht', rfl⟩, ha2, e⟩ := mem_createdFkNames.1 hz
        obtain ⟨b1, b2⟩ := hmade n' t'.key ⟨t', List.mem_cons_of_mem _ ht', rfl⟩
        have ha1 : some a ∈ names n := by
          obtain ⟨_, h3, h4⟩ := List.mem_filterMap.1 ha'
          cases h4; exact h3
        refine (h1 _ ht' rfl rfl).2 ?_
        obtain ⟨s1, t1, p1, -⟩ := id a2
        obtain ⟨s2, t2, p2, -⟩ := id b2
        exact hsrc n a1 n' b1 _ _ p1 p2 (hjoin n n' _ _ _ _ p1 p2 a2 b2 e) a ha1 ha2

/-- C72 for a run that keeps names: no assumption on schemas is left. -/
theorem c72_same_names (h : destInit fnmatch db id planned = .ok x)
    (ho : tableObjs src x.tables x.remapped = .ok objs) {names : Str → List (Option Str)}
    (honce : ∀ n ∈ planned, ((names n).filterMap id).Nodup)
    (hsrc : ∀ n ∈ planned, ∀ n' ∈ planned, ∀ k k', parseTableName n = some k → parseTableName n' = some k' → k.1 = k'.1 →
      ∀ a, some a ∈ names n → some a ∈ names n' → n = n') : (createdFkNames names objs).Nodup := by
  refine c72_foreign_keys_partial h ho honce hsrc fun n n' k k' d d' hk hk' hd hd' e => ?_
  obtain ⟨s, t, p, q⟩ := hd
  obtain ⟨s', t', p', q'⟩ := hd'
  rw [hk] at p; cases p
  rw [hk'] at p'; cases p'
  rw [id, show s ++ '.' :: t = n from parse_str hk, hk] at q
  rw [id, show s' ++ '.' :: t' = n' from parse_str hk', hk'] at q'
  cases q; cases q'
  exact e

/-- Length of a name in decimal digits. -/
theorem createdIndexName_length (table : Str) (i : Nat) :
    (createdIndexName table i).length = table.length + (natStr i).length + 15 := by
  simp [createdIndexName]
  omega

/-- C72 is false for tables with long names: a name of 48 characters is one PostgreSQL allows (63 is the limit), but the
name of the table's first index is not, and creation fails. -/
theorem c72_long_names {table : Str} (h : 48 ≤ table.length) (i : Nat) : 63 < (createdIndexName table i).length := by
  rw [createdIndexName_length]
  have : 0 < (natStr i).length := List.length_pos_of_ne_nil (by
    intro e
    unfold natStr at e
    exact Nat.toDigits_ne_nil e)
  omega

/-! ### Examples -/

def jxTable (s n : Str) (fks : List ForeignKey) : TableMeta :=
  { schema := s, name := n, columns := [str! "id", str! "p"], primaryKey := [str! "id"], foreignKeys := fks }

/-- Tables `s.a` and `t.a` refer to tables `p` of their schema. -/
def jxSrc : Tables :=
  [((str! "s", str! "p"), jxTable (str! "s") (str! "p") []),
   ((str! "s", str! "a"), jxTable (str! "s") (str! "a") [⟨[str! "p"], str! "s", str! "p", [str! "id"]⟩]),
   ((str! "t", str! "p"), jxTable (str! "t") (str! "p") []),
   ((str! "t", str! "a"), jxTable (str! "t") (str! "a") [⟨[str! "p"], str! "t", str! "p", [str! "id"]⟩])]

def jxPlanned : List Str := [str! "s.p", str! "s.a", str! "t.p", str! "t.a"]

/-- Both foreign keys have the name MySQL gives them. -/
def jxNames (n : Str) : List (Option Str) := if n = str! "s.a" ∨ n = str! "t.a" then [some (str! "a_ibfk_1")] else []

/-- Every table has two indexes. -/
def jxIndexes (_ : Str) : Nat := 2

def jxCreated {α : Type} (db : Dict Str TableMeta) (remap : Str → Str) (f : List (Str × TableMeta × Bool) → α) : Option α :=
  match destInit (fun a b => a = b) db remap jxPlanned with
  | .error _ => none
  | .ok x =>
    match tableObjs jxSrc x.tables x.remapped with
    | .error _ => none
    | .ok objs => some (f objs)

/-- Without remapping all names differ within their schema. -/
example : jxCreated [] id (createdFkNames jxNames) =
    some [(str! "s", str! "a_ibfk_1"), (str! "t", str! "a_ibfk_1")] := by decide +kernel

example : (jxCreated [] id (createdIndexes jxIndexes)).map List.length = some 8 := by decide +kernel

/-- The hypotheses of `c72_same_names` hold. -/
example : ∃ x objs, destInit (fun a b => a = b) [] id jxPlanned = .ok x ∧
    tableObjs jxSrc x.tables x.remapped = .ok objs ∧ (createdFkNames jxNames objs).Nodup := by
  refine ⟨_, _, rfl, rfl, c72_same_names (src := jxSrc) (fnmatch := fun a b => a = b) (db := []) (planned := jxPlanned) rfl rfl (by decide) ?_⟩
  have : ∀ n ∈ jxPlanned, ∀ n' ∈ jxPlanned, (parseTableName n).map Prod.fst = (parseTableName n').map Prod.fst →
      ∀ a ∈ jxNames n, a ∈ jxNames n' → n = n' := by decide +kernel
  intro n hn n' hn' k k' h h' e a ha ha'
  exact this n hn n' hn' (by rw [h, h']; simp [e]) _ ha ha'

def jxRemap (n : Str) : Str :=
  if n = str! "s.p" then str! "m.p1" else if n = str! "s.a" then str! "m.a1" else if n = str! "t.p" then str! "m.p2" else str! "m.a2"

/-- C72 is false when tables of two schemas are created in one: names that differ by their schema in the source become
equal, which MySQL refuses. -/
theorem c72_joined_schemas : jxCreated [] jxRemap (createdFkNames jxNames) =
    some [(str! "m", str! "a_ibfk_1"), (str! "m", str! "a_ibfk_1")] := by decide +kernel

/-- C72 is false when tables are created under another name in the schema of the source: the foreign key of the copy
`s.a2` has the name of the foreign key of `s.a`, which is there already. -/
theorem c72_beside_source :
    let db : Dict Str TableMeta := jxSrc.map fun (_, t) => (t.schema ++ '.' :: t.name, t)
    let remap := fun n : Str => if n = str! "s.a" then str! "s.a2" else n
    jxCreated db remap (createdFkNames jxNames) = some [(str! "s", str! "a_ibfk_1")] ∧
      str! "s.a" ∈ dkeys db ∧ some (str! "a_ibfk_1") ∈ jxNames (str! "s.a") := by decide +kernel

end Subsetter.Props
