import Verif.Spec.ConfigFile
import Verif.Proofs.PyDict

/-
Which documents the functions of `Verif.Model.ConfigFile` accept.
-/
namespace Subsetter.ConfigRead
open Subsetter Subsetter.Spec

theorem bind_ok {α β : Type} {x : Except LoadErr α} {f : α → Except LoadErr β} {b : β} :
    (x >>= f) = .ok b ↔ ∃ a, x = .ok a ∧ f a = .ok b := by
  cases x with
  | error e => constructor
               · intro h; cases h
               · rintro ⟨_, h, _⟩; cases h
  | ok a => constructor
            · intro h; exact ⟨a, rfl, h⟩
            · rintro ⟨_, h, h'⟩; cases h; exact h'

/-- The function reads exactly what `P` describes. -/
def Reads {α : Type} (f : Yaml → Except LoadErr α) (P : α → Yaml → Prop) : Prop := ∀ y a, f y = .ok a ↔ P a y

section
variable {α : Type} {f : Yaml → Except LoadErr α} {P : α → Yaml → Prop} {d : Items} {k : Str} {a a₀ : α}

theorem reads_need (h : Reads f P) : need f (dget d k) = .ok a ↔ Set' d k (P a) := by
  unfold Set'
  cases hd : dget d k with
  | none => simp [need]
  | some y => simpa [need] using h y a

theorem reads_want (h : Reads f P) : want a₀ f (dget d k) = .ok a ↔ Unset d k (a = a₀) (P a) := by
  unfold Unset Set'
  cases hd : dget d k with
  | none => simp [want, eq_comm]
  | some y => simpa [want] using h y a

theorem mapM_ok (h : Reads f P) : ∀ {ys : List Yaml} {l : List α}, ys.mapM f = .ok l ↔ List.Forall₂ P l ys
  | [], l => by
    rw [List.mapM_nil]
    constructor
    · intro e; cases e; exact .nil
    · intro e; cases e; rfl
  | y :: ys, l => by
    rw [List.mapM_cons, bind_ok]
    constructor
    · rintro ⟨a, h1, h2⟩
      rw [bind_ok] at h2
      obtain ⟨l', h2, h3⟩ := h2
      cases h3
      exact .cons ((h y a).1 h1) ((mapM_ok h).1 h2)
    · intro e
      cases e with
      | cons h1 h2 => exact ⟨_, (h _ _).2 h1, bind_ok.2 ⟨_, (mapM_ok h).2 h2, rfl⟩⟩

theorem reads_list (h : Reads f P) : Reads (asList f) (IsList P) := by
  intro y l
  unfold IsList
  cases y with
  | seq ys =>
    rw [show asList f (.seq ys) = ys.mapM f from rfl, mapM_ok h]
    simp
  | leaf s => simp [asList]
  | map d => simp [asList]

theorem loadItems_iff (h : Reads f P) : ∀ {d : Items} {l : Dict Str α},
    loadItems f d = .ok l ↔ List.Forall₂ (fun x z => x.1 = z.1 ∧ P x.2 z.2) l d
  | [], l => by
    constructor
    · intro e; cases e; exact .nil
    · intro e; cases e; rfl
  | (k, y) :: d, l => by
    rw [loadItems, bind_ok]
    constructor
    · rintro ⟨a, h1, h2⟩
      rw [bind_ok] at h2
      obtain ⟨l', h2, h3⟩ := h2
      cases h3
      exact .cons ⟨rfl, (h y a).1 h1⟩ ((loadItems_iff h).1 h2)
    · intro e
      cases e with
      | @cons x _ l' _ h1 h2 =>
        obtain ⟨k', a⟩ := x
        obtain ⟨h3, h4⟩ := h1
        dsimp only at h3 h4
        subst h3
        exact ⟨_, (h _ _).2 h4, bind_ok.2 ⟨_, (loadItems_iff h).2 h2, rfl⟩⟩

theorem reads_dict (h : Reads f P) : Reads (asDict f) (IsDict P) := by
  intro y l
  unfold IsDict
  cases y with
  | map d =>
    rw [show asDict f (.map d) = loadItems f d from rfl, loadItems_iff h]
    simp
  | leaf s => simp [asDict]
  | seq d => simp [asDict]

theorem asOpt_ne {y : Yaml} (h : y ≠ .leaf .null) : asOpt f y = (do let a ← f y; .ok (some a)) := by
  unfold asOpt
  split
  · exact absurd rfl h
  · rfl

theorem reads_opt (h : Reads f P) (hn : ∀ a, ¬ P a (.leaf .null)) : Reads (asOpt f) (IsOpt P) := by
  intro y o
  by_cases hy : y = .leaf .null
  · subst hy
    cases o with
    | none => simp [asOpt, IsOpt]
    | some a => simp [asOpt, IsOpt, hn]
  · rw [asOpt_ne hy, bind_ok]
    cases o with
    | none => simp [IsOpt, hy]
    | some a =>
      constructor
      · rintro ⟨b, h1, h2⟩
        cases h2
        exact (h y a).1 h1
      · intro h1
        exact ⟨a, (h y a).2 h1, rfl⟩

theorem reads_seen (h : Reads f P) {o : Option α} :
    seen f (dget d k) = .ok o ↔ Unset d k (o = none) (fun y => ∃ a, o = some a ∧ P a y) := by
  unfold seen
  refine reads_want (P := fun o y => ∃ a, o = some a ∧ P a y) fun y o => ?_
  rw [bind_ok]
  constructor
  · rintro ⟨a, h1, h2⟩
    cases h2
    exact ⟨a, rfl, (h y a).1 h1⟩
  · rintro ⟨a, rfl, h1⟩
    exact ⟨a, (h y a).2 h1, rfl⟩
end

theorem asMap_ok {y : Yaml} {d : Items} : asMap y = .ok d ↔ y = .map d := by cases y <;> simp [asMap]

theorem forbid_ok {keys : List Str} {d : Items} {u : Unit} : forbid keys d = .ok u ↔ Only keys d := by
  unfold forbid Only
  split <;> simp_all

theorem orType_ok {α : Type} {o : Option α} {a : α} : orType o = .ok a ↔ o = some a := by
  cases o <;> simp [orType]

theorem reads_str : Reads asStr IsText := by
  intro y s
  unfold IsText asStr
  split <;> simp_all

theorem reads_bool (L : Lax) : Reads (readBool L) (IsBool L) := by
  intro y b
  unfold IsBool readBool
  split
  · simp
  · simp
  · rename_i s h1 h2
    rw [orType_ok]
    constructor
    · intro h
      exact .inr ⟨s, rfl, fun e => h2 (by rw [e]), fun b' e => h1 b' (by rw [e]), h⟩
    · rintro (h | ⟨s', h, -, -, h3⟩)
      · cases h; exact (h1 b rfl).elim
      · cases h; exact h3
  · rename_i h1 h2 h3
    simp only [reduceCtorEq, false_iff]
    rintro (h | ⟨s', h, -⟩)
    · exact h1 b h
    · exact h3 s' h

theorem reads_int (L : Lax) : Reads (readInt L) (IsInt L) := by
  intro y b
  unfold IsInt readInt
  split
  · simp
  · simp
  · rename_i s h1 h2
    rw [orType_ok]
    constructor
    · intro h
      exact .inr ⟨s, rfl, fun e => h2 (by rw [e]), fun b' e => h1 b' (by rw [e]), h⟩
    · rintro (h | ⟨s', h, -, -, h3⟩)
      · cases h; exact (h1 b rfl).elim
      · cases h; exact h3
  · rename_i h1 h2 h3
    simp only [reduceCtorEq, false_iff]
    rintro (h | ⟨s', h, -⟩)
    · exact h1 b h
    · exact h3 s' h

theorem reads_nat (L : Lax) : Reads (readNat L) (fun n : Nat => IsInt L n) := by
  intro y n
  unfold readNat
  rw [bind_ok]
  constructor
  · rintro ⟨i, h1, h2⟩
    split at h2
    · rename_i hi
      cases h2
      rw [Int.toNat_of_nonneg hi]
      exact (reads_int L y i).1 h1
    · cases h2
  · intro h
    exact ⟨n, (reads_int L y n).2 h, by rw [if_pos (Int.natCast_nonneg n)]; rfl⟩

theorem reads_float (L : Lax) : Reads (readFloat L) (IsFloat L) := by
  intro y q
  unfold IsFloat readFloat
  split
  · simp
  · simp [eq_comm]
  · simp
  · rename_i s h1 h2 h3
    rw [orType_ok]
    constructor
    · intro h
      exact .inr (.inr ⟨s, rfl, fun e => h3 (by rw [e]), fun b' e => h1 b' (by rw [e]), fun b' e => h2 b' (by rw [e]), h⟩)
    · rintro (h | ⟨i, h, -⟩ | ⟨s', h, -, -, -, h3⟩)
      · cases h; exact (h1 q rfl).elim
      · cases h; exact (h2 i rfl).elim
      · cases h; exact h3
  · rename_i h1 h2 h3 h4
    simp only [reduceCtorEq, false_iff]
    rintro (h | ⟨i, h, -⟩ | ⟨s', h, -⟩)
    · exact h1 q h
    · exact h2 i h
    · exact h4 s' h

theorem reads_literal {α : Type} {table : List (Str × α)} {name : α → Str}
    (h : ∀ s a, dget table s = some a ↔ s = name a) : Reads (readLiteral table) (IsWord name) := by
  intro y a
  unfold IsWord readLiteral
  split
  · rename_i s
    rw [orType_ok, h]
    simp
  · rename_i h1
    simp only [reduceCtorEq, false_iff]
    exact fun e => h1 _ e

theorem reads_val (code : Rat → Nat) : Reads (asVal code) (IsLiteral code) := by
  intro y v
  unfold asVal
  split
  · cases v <;> simp [IsLiteral, eq_comm]
  · cases v <;> simp [IsLiteral, eq_comm]
  · cases v <;> simp [IsLiteral, eq_comm]
  · cases v <;> simp [IsLiteral, eq_comm]
  · rename_i h1 h2 h3 h4
    simp only [reduceCtorEq, false_iff]
    cases v with
    | null => exact id
    | int i => rintro (h | ⟨b, h, -⟩)
               · exact h2 _ h
               · exact h4 _ h
    | str s => exact fun h => h1 _ h
    | other n => rintro ⟨q, -, h⟩; exact h3 _ h

theorem reads_constant (code : Rat → Nat) : Reads (readConstant code) (IsConstant code) := by
  intro y v
  unfold readConstant
  split
  · cases v <;> simp [IsConstant]
  · cases v <;> simp [IsConstant, eq_comm]
  · cases v <;> simp [IsConstant, eq_comm]
  · cases v <;> simp [IsConstant, eq_comm]
  · cases v <;> simp [IsConstant, eq_comm]
  · rename_i h0 h1 h2 h3 h4
    simp only [reduceCtorEq, false_iff]
    cases v with
    | null => exact h0
    | int i => exact fun h => h2 _ h
    | str s => exact fun h => h1 _ h
    | other n =>
      rintro ⟨q, -, h | ⟨b, h, -⟩⟩
      · exact h3 _ h
      · exact h4 _ h

theorem reads_scalar : Reads readScalar IsScalar := by
  intro y v
  unfold readScalar
  split
  · cases v <;> simp [IsScalar]
  · cases v <;> simp [IsScalar, eq_comm]
  · cases v <;> simp [IsScalar, eq_comm]
  · cases v <;> simp [IsScalar, eq_comm]
  · cases v <;> simp [IsScalar, eq_comm]
  · rename_i h0 h1 h2 h3 h4
    simp only [reduceCtorEq, false_iff]
    cases v with
    | none => exact h0
    | bool b => exact id
    | int i => rintro (h | ⟨b, h, -⟩)
               · exact h2 _ h
               · exact h4 _ h
    | num q => exact fun h => h3 _ h
    | str s => exact fun h => h1 _ h
    | other n => exact id

theorem reads_op : Reads asOp DumpsOp := by
  intro y o
  constructor
  · intro h
    unfold asOp at h
    rw [bind_ok] at h
    obtain ⟨s, h1, h2⟩ := h
    have h1 : y = .leaf (.str s) := (reads_str y s).1 h1
    subst h1
    repeat' split at h2
    all_goals cases h2
    all_goals (rename_i e; subst e; simp [DumpsOp])
  · intro h
    cases o <;> simp only [DumpsOp] at h
    case ne => rcases h with h | h <;> subst h <;> rfl
    all_goals (subst h; rfl)

/-! ### Words -/

theorem words {α : Type} {table : List (Str × α)} {name : α → Str} (h1 : ∀ x ∈ table, x.1 = name x.2)
    (h2 : ∀ a, dget table (name a) = some a) : Reads (readLiteral table) (IsWord name) :=
  reads_literal fun s a => ⟨fun h => h1 _ (dget_some_mem h), fun h => by rw [h]; exact h2 a⟩

theorem reads_infer : Reads (readLiteral inferModes) (IsWord inferName) :=
  words (by simp [inferModes, inferName]) (by intro a; cases a <;> decide)

theorem reads_dialect : Reads (readLiteral dialects) (IsWord dialectName) :=
  words (by simp [dialects, dialectName]) (by intro a; cases a <;> decide)

theorem reads_isolation : Reads (readLiteral isolations) (IsWord isolationName) :=
  words (by simp [isolations, isolationName]) (by intro a; cases a <;> decide)

theorem reads_verify : Reads (readLiteral verifies) (IsWord verifyName) :=
  words (by simp [verifies, verifyName]) (by intro a; cases a <;> decide)

theorem reads_strategy : Reads (readLiteral strategies) (IsWord strategyName) :=
  words (by simp [strategies, strategyName]) (by intro a; cases a <;> decide)

theorem reads_alphabet : Reads (readLiteral alphabets) (IsWord alphabetName) :=
  words (by simp [alphabets, alphabetName]) (by intro a; cases a <;> decide)

theorem reads_condOp : Reads (readLiteral condOps) (IsWord condOpName) :=
  words (by simp [condOps, condOpName]) (by intro a; cases a <;> decide)

/-! ### Sections -/

theorem text_null {s : Str} : ¬ IsText s (.leaf .null) := by simp [IsText]
theorem bool_null {L : Lax} {b : Bool} : ¬ IsBool L b (.leaf .null) := by simp [IsBool]
theorem int_null {L : Lax} {i : Int} : ¬ IsInt L i (.leaf .null) := by simp [IsInt]
theorem float_null {L : Lax} {q : Rat} : ¬ IsFloat L q (.leaf .null) := by simp [IsFloat]
theorem word_null {α : Type} {name : α → Str} {a : α} : ¬ IsWord name a (.leaf .null) := by simp [IsWord]
theorem dict_null {α : Type} {P : α → Yaml → Prop} {l : Dict Str α} : ¬ IsDict P l (.leaf .null) := by simp [IsDict]

theorem reads_texts : Reads (asList asStr) (IsList IsText) := reads_list reads_str
theorem reads_optText : Reads (asOpt asStr) (IsOpt IsText) := reads_opt reads_str fun _ => text_null
theorem reads_columns : Reads (asDict (asList asStr)) (IsDict (IsList IsText)) := reads_dict reads_texts

theorem only_perm {ks ks' : List Str} (h : ∀ k, k ∈ ks ↔ k ∈ ks') {d : Items} : Only ks d ↔ Only ks' d :=
  ⟨fun g k hk => (h k).1 (g k hk), fun g k hk => (h k).2 (g k hk)⟩

theorem reads_target (L : Lax) (code : Rat → Nat) : Reads (readTarget L code) (IsTarget L code) := by
  intro y x
  unfold readTarget
  simp only [bind_ok, asMap_ok, forbid_ok, reads_want (reads_bool L), reads_want (reads_opt (reads_float L) fun _ => float_null),
    reads_want (reads_opt (reads_nat L) fun _ => int_null), reads_want reads_columns,
    reads_want (reads_dict (reads_list (reads_val code))), reads_want reads_optText]
  constructor
  · rintro ⟨d, hd, -, h0, _, h1, _, h2, _, h3, _, h4, _, h5, _, h6, e⟩
    cases e
    exact ⟨d, hd, h0, h1, h2, h3, h4, h5, h6⟩
  · rintro ⟨d, hd, h0, h1, h2, h3, h4, h5, h6⟩
    exact ⟨d, hd, (), h0, _, h1, _, h2, _, h3, _, h4, _, h5, _, h6, rfl⟩

theorem reads_ignoreFk : Reads readIgnoreFk IsIgnoreFk := by
  intro y x
  unfold readIgnoreFk
  simp only [bind_ok, asMap_ok, forbid_ok, reads_need reads_str]
  constructor
  · rintro ⟨d, hd, -, h0, _, h1, _, h2, e⟩
    cases e
    exact ⟨d, hd, h0, h1, h2⟩
  · rintro ⟨d, hd, h0, h1, h2⟩
    exact ⟨d, hd, (), h0, _, h1, _, h2, rfl⟩

theorem reads_extraFk : Reads readExtraFk IsExtraFk := by
  intro y x
  unfold readExtraFk
  simp only [bind_ok, asMap_ok, forbid_ok, reads_need reads_str, reads_need reads_texts]
  constructor
  · rintro ⟨d, hd, -, h0, _, h1, _, h2, _, h3, _, h4, e⟩
    split at e
    · rename_i hv
      cases e
      exact ⟨d, hd, h0, h1, h2, h3, h4, List.length_pos_iff.2 hv.1, hv.2.1.symm, hv.2.2⟩
    · cases e
  · rintro ⟨d, hd, h0, h1, h2, h3, h4, h5, h6, h7⟩
    exact ⟨d, hd, (), h0, _, h1, _, h2, _, h3, _, h4, if_pos ⟨List.length_pos_iff.1 h5, h6.symm, h7⟩⟩

theorem reads_constraint (code : Rat → Nat) : Reads (readConstraint code) (IsConstraint code) := by
  intro y x
  unfold readConstraint
  simp only [bind_ok, asMap_ok, forbid_ok, reads_need reads_str, reads_need reads_op, reads_need (reads_val code)]
  constructor
  · rintro ⟨d, hd, -, h0, _, h1, _, h2, _, h3, e⟩
    cases e
    exact ⟨d, hd, h0, h1, h2, h3⟩
  · rintro ⟨d, hd, h0, h1, h2, h3⟩
    exact ⟨d, hd, (), h0, _, h1, _, h2, _, h3, rfl⟩

theorem reads_planner (L : Lax) (code : Rat → Nat) : Reads (readPlanner L code) (IsPlanner L code) := by
  intro y x
  unfold readPlanner
  simp only [bind_ok, asMap_ok, forbid_ok, reads_want (reads_dict (reads_list (reads_constraint code))), reads_need reads_texts,
    reads_need (reads_dict (reads_target L code)), reads_want reads_texts, reads_want (reads_list reads_ignoreFk),
    reads_want (reads_list reads_extraFk), reads_want reads_infer, reads_want (reads_bool L)]
  constructor
  · rintro ⟨d, hd, -, h0, _, h1, _, h2, _, h3, _, h4, _, h5, _, h6, _, h7, _, h8, _, h9, e⟩
    cases e
    exact ⟨d, hd, (only_perm (by simp [plannerKeys]; tauto)).1 h0, h2, h3, h1, h4, h5, h6, h7, h8, h9⟩
  · rintro ⟨d, hd, h0, h2, h3, h1, h4, h5, h6, h7, h8, h9⟩
    exact ⟨d, hd, (), (only_perm (by simp [plannerKeys]; tauto)).2 h0, _, h1, _, h2, _, h3, _, h4, _, h5, _, h6, _, h7, _, h8,
      _, h9, rfl⟩

theorem reads_client : Reads readClient IsClient := by
  intro y x
  unfold readClient
  simp only [bind_ok, asMap_ok, reads_want reads_optText]
  constructor
  · rintro ⟨d, hd, _, h1, _, h2, e⟩
    cases e
    exact ⟨d, hd, h1, h2⟩
  · rintro ⟨d, hd, h1, h2⟩
    exact ⟨d, hd, _, h1, _, h2, rfl⟩

theorem reads_server : Reads readServer IsServer := by
  intro y x
  unfold readServer
  simp only [bind_ok, asMap_ok, reads_want reads_optText, reads_seen reads_verify]
  constructor
  · rintro ⟨d, hd, _, h1, _, h2, e⟩
    cases e
    exact ⟨d, hd, h1, h2⟩
  · rintro ⟨d, hd, h1, h2⟩
    exact ⟨d, hd, _, h1, _, h2, rfl⟩

theorem unset_iff {d : Items} {k : Str} {p q : Prop} {P : Yaml → Prop} (h : p ↔ q) : Unset d k p P ↔ Unset d k q P := by
  rw [show p = q from propext h]

theorem reads_ssl (L : Lax) : Reads (readSsl L) (IsSsl L) := by
  intro y x
  unfold readSsl
  simp only [bind_ok, asMap_ok, reads_seen (reads_opt (reads_bool L) fun _ => bool_null), reads_want reads_client,
    reads_want reads_server]
  constructor
  · rintro ⟨d, hd, _, h1, ⟨_, _⟩, h2, ⟨_, _⟩, h3, e⟩
    cases e
    exact ⟨d, hd, h1, (unset_iff Prod.mk_inj).1 h2, (unset_iff Prod.mk_inj).1 h3⟩
  · rintro ⟨d, hd, h1, h2, h3⟩
    exact ⟨d, hd, _, h1, (x.cert, x.key), (unset_iff Prod.mk_inj).2 h2, (x.rootcert, x.verify), (unset_iff Prod.mk_inj).2 h3, rfl⟩

theorem readDbItems_iff (L : Lax) {d : Items} {x : DbConfig} : readDbItems L d = .ok x ↔ IsDb L x d := by
  unfold readDbItems
  simp only [bind_ok, reads_want (reads_opt reads_dialect fun _ => word_null), reads_want reads_optText,
    reads_want (reads_opt (reads_int L) fun _ => int_null), reads_want reads_texts,
    reads_want (reads_opt (reads_dict reads_str) fun _ => dict_null),
    reads_want (reads_opt reads_isolation fun _ => word_null), reads_want (reads_ssl L), reads_want (reads_bool L)]
  constructor
  · rintro ⟨_, h1, _, h2, _, h3, _, h4, _, h5, _, h6, _, h7, o, h8, _, h9, _, h10, b, h11, e⟩
    cases e
    refine ⟨h1, h2, h3, h4, h5, h6, h7, ?_, h9, h10, ?_⟩
    · rcases h8 with ⟨g1, rfl⟩ | ⟨z, g1, g2⟩
      · exact .inl ⟨g1, rfl⟩
      · refine .inr ⟨z, g1, ?_⟩
        cases o with
        | none => exact .inl ⟨g2, rfl⟩
        | some l => exact .inr g2
    · rcases h11 with ⟨g1, -⟩ | ⟨z, g1, g2⟩
      · exact .inl ⟨g1, trivial⟩
      · exact .inr ⟨z, g1, b, g2⟩
  · rintro ⟨h1, h2, h3, h4, h5, h6, h7, h8, h9, h10, h11⟩
    have g8 : ∃ o : Option (Dict Str Str), Unset d (str! "sqlite_databases") (o = none) (IsOpt (IsDict IsText) o) ∧
        o.getD [] = x.sqliteDatabases := by
      rcases h8 with ⟨g1, g2⟩ | ⟨z, g1, ⟨g2, g3⟩ | g2⟩
      · exact ⟨none, .inl ⟨g1, rfl⟩, g2.symm⟩
      · exact ⟨none, .inr ⟨z, g1, g2⟩, g3.symm⟩
      · exact ⟨some _, .inr ⟨z, g1, g2⟩, rfl⟩
    have g11 : ∃ b : Bool, Unset d (str! "echo") (b = false) (IsBool L b) := by
      rcases h11 with ⟨g1, -⟩ | ⟨z, g1, b, g2⟩
      · exact ⟨false, .inl ⟨g1, rfl⟩⟩
      · exact ⟨b, .inr ⟨z, g1, g2⟩⟩
    obtain ⟨o, g8, e8⟩ := g8
    obtain ⟨b, g11⟩ := g11
    refine ⟨_, h1, _, h2, _, h3, _, h4, _, h5, _, h6, _, h7, o, g8, _, h9, _, h10, b, g11, ?_⟩
    rw [e8]

theorem reads_db (L : Lax) : Reads (readDb L) (fun x y => ∃ d, y = .map d ∧ IsDb L x d) := by
  intro y x
  unfold readDb
  simp only [bind_ok, asMap_ok, readDbItems_iff]

theorem reads_remap : Reads readRemap IsRemap := by
  intro y x
  unfold readRemap
  simp only [bind_ok, asMap_ok, forbid_ok, reads_need reads_str]
  constructor
  · rintro ⟨d, hd, -, h0, _, h1, _, h2, e⟩
    cases e
    exact ⟨d, hd, h0, h1, h2⟩
  · rintro ⟨d, hd, h0, h1, h2⟩
    exact ⟨d, hd, (), h0, _, h1, _, h2, rfl⟩

theorem set_text {d : Items} {k s : Str} : Set' d k (IsText s) ↔ dget d k = some (.leaf (.str s)) := by
  constructor
  · rintro ⟨y, h1, h2⟩
    rw [h1, show y = _ from h2]
  · intro h
    exact ⟨_, h, rfl⟩

theorem reads_output (L : Lax) : Reads (readOutput L) (IsOutput L) := by
  intro y x
  unfold readOutput
  rw [bind_ok]
  simp only [asMap_ok]
  constructor
  · rintro ⟨d, rfl, h⟩
    split at h
    · rename_i m hm
      split at h
      · rename_i e
        subst e
        simp only [bind_ok, forbid_ok, reads_need reads_str] at h
        obtain ⟨-, h0, dir, h1, e⟩ := h
        cases e
        exact ⟨d, rfl, h0, set_text.2 hm, h1⟩
      · split at h
        · rename_i e
          subst e
          simp only [bind_ok, readDbItems_iff, reads_want (reads_list reads_remap), reads_want reads_strategy,
            reads_want (reads_bool L)] at h
          obtain ⟨db, h1, _, h2, _, h3, _, h4, e⟩ := h
          cases e
          exact ⟨d, rfl, set_text.2 hm, h1, h2, h3, h4⟩
        · cases h
    · cases h
  · intro h
    cases x with
    | directory dir =>
      obtain ⟨d, rfl, h0, hm, h1⟩ := h
      rw [set_text] at hm
      refine ⟨d, rfl, ?_⟩
      rw [hm]
      dsimp only
      rw [if_pos rfl]
      simp only [bind_ok, forbid_ok, reads_need reads_str]
      exact ⟨(), h0, dir, h1, rfl⟩
    | database db remap strategy merge =>
      obtain ⟨d, rfl, hm, h1, h2, h3, h4⟩ := h
      rw [set_text] at hm
      refine ⟨d, rfl, ?_⟩
      rw [hm]
      dsimp only
      rw [if_neg (by decide), if_pos rfl]
      simp only [bind_ok, readDbItems_iff, reads_want (reads_list reads_remap), reads_want reads_strategy,
        reads_want (reads_bool L)]
      exact ⟨db, h1, _, h2, _, h3, _, h4, rfl⟩

theorem reads_kwargs : Reads asMap (fun kw y => y = .map kw) := fun _ _ => asMap_ok

theorem fakers_iff {o : Str} {n : Nat} : dget fakers o = some n ↔ fakeNames[n]? = some o := by
  have h1 : ∀ x ∈ fakers, fakeNames[x.2]? = some x.1 := by decide
  have h2 : ∀ n < 19, ∀ o, fakeNames[n]? = some o → dget fakers o = some n := by
    intro n hn o ho
    have : ∀ n < 19, (fakeNames[n]?).bind (dget fakers) = some n := by decide
    have := this n hn
    rw [ho] at this
    exact this
  constructor
  · intro h
    exact h1 _ (dget_some_mem h)
  · intro h
    refine h2 n ?_ o h
    exact (List.getElem?_eq_some_iff.1 h).1

theorem readSimple_iff (L : Lax) (K : Codes) {d : Items} {c : SimpleCfg Val} :
    (∃ o, dget d (str! "op") = some (.leaf (.str o)) ∧ readSimpleItems L K o d = .ok c) ↔ IsSimple L K c d := by
  constructor
  · rintro ⟨o, ho, h⟩
    unfold readSimpleItems at h
    rw [bind_ok] at h
    obtain ⟨cols, hc, h⟩ := h
    rw [reads_need reads_texts] at hc
    have hop : IsOp o cols d := ⟨set_text.2 ho, hc⟩
    split at h
    · rename_i e; subst e; cases h; exact hop
    split at h
    · rename_i e; subst e; cases h; exact hop
    split at h
    · rename_i e; subst e; cases h; exact hop
    split at h
    · rename_i e; subst e
      simp only [bind_ok, reads_need (reads_list (reads_constant K.float))] at h
      obtain ⟨_, h1, e⟩ := h
      cases e
      exact ⟨hop, h1⟩
    split at h
    · rename_i e; subst e
      simp only [bind_ok, reads_need (reads_int L)] at h
      obtain ⟨_, h1, _, h2, e⟩ := h
      cases e
      exact ⟨hop, h1, h2⟩
    split at h
    · rename_i e; subst e
      simp only [bind_ok, reads_need (reads_float L)] at h
      obtain ⟨_, h1, _, h2, e⟩ := h
      cases e
      exact ⟨hop, _, _, rfl, rfl, h1, h2⟩
    split at h
    · rename_i e; subst e
      simp only [bind_ok, reads_need (reads_int L), reads_want reads_alphabet, reads_want reads_optText] at h
      obtain ⟨_, h1, _, h2, _, h3, e⟩ := h
      cases e
      exact ⟨hop, h1, h2, h3⟩
    split at h
    · rename_i e; subst e; cases h; exact hop
    split at h
    · rename_i e; subst e
      simp only [bind_ok, reads_need reads_str, reads_want reads_kwargs] at h
      obtain ⟨_, h1, _, h2, _, h3, e⟩ := h
      cases e
      exact ⟨hop, _, _, _, rfl, h1, h2, h3⟩
    split at h
    · rename_i n hn
      simp only [bind_ok, reads_want (reads_bool L)] at h
      obtain ⟨_, h1, e⟩ := h
      cases e
      exact ⟨⟨o, fakers_iff.1 hn, hop⟩, h1⟩
    · cases h
  · intro h
    have key : ∀ {o : Str} {cols : List Str}, IsOp o cols d → dget d (str! "op") = some (.leaf (.str o)) ∧
        need (asList asStr) (dget d (str! "columns")) = .ok cols :=
      fun h => ⟨set_text.1 h.1, (reads_need reads_texts).2 h.2⟩
    cases c with
    | zero cols => obtain ⟨h1, h2⟩ := key h; exact ⟨_, h1, bind_ok.2 ⟨_, h2, rfl⟩⟩
    | «omit» cols => obtain ⟨h1, h2⟩ := key h; exact ⟨_, h1, bind_ok.2 ⟨_, h2, rfl⟩⟩
    | null cols => obtain ⟨h1, h2⟩ := key h; exact ⟨_, h1, bind_ok.2 ⟨_, h2, rfl⟩⟩
    | uuid cols => obtain ⟨h1, h2⟩ := key h; exact ⟨_, h1, bind_ok.2 ⟨_, h2, rfl⟩⟩
    | constant cols vals =>
      obtain ⟨h, g1⟩ := h
      obtain ⟨h1, h2⟩ := key h
      exact ⟨_, h1, bind_ok.2 ⟨_, h2, bind_ok.2 ⟨_, (reads_need (reads_list (reads_constant K.float))).2 g1, rfl⟩⟩⟩
    | randomInt cols low high =>
      obtain ⟨h, g1, g2⟩ := h
      obtain ⟨h1, h2⟩ := key h
      exact ⟨_, h1, bind_ok.2 ⟨_, h2, bind_ok.2 ⟨_, (reads_need (reads_int L)).2 g1,
        bind_ok.2 ⟨_, (reads_need (reads_int L)).2 g2, rfl⟩⟩⟩⟩
    | randomFloat cols low high =>
      obtain ⟨h, l, u, rfl, rfl, g1, g2⟩ := h
      obtain ⟨h1, h2⟩ := key h
      exact ⟨_, h1, bind_ok.2 ⟨_, h2, bind_ok.2 ⟨_, (reads_need (reads_float L)).2 g1,
        bind_ok.2 ⟨_, (reads_need (reads_float L)).2 g2, rfl⟩⟩⟩⟩
    | randomString cols length alphabet custom =>
      obtain ⟨h, g1, g2, g3⟩ := h
      obtain ⟨h1, h2⟩ := key h
      exact ⟨_, h1, bind_ok.2 ⟨_, h2, bind_ok.2 ⟨_, (reads_need (reads_int L)).2 g1,
        bind_ok.2 ⟨_, (reads_want reads_alphabet).2 g2, bind_ok.2 ⟨_, (reads_want reads_optText).2 g3, rfl⟩⟩⟩⟩⟩
    | plugin cols p =>
      obtain ⟨h, m, c, kw, rfl, g1, g2, g3⟩ := h
      obtain ⟨h1, h2⟩ := key h
      exact ⟨_, h1, bind_ok.2 ⟨_, h2, bind_ok.2 ⟨_, (reads_need reads_str).2 g1,
        bind_ok.2 ⟨_, (reads_need reads_str).2 g2, bind_ok.2 ⟨_, (reads_want reads_kwargs).2 g3, rfl⟩⟩⟩⟩⟩
    | fake cols n unique =>
      obtain ⟨⟨o, ho, h⟩, g1⟩ := h
      obtain ⟨h1, h2⟩ := key h
      refine ⟨_, h1, bind_ok.2 ⟨_, h2, ?_⟩⟩
      have hne : o ∉ [str! "zero", str! "omit", str! "null", str! "constant", str! "random_int", str! "random_float",
          str! "random_string", str! "uuid", str! "plugin"] := by
        have : ∀ o ∈ fakeNames, o ∉ [str! "zero", str! "omit", str! "null", str! "constant", str! "random_int",
          str! "random_float", str! "random_string", str! "uuid", str! "plugin"] := by decide
        exact this o (List.mem_of_getElem? ho)
      simp only [List.mem_cons, List.not_mem_nil, or_false, not_or] at hne
      obtain ⟨e1, e2, e3, e4, e5, e6, e7, e8, e9⟩ := hne
      rw [if_neg e1, if_neg e2, if_neg e3, if_neg e4, if_neg e5, if_neg e6, if_neg e7, if_neg e8, if_neg e9, fakers_iff.2 ho]
      exact bind_ok.2 ⟨_, (reads_want (reads_bool L)).2 g1, rfl⟩

theorem readOpTag_iff {y : Yaml} {o : Str} {d : Items} :
    readOpTag y = .ok (o, d) ↔ y = .map d ∧ dget d (str! "op") = some (.leaf (.str o)) := by
  unfold readOpTag
  rw [bind_ok]
  simp only [asMap_ok]
  constructor
  · rintro ⟨d', rfl, h⟩
    split at h
    · rename_i o' ho
      cases h
      exact ⟨rfl, ho⟩
    · cases h
  · rintro ⟨rfl, h⟩
    refine ⟨d, rfl, ?_⟩
    rw [h]

theorem reads_simple (L : Lax) (K : Codes) : Reads (readSimple L K) (fun c y => ∃ d, y = .map d ∧ IsSimple L K c d) := by
  intro y c
  unfold readSimple
  rw [bind_ok]
  constructor
  · rintro ⟨⟨o, d⟩, h1, h2⟩
    obtain ⟨hy, hop⟩ := readOpTag_iff.1 h1
    subst hy
    exact ⟨d, rfl, (readSimple_iff L K).1 ⟨o, hop, h2⟩⟩
  · rintro ⟨d, rfl, h⟩
    obtain ⟨o, h1, h2⟩ := (readSimple_iff L K).2 h
    exact ⟨(o, d), readOpTag_iff.2 ⟨rfl, h1⟩, h2⟩

theorem reads_condVal : Reads readCondVal IsCondVal := by
  intro y v
  unfold readCondVal
  split
  · rename_i l
    rw [bind_ok]
    simp only [mapM_ok reads_scalar]
    cases v with
    | one v => simp only [Except.ok.injEq, reduceCtorEq, and_false, exists_false, false_iff]
               cases v <;> simp [IsCondVal, IsScalar]
    | many vs => simp [IsCondVal, IsList]
  · rename_i h
    rw [bind_ok]
    simp only [reads_scalar y _]
    cases v with
    | one v => simp [IsCondVal]
    | many vs =>
      simp only [Except.ok.injEq, reduceCtorEq, and_false, exists_false, false_iff]
      rintro ⟨ys, e, -⟩
      exact h _ e

theorem reads_condition (L : Lax) (K : Codes) : Reads (readCondition L K) (IsCondition L K) := by
  rintro y ⟨n, c⟩
  unfold readCondition
  simp only [bind_ok, asMap_ok, reads_need reads_condOp, reads_need reads_condVal, reads_need (reads_simple L K)]
  constructor
  · rintro ⟨d, hd, op, h1, v, h2, _, h3, e⟩
    cases e
    exact ⟨d, op, v, hd, rfl, h1, h2, h3⟩
  · rintro ⟨d, op, v, hd, e, h1, h2, h3⟩
    dsimp only at e
    subst e
    exact ⟨d, hd, _, h1, _, h2, _, h3, rfl⟩

theorem simple_not_multiplex {L : Lax} {K : Codes} {c : SimpleCfg Val} {d : Items} (h : IsSimple L K c d) :
    dget d (str! "op") ≠ some (.leaf (.str (str! "multiplex"))) := by
  have key : ∀ {o : Str} {cols : List Str}, o ≠ str! "multiplex" → IsOp o cols d →
      dget d (str! "op") ≠ some (.leaf (.str (str! "multiplex"))) := by
    intro o cols ho h e
    rw [set_text.1 h.1] at e
    cases e
    exact ho rfl
  cases c with
  | zero cols => exact key (by decide) h
  | «omit» cols => exact key (by decide) h
  | null cols => exact key (by decide) h
  | uuid cols => exact key (by decide) h
  | constant cols vals => exact key (by decide) h.1
  | randomInt cols low high => exact key (by decide) h.1
  | randomFloat cols low high => exact key (by decide) h.1
  | randomString cols length alphabet custom => exact key (by decide) h.1
  | plugin cols p => exact key (by decide) h.1
  | fake cols n unique =>
    obtain ⟨⟨o, ho, h⟩, -⟩ := h
    refine key ?_ h
    rintro rfl
    revert ho
    have : str! "multiplex" ∉ fakeNames := by decide
    exact fun ho => this (List.mem_of_getElem? ho)

theorem reads_filter (L : Lax) (K : Codes) : Reads (readFilter L K) (IsFilter L K) := by
  intro y c
  unfold readFilter
  rw [bind_ok]
  constructor
  · rintro ⟨⟨o, d⟩, h1, h2⟩
    obtain ⟨hy, hop⟩ := readOpTag_iff.1 h1
    subst hy
    dsimp only at h2
    split at h2
    · rename_i e
      subst e
      simp only [bind_ok, reads_need reads_str, reads_need (reads_list (reads_condition L K))] at h2
      obtain ⟨_, h3, _, h4, e⟩ := h2
      cases e
      exact ⟨d, rfl, set_text.2 hop, h3, h4⟩
    · rw [bind_ok] at h2
      obtain ⟨c', h2, e⟩ := h2
      cases e
      exact ⟨d, rfl, (readSimple_iff L K).1 ⟨o, hop, h2⟩⟩
  · intro h
    cases c with
    | simple c =>
      obtain ⟨d, rfl, h⟩ := h
      obtain ⟨o, h1, h2⟩ := (readSimple_iff L K).2 h
      refine ⟨(o, d), readOpTag_iff.2 ⟨rfl, h1⟩, ?_⟩
      dsimp only
      rw [if_neg fun e => simple_not_multiplex h (by rw [h1, e])]
      exact bind_ok.2 ⟨_, h2, rfl⟩
    | multiplex column conds =>
      obtain ⟨d, rfl, h1, h2, h3⟩ := h
      refine ⟨(_, d), readOpTag_iff.2 ⟨rfl, set_text.1 h1⟩, ?_⟩
      dsimp only
      rw [if_pos rfl]
      exact bind_ok.2 ⟨_, (reads_need reads_str).2 h2, bind_ok.2 ⟨_, (reads_need (reads_list (reads_condition L K))).2 h3, rfl⟩⟩

theorem reads_mult (L : Lax) : Reads (readMult L) (IsMult L) := by
  intro y x
  unfold readMult
  simp only [bind_ok, asMap_ok, forbid_ok, reads_want (reads_int L), reads_want reads_texts, reads_want reads_columns]
  constructor
  · rintro ⟨d, hd, -, h0, _, h1, _, h2, _, h3, _, h4, e⟩
    cases e
    exact ⟨d, hd, h0, h1, h2, h3, h4⟩
  · rintro ⟨d, hd, h0, h1, h2, h3, h4⟩
    exact ⟨d, hd, (), h0, _, h1, _, h2, _, h3, _, h4, rfl⟩

theorem reads_compact (L : Lax) : Reads (readCompact L) (IsCompact L) := by
  intro y x
  unfold readCompact
  simp only [bind_ok, asMap_ok, forbid_ok, reads_want (reads_int L), reads_want (reads_bool L), reads_want reads_columns]
  constructor
  · rintro ⟨d, hd, -, h0, _, h1, _, h2, _, h3, _, h4, e⟩
    cases e
    exact ⟨d, hd, h0, h1, h2, h3, h4⟩
  · rintro ⟨d, hd, h0, h1, h2, h3, h4⟩
    exact ⟨d, hd, (), h0, _, h1, _, h2, _, h3, _, h4, rfl⟩

theorem reads_sampler (L : Lax) (K : Codes) : Reads (readSampler L K) (IsSampler L K) := by
  intro y x
  unfold readSampler
  simp only [bind_ok, asMap_ok, forbid_ok, reads_want (reads_output L), reads_want (reads_dict (reads_list (reads_filter L K))),
    reads_want (reads_mult L), reads_want reads_infer, reads_want (reads_compact L)]
  constructor
  · rintro ⟨d, hd, -, h0, _, h1, _, h2, _, h3, _, h4, _, h5, e⟩
    cases e
    exact ⟨d, hd, h0, h1, h2, h3, h4, h5⟩
  · rintro ⟨d, hd, h0, h1, h2, h3, h4, h5⟩
    exact ⟨d, hd, (), h0, _, h1, _, h2, _, h3, _, h4, _, h5, rfl⟩

theorem planner_null {L : Lax} {code : Rat → Nat} {P : PlannerConfig} : ¬ IsPlanner L code P (.leaf .null) := by
  rintro ⟨d, h, -⟩; cases h
theorem sampler_null {L : Lax} {K : Codes} {x : SamplerConfig} : ¬ IsSampler L K x (.leaf .null) := by
  rintro ⟨d, h, -⟩; cases h

theorem reads_config (L : Lax) (K : Codes) : Reads (readConfig L K) (IsConfig L K) := by
  intro y x
  unfold readConfig
  simp only [bind_ok, asMap_ok, forbid_ok, reads_want (reads_db L),
    reads_want (reads_opt (reads_planner L K.float) fun _ => planner_null),
    reads_want (reads_opt (reads_sampler L K) fun _ => sampler_null)]
  constructor
  · rintro ⟨d, hd, -, h0, _, h1, _, h2, _, h3, e⟩
    cases e
    exact ⟨d, hd, h0, h1, h2, h3⟩
  · rintro ⟨d, hd, h0, h1, h2, h3⟩
    exact ⟨d, hd, (), h0, _, h1, _, h2, _, h3, rfl⟩

end Subsetter.ConfigRead
