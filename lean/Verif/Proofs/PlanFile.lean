import Verif.Model.PlanFile
import Verif.Proofs.PlanTable

/- Reading what was written. -/
namespace Subsetter

theorem depth_of_dget {d : Items} {k : Str} {y : Yaml} (h : dget d k = some y) : y.depth ≤ itemsDepth d := by
  induction d with
  | nil => cases h
  | cons x d ih =>
    obtain ⟨k', y'⟩ := x
    simp only [dget] at h
    rw [itemsDepth, pairDepth]
    split at h
    · cases h; exact Nat.le_max_left _ _
    · exact (ih h).trans (Nat.le_max_right _ _)

theorem depth_of_mem {l : List Yaml} {y : Yaml} (h : y ∈ l) : y.depth ≤ Yaml.depths l := by
  induction l with
  | nil => cases h
  | cons z l ih =>
    rw [Yaml.depths]
    rcases List.mem_cons.1 h with rfl | h
    · exact Nat.le_max_left _ _
    · exact (ih h).trans (Nat.le_max_right _ _)

theorem map_depth {d : Items} : (Yaml.map d).depth = itemsDepth d + 1 := by rw [Yaml.depth]
theorem seq_depth {l : List Yaml} : (Yaml.seq l).depth = Yaml.depths l + 1 := by rw [Yaml.depth]

theorem ok_bind {α β : Type} {a : α} {g : α → Except LoadErr β} : ((.ok a : Except LoadErr α) >>= g) = g a := rfl

section fields
variable {α : Type} {d : Items} {k : Str} {P : Yaml → Prop} {f : Yaml → Except LoadErr α} {a a₀ : α}

theorem need_ok (h : Set' d k P) (hf : ∀ y, dget d k = some y → P y → f y = .ok a) :
    need f (dget d k) = .ok a := by
  obtain ⟨y, h1, h2⟩ := h
  rw [h1]
  exact hf y h1 h2

theorem need_ok' {k' : Str} (h : Set' d k P) (hf : ∀ y, dget d k = some y → P y → f y = .ok a) :
    need f (lookupField d k k') = .ok a := by
  obtain ⟨y, h1, h2⟩ := h
  unfold lookupField
  rw [h1]
  exact hf y h1 h2

theorem want_ok (h : Unset d k (a = a₀) P) (hf : ∀ y, dget d k = some y → P y → f y = .ok a) :
    want a₀ f (dget d k) = .ok a := by
  rcases h with ⟨h1, h2⟩ | ⟨y, h1, h2⟩
  · rw [h1, h2]; rfl
  · rw [h1]
    exact hf y h1 h2

theorem asOpt_ok {P : α → Yaml → Prop} {o : Option α} {y : Yaml} (h : DumpsOpt P o y)
    (hn : ∀ a, ¬ P a (.leaf .null)) (hf : ∀ a, o = some a → P a y → f y = .ok a) : asOpt f y = .ok o := by
  cases o with
  | none => rw [show y = .leaf .null from h]; rfl
  | some a =>
    have h' : P a y := h
    unfold asOpt
    split
    · exact absurd h' (hn a)
    · rw [hf a rfl h']; rfl

theorem asList_ok {P : α → Yaml → Prop} {l : List α} {y : Yaml} (h : DumpsList P l y)
    (hf : ∀ a z, P a z → z.depth < y.depth → f z = .ok a) : asList f y = .ok l := by
  obtain ⟨ys, rfl, h⟩ := h
  show ys.mapM f = .ok l
  have hf' : ∀ a z, P a z → z ∈ ys → f z = .ok a := fun a z h1 h2 => hf a z h1 (by
    rw [seq_depth]; exact Nat.lt_succ_of_le (depth_of_mem h2))
  clear hf
  rw [mapM_ok_iff]
  induction h with
  | nil => exact .nil
  | cons h1 _ ih =>
    exact .cons (hf' _ _ h1 (by simp)) (ih fun a z h2 h3 => hf' a z h2 (by simp [h3]))

end fields

theorem asStr_ok {s : Str} {y : Yaml} (h : DumpsStr s y) : asStr y = .ok s := by
  rw [show y = .leaf (.str s) from h]; rfl
theorem asBool_ok {b : Bool} {y : Yaml} (h : DumpsBool b y) : asBool y = .ok b := by
  rw [show y = .leaf (.bool b) from h]; rfl
theorem asNat_ok {n : Nat} {y : Yaml} (h : DumpsNat n y) : asNat y = .ok n := by
  rw [show y = .leaf (.int n) from h]
  simp [asNat]
theorem asStrs_ok {l : List Str} {y : Yaml} (h : DumpsList DumpsStr l y) : asList asStr y = .ok l :=
  asList_ok h fun _ _ h _ => asStr_ok h

theorem asVal_ok {code : Rat → Nat} {v : Val} {y : Yaml} (h : DumpsVal code v y) : asVal code y = .ok v := by
  cases v with
  | null => exact h.elim
  | int i => rw [show y = .leaf (.int i) from h]; rfl
  | str s => rw [show y = .leaf (.str s) from h]; rfl
  | other n =>
    obtain ⟨q, h1, rfl⟩ : ∃ q, code q = n ∧ y = .leaf (.float q) := h
    rw [← h1]; rfl

theorem asOp_ok {o : Op} {y : Yaml} (h : DumpsOp o y) : asOp y = .ok o := by
  cases o <;> simp only [DumpsOp] at h
  case ne => rcases h with rfl | rfl <;> rfl
  all_goals subst h; rfl

theorem loadTableId_ok {t : TableId} {y : Yaml} (h : DumpsTableId t y) : loadTableId y = .ok t := by
  obtain ⟨d, rfl, h1, h2, h3⟩ := h
  simp only [loadTableId, asMap, ok_bind, need_ok' h1 fun _ _ h => asStr_ok h, need_ok' h2 fun _ _ h => asStr_ok h,
    want_ok h3 fun _ _ h => asBool_ok h]

theorem loadJoin_ok {j : Join} {y : Yaml} (h : DumpsJoin j y) : loadJoin y = .ok j := by
  obtain ⟨d, rfl, h1, h2, h3, h4⟩ := h
  simp only [loadJoin, asMap, ok_bind, need_ok h1 fun _ _ h => loadTableId_ok h, need_ok h2 fun _ _ h => asStrs_ok h,
    need_ok h3 fun _ _ h => asStrs_ok h, want_ok h4 fun _ _ h => asBool_ok h]

theorem loadTag_ok {s : Str} {d : Items} (h : Set' d (str! "type") (DumpsStr s)) : loadTag (.map d) = .ok (s, d) := by
  obtain ⟨y, h1, rfl⟩ := h
  simp only [loadTag, asMap, ok_bind, h1, asStr]

variable {code : Rat → Nat}

theorem dumpsWheres_iff {cs : List Where} {ys : List Yaml} :
    DumpsWheres code cs ys ↔ List.Forall₂ (DumpsWhere code) cs ys := by
  induction cs generalizing ys with
  | nil => rw [DumpsWheres]; exact ⟨fun h => h ▸ .nil, fun h => by cases h; rfl⟩
  | cons c cs ih =>
    rw [DumpsWheres]
    constructor
    · rintro ⟨z, zs, rfl, h1, h2⟩; exact .cons h1 (ih.1 h2)
    · intro h
      cases h with
      | cons h1 h2 => exact ⟨_, _, rfl, h1, ih.2 h2⟩

theorem dumpsSels_iff {ss : List Sel} {ys : List Yaml} :
    DumpsSels code ss ys ↔ List.Forall₂ (DumpsSel code) ss ys := by
  induction ss generalizing ys with
  | nil => rw [DumpsSels]; exact ⟨fun h => h ▸ .nil, fun h => by cases h; rfl⟩
  | cons c cs ih =>
    rw [DumpsSels]
    constructor
    · rintro ⟨z, zs, rfl, h1, h2⟩; exact .cons h1 (ih.1 h2)
    · intro h
      cases h with
      | cons h1 h2 => exact ⟨_, _, rfl, h1, ih.2 h2⟩

theorem not_dumps_null (w : Where) : ¬ DumpsWhere code w (.leaf .null) := by
  intro h
  cases w <;> rw [DumpsWhere] at h
  case and => obtain ⟨d, ys, h, -⟩ := h; cases h
  case or => obtain ⟨d, ys, h, -⟩ := h; cases h
  all_goals obtain ⟨d, h, -⟩ := h; cases h

/-- A statement is not a list. -/
theorem dumpsStmt_not_list {α : Type} {f : Yaml → Except LoadErr α} {st : Stmt} {y : Yaml}
    (h : DumpsStmt code st y) : asList f y = .error .type := by
  cases st with
  | select s =>
    obtain ⟨c, fr, w, l, j, o, t⟩ := s
    rw [DumpsStmt, DumpsSel] at h
    obtain ⟨d, rfl, -⟩ := h
    rfl
  | union ss =>
    rw [DumpsStmt] at h
    obtain ⟨d, ys, rfl, -⟩ := h
    rfl

theorem load_ok (n : Nat) :
    (∀ w y, 3 * y.depth + 1 ≤ n → DumpsWhere code w y → loadWhere code n y = .ok w) ∧
    (∀ s d, 3 * itemsDepth d + 3 ≤ n → DumpsSel code s (.map d) → loadSel code n d = .ok s) ∧
    (∀ s y, 3 * y.depth + 1 ≤ n → DumpsSel code s y → loadItem code n y = .ok s) ∧
    (∀ st y, 3 * y.depth + 1 ≤ n → DumpsStmt code st y → loadStmt code n y = .ok st) := by
  induction n with
  | zero => exact ⟨fun _ _ h => by omega, fun _ _ h => by omega, fun _ _ h => by omega, fun _ _ h => by omega⟩
  | succ n ih =>
    obtain ⟨ihW, ihS, ihI, ihT⟩ := ih
    have conds : ∀ {cs : List Where} {d : Items} {ys : List Yaml}, 3 * (Yaml.map d).depth + 1 ≤ n + 1 →
        dget d (str! "conditions") = some (.seq ys) → DumpsWheres code cs ys →
        need (asList (loadWhere code n)) (dget d (str! "conditions")) = .ok cs := by
      intro cs d ys hn h1 h2
      rw [h1]
      have h3 := depth_of_dget h1
      rw [map_depth] at hn
      exact asList_ok ⟨ys, rfl, dumpsWheres_iff.1 h2⟩ fun w z hz hlt => ihW w z (by omega) hz
    refine ⟨?_, ?_, ?_, ?_⟩
    · intro w y hn h
      cases w <;> rw [DumpsWhere] at h
      case false_ => obtain ⟨d, rfl, h1⟩ := h; rw [loadWhere, loadTag_ok h1]; rfl
      case true_ => obtain ⟨d, rfl, h1⟩ := h; rw [loadWhere, loadTag_ok h1]; rfl
      case op o c v =>
        obtain ⟨d, rfl, h1, h2, h3, h4⟩ := h
        rw [loadWhere, loadTag_ok h1]
        show loadOpClause code d = _
        simp only [loadOpClause, ok_bind, want_ok h2 fun _ _ h => asOp_ok h, need_ok h3 fun _ _ h => asStr_ok h,
          need_ok h4 fun _ _ h => asVal_ok h]
      case inVals cols vals neg =>
        obtain ⟨d, rfl, h1, h2, ⟨z, h3, h3'⟩, h4⟩ := h
        rw [loadWhere, loadTag_ok h1, ok_bind]
        dsimp only
        rw [if_neg (by decide), if_neg (by decide), if_neg (by decide), if_pos rfl]
        have h5 : asList (asList (asVal code)) z = .ok vals :=
          asList_ok h3' fun _ _ h _ => asList_ok h fun _ _ h _ => asVal_ok h
        simp only [ok_bind, need_ok h2 fun _ _ h => asStrs_ok h, want_ok h4 fun _ _ h => asBool_ok h, h3, h5]
      case inStmt cols st neg =>
        obtain ⟨d, rfl, h1, h2, ⟨z, h3, h3'⟩, h4⟩ := h
        rw [loadWhere, loadTag_ok h1, ok_bind]
        dsimp only
        rw [if_neg (by decide), if_neg (by decide), if_neg (by decide), if_pos rfl]
        have h5 : asList (asList (asVal code)) z = .error .type := dumpsStmt_not_list h3'
        have h6 : loadStmt code n z = .ok st := ihT st z (by
          have := depth_of_dget h3
          rw [map_depth] at hn
          omega) h3'
        simp only [ok_bind, need_ok h2 fun _ _ h => asStrs_ok h, want_ok h4 fun _ _ h => asBool_ok h, h3, h5, h6]
      case and cs =>
        obtain ⟨d, ys, rfl, h1, h2, h3⟩ := h
        rw [loadWhere, loadTag_ok h1, ok_bind]
        dsimp only
        rw [if_neg (by decide), if_neg (by decide), if_neg (by decide), if_neg (by decide), if_pos rfl,
          conds hn h2 h3, ok_bind]
      case or cs =>
        obtain ⟨d, ys, rfl, h1, h2, h3⟩ := h
        rw [loadWhere, loadTag_ok h1, ok_bind]
        dsimp only
        rw [if_neg (by decide), if_neg (by decide), if_neg (by decide), if_neg (by decide), if_neg (by decide),
          if_pos rfl, conds hn h2 h3, ok_bind]
      case random q tag =>
        obtain ⟨d, rfl, h1, h2, rfl⟩ := h
        rw [loadWhere, loadTag_ok h1, ok_bind]
        dsimp only
        rw [if_neg (by decide), if_neg (by decide), if_neg (by decide), if_neg (by decide), if_neg (by decide),
          if_neg (by decide), if_pos rfl]
        rw [need_ok (a := q) (f := asFloat) h2 fun y _ h => by rw [h]; rfl, ok_bind]
      case sql t =>
        obtain ⟨d, rfl, h1, h2⟩ := h
        rw [loadWhere, loadTag_ok h1, ok_bind]
        dsimp only
        rw [if_neg (by decide), if_neg (by decide), if_neg (by decide), if_neg (by decide), if_neg (by decide),
          if_neg (by decide), if_neg (by decide), if_pos rfl]
        rw [need_ok h2 fun _ _ h => asStr_ok h, ok_bind]
    · intro s d hn h
      obtain ⟨columns, from_, where_, limit, joins, outer, tag⟩ := s
      rw [DumpsSel] at h
      obtain ⟨d', e, -, h2, h3, h4, h5, h6, h7, rfl⟩ := h
      cases e
      have hw : ∀ y, dget d (str! "where") = some y → DumpsOptWhere code where_ y →
          asOpt (loadWhere code n) y = .ok where_ := by
        intro y hy h
        have hd := depth_of_dget hy
        refine asOpt_ok (P := DumpsWhere code) ?_ not_dumps_null fun w _ hw => ihW w y (by omega) hw
        cases where_ with
        | none => rw [DumpsOptWhere] at h; exact h
        | some w => rw [DumpsOptWhere] at h; exact h
      rw [loadSel]
      simp only [ok_bind, want_ok h2 fun y _ h => asOpt_ok h (by rintro a ⟨ys, h, -⟩; cases h) fun _ _ h => asStrs_ok h,
        need_ok' h3 fun _ _ h => loadTableId_ok h, want_ok h4 hw,
        want_ok h5 fun y _ h => asOpt_ok h (by intro a h; cases h) fun _ _ h => asNat_ok h,
        want_ok h6 fun y _ h => asOpt_ok h (by rintro a ⟨ys, h, -⟩; cases h) fun _ _ h =>
          asList_ok h fun _ _ h _ => loadJoin_ok h,
        want_ok h7 fun _ _ h => asBool_ok h]
    · intro s y hn h
      have h' := h
      obtain ⟨columns, from_, where_, limit, joins, outer, tag⟩ := s
      rw [DumpsSel] at h
      obtain ⟨d, rfl, h1, -⟩ := h
      rw [map_depth] at hn
      rw [loadItem]
      simp only [asMap, ok_bind, need_ok' h1 fun _ _ h => asStr_ok h, if_true]
      exact ihS _ d (by omega) h'
    · intro st y hn h
      cases st with
      | select s =>
        rw [DumpsStmt] at h
        have h' := h
        obtain ⟨columns, from_, where_, limit, joins, outer, tag⟩ := s
        rw [DumpsSel] at h
        obtain ⟨d, rfl, h1, -⟩ := h
        rw [map_depth] at hn
        rw [loadStmt, loadTag_ok h1, ok_bind]
        dsimp only
        rw [if_pos rfl, ihS _ d (by omega) h', ok_bind]
      | union ss =>
        rw [DumpsStmt] at h
        obtain ⟨d, ys, rfl, h1, h2, h3⟩ := h
        have hd := depth_of_dget h2
        rw [map_depth] at hn
        have h4 : need (asList (loadItem code n)) (dget d (str! "statements")) = .ok ss := by
          rw [h2]
          exact asList_ok ⟨ys, rfl, dumpsSels_iff.1 h3⟩ fun s z hz hlt => ihI s z (by omega) hz
        rw [loadStmt, loadTag_ok h1, ok_bind]
        dsimp only
        rw [if_neg (by decide), if_pos rfl, h4, ok_bind]

theorem loadQuery_ok {q : TableQuery} {y : Yaml} (h : DumpsQuery code q y) : loadQuery code y = .ok q := by
  cases q with
  | sql t =>
    obtain ⟨d, rfl, h1, h2⟩ := h
    have e1 : want none (asOpt asStr) (dget d (str! "sql")) = .ok (some t) := by
      obtain ⟨y, h3, rfl⟩ := h1
      rw [h3]; rfl
    have e2 : ∀ f : Yaml → Except LoadErr Stmt, want none (asOpt f) (dget d (str! "statement")) = .ok none := by
      intro f
      rcases h2 with ⟨h2, -⟩ | ⟨y, h2, rfl⟩ <;> rw [h2] <;> rfl
    simp only [loadQuery, asMap, ok_bind, e1, e2]
  | statement st =>
    obtain ⟨d, rfl, h1, y, h2, h3⟩ := h
    have e1 : want none (asOpt asStr) (dget d (str! "sql")) = .ok none := by
      rcases h1 with ⟨h2, -⟩ | ⟨y, h2, rfl⟩ <;> rw [h2] <;> rfl
    have hd := depth_of_dget h2
    have e2 : want none (asOpt (loadStmt code (3 * (Yaml.map d).depth + 3))) (dget d (str! "statement")) =
        .ok (some st) := by
      rw [h2]
      refine asOpt_ok (P := DumpsStmt code) h3 ?_ fun s _ hs => (load_ok _).2.2.2 s y (by rw [map_depth]; omega) hs
      intro s hs
      have := dumpsStmt_not_list (f := asStr) hs
      cases s with
      | select s => obtain ⟨c, fr, w, l, j, o, t⟩ := s; rw [DumpsStmt, DumpsSel] at hs; obtain ⟨d, e, -⟩ := hs; cases e
      | union ss => rw [DumpsStmt] at hs; obtain ⟨d, ys, e, -⟩ := hs; cases e
    simp only [loadQuery, asMap, ok_bind, e1, e2]

theorem loadItems_ok {α : Type} {f : Yaml → Except LoadErr α} {P : α → Yaml → Prop}
    (hf : ∀ a y, P a y → f y = .ok a) {qs : Dict Str α} {zs : Items}
    (h : List.Forall₂ (fun (q : Str × α) (z : Str × Yaml) => z.1 = q.1 ∧ P q.2 z.2) qs zs) :
    loadItems f zs = .ok qs := by
  induction h with
  | nil => rfl
  | @cons q z qs zs h1 h2 ih =>
    obtain ⟨k, a⟩ := q
    obtain ⟨k', y⟩ := z
    obtain ⟨h3, h4⟩ := h1
    simp only at h3 h4
    subst h3
    simp only [loadItems, ok_bind, hf a y h4, ih]

theorem loadPlan_ok {p : Plan} {y : Yaml} (h : DumpsPlan code p y) :
    ∃ qs, qs.Perm p.queries ∧ loadPlan code y = .ok ⟨qs, p.passthrough⟩ := by
  obtain ⟨d, rfl, ⟨z, h1, qs, zs, rfl, h2, h3⟩, h4⟩ := h
  refine ⟨qs, h2, ?_⟩
  simp only [loadPlan, asMap, ok_bind, h1, need, asDict, loadItems_ok (P := DumpsQuery code) (fun _ _ h => loadQuery_ok h) h3,
    want_ok h4 fun _ _ h => asStrs_ok h]

end Subsetter
