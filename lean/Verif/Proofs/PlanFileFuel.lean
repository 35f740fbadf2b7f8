import Verif.Proofs.PlanFile

/- The fuel of the reader suffices. -/
namespace Subsetter

/-- The reader did not run out of fuel. -/
def NF {α : Type} (x : Except LoadErr α) : Prop := x ≠ .error .fuel

theorem nf_ok {α : Type} {a : α} : NF (.ok a : Except LoadErr α) := by intro h; cases h

/-- The pattern of all readers. -/
theorem nf_bind {α β : Type} {x : Except LoadErr α} {g : α → Except LoadErr β} (hx : NF x)
    (hg : ∀ a, x = .ok a → NF (g a)) : NF (x >>= g) := by
  cases x with
  | error e => intro h; cases h; exact hx rfl
  | ok a => exact hg a rfl

section
variable {α : Type} {f : Yaml → Except LoadErr α}

theorem nf_need {o : Option Yaml} (h : ∀ y, o = some y → NF (f y)) : NF (need f o) := by
  cases o with
  | none => intro h; cases h
  | some y => exact h y rfl

theorem nf_want {a : α} {o : Option Yaml} (h : ∀ y, o = some y → NF (f y)) : NF (want a f o) := by
  cases o with
  | none => exact nf_ok
  | some y => exact h y rfl

theorem nf_mapM {l : List Yaml} (h : ∀ z ∈ l, NF (f z)) : NF (l.mapM f) := by
  induction l with
  | nil => exact nf_ok
  | cons z l ih =>
    rw [List.mapM_cons]
    have h1 := h z (by simp)
    have h2 := ih fun z hz => h z (by simp [hz])
    cases hz : f z with
    | error e => intro h3; cases h3; exact h1 hz
    | ok a =>
      cases hl : l.mapM f with
      | error e => intro h3; cases h3; exact h2 hl
      | ok b => intro h3; cases h3

theorem nf_list {y : Yaml} (h : ∀ z, z.depth < y.depth → NF (f z)) : NF (asList f y) := by
  cases y with
  | leaf s => intro h; cases h
  | map d => intro h; cases h
  | seq l => exact nf_mapM fun z hz => h z (by rw [seq_depth]; exact Nat.lt_succ_of_le (depth_of_mem hz))

theorem nf_opt {y : Yaml} (h : NF (f y)) : NF (asOpt f y) := by
  unfold asOpt
  split
  · exact nf_ok
  · exact nf_bind h fun _ _ => nf_ok

end

theorem nf_str {y : Yaml} : NF (asStr y) := by unfold asStr; split <;> intro h <;> cases h
theorem nf_bool {y : Yaml} : NF (asBool y) := by unfold asBool; split <;> intro h <;> cases h
theorem nf_nat {y : Yaml} : NF (asNat y) := by
  unfold asNat
  split
  · split <;> intro h <;> cases h
  · intro h; cases h
theorem nf_float {y : Yaml} : NF (asFloat y) := by unfold asFloat; split <;> intro h <;> cases h
theorem nf_val {code : Rat → Nat} {y : Yaml} : NF (asVal code y) := by unfold asVal; split <;> intro h <;> cases h
theorem nf_map {y : Yaml} : NF (asMap y) := by unfold asMap; split <;> intro h <;> cases h

theorem nf_strs {y : Yaml} : NF (asList asStr y) := nf_list fun _ _ => nf_str

theorem nf_op {y : Yaml} : NF (asOp y) := by
  unfold asOp
  refine nf_bind nf_str fun s _ => ?_
  repeat' split
  all_goals intro h; cases h

theorem nf_tableId {y : Yaml} : NF (loadTableId y) := by
  unfold loadTableId
  exact nf_bind nf_map fun _ _ => nf_bind (nf_need fun _ _ => nf_str) fun _ _ =>
    nf_bind (nf_need fun _ _ => nf_str) fun _ _ => nf_bind (nf_want fun _ _ => nf_bool) fun _ _ => nf_ok

theorem nf_join {y : Yaml} : NF (loadJoin y) := by
  unfold loadJoin
  exact nf_bind nf_map fun _ _ => nf_bind (nf_need fun _ _ => nf_tableId) fun _ _ =>
    nf_bind (nf_need fun _ _ => nf_strs) fun _ _ => nf_bind (nf_need fun _ _ => nf_strs) fun _ _ =>
    nf_bind (nf_want fun _ _ => nf_bool) fun _ _ => nf_ok

theorem loadTag_map {y : Yaml} {s : Str} {d : Items} (h : loadTag y = .ok (s, d)) : y = .map d := by
  cases y with
  | leaf s => cases h
  | seq l => cases h
  | map d' =>
    simp only [loadTag, asMap, ok_bind] at h
    cases h1 : dget d' (str! "type") with
    | none => rw [h1] at h; cases h
    | some t =>
      rw [h1] at h
      dsimp only at h
      cases h2 : asStr t with
      | error e => rw [h2] at h; cases h
      | ok s => rw [h2] at h; cases h; rfl

theorem nf_tag {y : Yaml} : NF (loadTag y) := by
  unfold loadTag
  refine nf_bind nf_map fun d _ => ?_
  cases dget d (str! "type") with
  | none => intro h; cases h
  | some t =>
    dsimp only
    cases asStr t with
    | error e => intro h; cases h
    | ok s => exact nf_ok

theorem asMap_map {y : Yaml} {d : Items} (h : asMap y = .ok d) : y = .map d := by
  cases y with
  | leaf s => cases h
  | seq l => cases h
  | map d' => cases h; rfl

variable {code : Rat → Nat}

theorem nf_opClause {d : Items} : NF (loadOpClause code d) := by
  unfold loadOpClause
  exact nf_bind (nf_want fun _ _ => nf_op) fun _ _ => nf_bind (nf_need fun _ _ => nf_str) fun _ _ =>
    nf_bind (nf_need fun _ _ => nf_val) fun _ _ => nf_ok

theorem load_nf (n : Nat) :
    (∀ y, 3 * y.depth + 1 ≤ n → NF (loadWhere code n y)) ∧
    (∀ d, 3 * itemsDepth d + 3 ≤ n → NF (loadSel code n d)) ∧
    (∀ y, 3 * y.depth + 1 ≤ n → NF (loadItem code n y)) ∧
    (∀ y, 3 * y.depth + 1 ≤ n → NF (loadStmt code n y)) := by
  induction n with
  | zero => exact ⟨fun _ h => by omega, fun _ h => by omega, fun _ h => by omega, fun _ h => by omega⟩
  | succ n ih =>
    obtain ⟨ihW, ihS, ihI, ihT⟩ := ih
    refine ⟨?_, ?_, ?_, ?_⟩
    · intro y hn
      rw [loadWhere]
      cases ht : loadTag y with
      | error e => intro h; cases h; exact nf_tag ht
      | ok sd =>
        obtain ⟨s, d⟩ := sd
        have := loadTag_map ht
        subst this
        rw [map_depth] at hn
        rw [ok_bind]
        dsimp only
        have hc : NF (need (asList (loadWhere code n)) (dget d (str! "conditions"))) :=
          nf_need fun y hy => nf_list fun z hz => ihW z (by have := depth_of_dget hy; omega)
        split
        · exact nf_ok
        split
        · exact nf_ok
        split
        · exact nf_opClause
        split
        · refine nf_bind (nf_need fun _ _ => nf_strs) fun _ _ => nf_bind (nf_want fun _ _ => nf_bool) fun _ _ => ?_
          cases hv : dget d (str! "values") with
          | none => intro h; cases h
          | some v =>
            dsimp only
            cases asList (asList (asVal code)) v with
            | ok vals => exact nf_ok
            | error e => exact nf_bind (ihT v (by have := depth_of_dget hv; omega)) fun _ _ => nf_ok
        split
        · exact nf_bind hc fun _ _ => nf_ok
        split
        · exact nf_bind hc fun _ _ => nf_ok
        split
        · exact nf_bind (nf_need fun _ _ => nf_float) fun _ _ => nf_ok
        split
        · exact nf_bind (nf_need fun _ _ => nf_str) fun _ _ => nf_ok
        · intro h; cases h
    · intro d hn
      rw [loadSel]
      exact nf_bind (nf_want fun _ _ => nf_opt nf_strs) fun _ _ => nf_bind (nf_need fun _ _ => nf_tableId) fun _ _ =>
        nf_bind (nf_want fun y hy => nf_opt (ihW y (by have := depth_of_dget hy; omega))) fun _ _ =>
        nf_bind (nf_want fun _ _ => nf_opt nf_nat) fun _ _ =>
        nf_bind (nf_want fun _ _ => nf_opt (nf_list fun _ _ => nf_join)) fun _ _ =>
        nf_bind (nf_want fun _ _ => nf_bool) fun _ _ => nf_ok
    · intro y hn
      rw [loadItem]
      refine nf_bind nf_map fun d hd => nf_bind (nf_need fun _ _ => nf_str) fun s _ => ?_
      have := asMap_map hd
      subst this
      rw [map_depth] at hn
      split
      · exact ihS d (by omega)
      · intro h; cases h
    · intro y hn
      rw [loadStmt]
      cases ht : loadTag y with
      | error e => intro h; cases h; exact nf_tag ht
      | ok sd =>
        obtain ⟨s, d⟩ := sd
        have := loadTag_map ht
        subst this
        rw [map_depth] at hn
        rw [ok_bind]
        dsimp only
        split
        · exact nf_bind (ihS d (by omega)) fun _ _ => nf_ok
        split
        · exact nf_bind (nf_need fun y hy => nf_list fun z hz => ihI z (by have := depth_of_dget hy; omega))
            fun _ _ => nf_ok
        · intro h; cases h

theorem nf_query {y : Yaml} : NF (loadQuery code y) := by
  unfold loadQuery
  refine nf_bind nf_map fun d hd => nf_bind (nf_want fun _ _ => nf_opt nf_str) fun sql _ =>
    nf_bind (nf_want fun z hz => nf_opt ((load_nf _).2.2.2 z ?_)) fun st _ => ?_
  · have := asMap_map hd
    subst this
    rw [map_depth]
    have := depth_of_dget hz
    omega
  · cases sql with
    | some t => exact nf_ok
    | none =>
      cases st with
      | some s => exact nf_ok
      | none => intro h; cases h

theorem nf_items {α : Type} {f : Yaml → Except LoadErr α} (h : ∀ y, NF (f y)) (d : Items) : NF (loadItems f d) := by
  induction d with
  | nil => exact nf_ok
  | cons x d ih =>
    obtain ⟨k, y⟩ := x
    rw [loadItems]
    exact nf_bind (h y) fun _ _ => nf_bind ih fun _ _ => nf_ok

theorem nf_plan {y : Yaml} : NF (loadPlan code y) := by
  unfold loadPlan
  refine nf_bind nf_map fun d _ => nf_bind (nf_need fun z _ => ?_) fun _ _ =>
    nf_bind (nf_want fun _ _ => nf_strs) fun _ _ => nf_ok
  unfold asDict
  split
  · exact nf_items (fun _ => nf_query) _
  · intro h; cases h

end Subsetter
