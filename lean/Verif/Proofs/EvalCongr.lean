import Verif.Model.Exec
import Verif.Proofs.Simplify

/- The result of a query only depends on the tables it refers to. -/
set_option linter.unusedSimpArgs false
namespace Subsetter

theorem joinRow_congr {D D' : Env} {j : Join} (h : D.rows j.right = D'.rows j.right) (o : Bool)
    (r : Row) : joinRow D o j r = joinRow D' o j r := by
  unfold joinRow; rw [h]

theorem existsCond_congr {D D' : Env} {j : Join} (h : D.rows j.right = D'.rows j.right)
    (r : Row) : existsCond D j r = existsCond D' j r := by
  unfold existsCond; rw [h]

theorem joinTuples_congr {D D' : Env} {js : List Join}
    (h : ∀ j ∈ js, D.rows j.right = D'.rows j.right) (o : Bool) (r : Row) :
    joinTuples D o r js = joinTuples D' o r js := by
  induction js with
  | nil => rfl
  | cons j js ih =>
    rw [joinTuples, joinTuples, joinRow_congr (h j (by simp)), ih (fun x hx => h x (by simp [hx]))]

theorem joinCond_congr {D D' : Env} {es : List Join}
    (h : ∀ j ∈ es, D.rows j.right = D'.rows j.right) (o : Bool) (r : Row) (hs : List Join)
    (tup : List (Option Row)) : joinCond D o r hs es tup = joinCond D' o r hs es tup := by
  have : (es.map fun j => existsCond D j r) = es.map fun j => existsCond D' j r :=
    List.map_congr_left fun j hj => existsCond_congr (h j hj) r
  unfold joinCond; rw [this]

theorem fromWhere_congr {D D' : Env} {t : TableId} {joins : Option (List Join)} {o : Bool}
    {c c' : Nat → Row → Bool} (ht : D.rows t = D'.rows t ∧ D.pk t = D'.pk t)
    (hj : ∀ j ∈ joins.getD [], D.rows j.right = D'.rows j.right ∧ D.pk j.right = D'.pk j.right) (hc : c = c') :
    fromWhere D t joins o c = fromWhere D' t joins o c' := by
  subst hc
  obtain ⟨ht, hpk⟩ := ht
  cases joins with
  | none => simp only [fromWhere, ht]
  | some js =>
    cases js with
    | nil => simp only [fromWhere, ht]
    | cons j js =>
      simp only [Option.getD_some] at hj
      have hu : useJoin D t = useJoin D' t := by funext x; simp [useJoin, hpk]
      have h1 : ∀ r, joinTuples D o r ((j :: js).filter (useJoin D' t)) =
          joinTuples D' o r ((j :: js).filter (useJoin D' t)) := fun r =>
        joinTuples_congr (fun x hx => (hj x (List.mem_filter.1 hx).1).1) o r
      have h2 : ∀ r tup, joinCond D o r ((j :: js).filter (useJoin D' t))
          ((j :: js).filter fun x => !useJoin D' t x) tup =
          joinCond D' o r ((j :: js).filter (useJoin D' t))
          ((j :: js).filter fun x => !useJoin D' t x) tup := fun r tup =>
        joinCond_congr (fun x hx => (hj x (List.mem_filter.1 hx).1).1) o r _ tup
      simp only [fromWhere, hu, ht, h1, h2, hpk]

mutual
theorem Where.eval_congr (E : Engine) {D D' : Env} (t : TableId) (i : Nat)
    (r : Row) : ∀ w : Where, (∀ x ∈ w.refs, D.rows x = D'.rows x ∧ D.pk x = D'.pk x) →
    Where.eval E D t i r w = Where.eval E D' t i r w
  | .false_, _ => by simp only [Where.eval]
  | .true_, _ => by simp only [Where.eval]
  | .op _ _ _, _ => by simp only [Where.eval]
  | .inVals _ _ _, _ => by simp only [Where.eval]
  | .random _ _, _ => by simp only [Where.eval]
  | .sql _, _ => by simp only [Where.eval]
  | .inStmt cs st neg, h => by
    simp only [Where.eval]
    rw [Stmt.eval_congr E st (by simpa [Where.refs] using h)]
  | .and cs, h => by
    simp only [Where.eval]
    rw [Where.evals_congr E t i r cs (by simpa [Where.refs] using h)]
  | .or cs, h => by
    simp only [Where.eval]
    rw [Where.evals_congr E t i r cs (by simpa [Where.refs] using h)]
theorem Where.evals_congr (E : Engine) {D D' : Env} (t : TableId) (i : Nat)
    (r : Row) : ∀ ws : List Where, (∀ x ∈ Where.refss ws, D.rows x = D'.rows x ∧ D.pk x = D'.pk x) →
    Where.evals E D t i r ws = Where.evals E D' t i r ws
  | [], _ => by simp only [Where.evals]
  | w :: ws, h => by
    simp only [Where.refss, List.mem_append] at h
    simp only [Where.evals]
    rw [Where.eval_congr E t i r w (fun x hx => h x (Or.inl hx)),
      Where.evals_congr E t i r ws (fun x hx => h x (Or.inr hx))]
theorem Sel.eval_congr (E : Engine) {D D' : Env} :
    ∀ s : Sel, (∀ x ∈ s.refs, D.rows x = D'.rows x ∧ D.pk x = D'.pk x) → Sel.eval E D s = Sel.eval E D' s
  | .mk cols t none limit joins outer tag, h => by
    simp only [Sel.refs, List.mem_cons, List.mem_map] at h
    simp only [Sel.eval]
    rw [fromWhere_congr (h t (Or.inl rfl)) (fun j hj => h _ (Or.inr ⟨j, hj, rfl⟩)) rfl]
  | .mk cols t (some w) limit joins outer tag, h => by
    simp only [Sel.refs, List.mem_cons, List.mem_append, List.mem_map] at h
    simp only [Sel.eval]
    rw [fromWhere_congr (h t (Or.inl rfl)) (fun j hj => h _ (Or.inr (Or.inl ⟨j, hj, rfl⟩)))]
    funext i r
    rw [Where.eval_congr E t i r w (fun x hx => h x (Or.inr (Or.inr hx)))]
theorem Sel.evals_congr (E : Engine) {D D' : Env} :
    ∀ ss : List Sel, (∀ x ∈ Sel.refss ss, D.rows x = D'.rows x ∧ D.pk x = D'.pk x) →
      Sel.evals E D ss = Sel.evals E D' ss
  | [], _ => by simp only [Sel.evals]
  | s :: ss, h => by
    simp only [Sel.refss, List.mem_append] at h
    simp only [Sel.evals]
    rw [Sel.eval_congr E s (fun x hx => h x (Or.inl hx)),
      Sel.evals_congr E ss (fun x hx => h x (Or.inr hx))]
theorem Stmt.eval_congr (E : Engine) {D D' : Env} :
    ∀ s : Stmt, (∀ x ∈ s.refs, D.rows x = D'.rows x ∧ D.pk x = D'.pk x) → Stmt.eval E D s = Stmt.eval E D' s
  | .select s, h => by
    simp only [Stmt.eval]
    rw [Sel.eval_congr E s (by simpa [Stmt.refs] using h)]
  | .union ss, h => by
    simp only [Stmt.eval]
    rw [Sel.evals_congr E ss (by simpa [Stmt.refs] using h)]
end

theorem TableQuery.eval_congr_refs (E : Engine) {D D' : Env} (q : TableQuery)
    (h : ∀ x ∈ q.refs, D.rows x = D'.rows x ∧ D.pk x = D'.pk x) : q.eval E D = q.eval E D' := by
  cases q with
  | sql s => rfl
  | statement s => exact Stmt.eval_congr E s h

theorem TableQuery.eval_congr (E : Engine) {D D' : Env} (hpk : D.pk = D'.pk) (q : TableQuery)
    (h : ∀ x ∈ q.refs, D.rows x = D'.rows x) : q.eval E D = q.eval E D' :=
  q.eval_congr_refs E fun x hx => ⟨h x hx, by rw [hpk]⟩

end Subsetter
