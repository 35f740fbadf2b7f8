import Verif.Spec.SqlRun
import Verif.Proofs.EvalCongr

/- The column added to temporary tables is invisible to statements that use them in joins only. -/
namespace Subsetter
open Spec

/-- A row of a temporary table without the column added for compaction. -/
def strip (r : Row) : Row := r.filter fun e => decide (e.1 ≠ compactCol)

theorem dget_strip {c : Str} (h : c ≠ compactCol) : ∀ r : Row, dget (strip r) c = dget r c
  | [] => rfl
  | (d, v) :: r => by
    have ih := dget_strip h r
    unfold strip at ih ⊢
    rw [List.filter_cons]
    by_cases hd : d ≠ compactCol
    · rw [if_pos (by simpa using hd)]
      simp only [dget]
      rw [ih]
    · rw [if_neg (by simpa using hd)]
      simp only [dget]
      rw [if_neg (fun e => h (by rw [← e]; exact not_not.1 hd))]
      exact ih

theorem get_strip {c : Str} (h : c ≠ compactCol) (r : Row) : (strip r).get c = r.get c := by
  unfold Row.get
  rw [dget_strip h]

/-- `D` is `D'` without the columns added to sampled tables. -/
structure Strips (D' D : Env) : Prop where
  source : ∀ t, t.sampled = false → D.rows t = D'.rows t ∧ D.pk t = D'.pk t
  sampled : ∀ t, t.sampled = true → D.rows t = (D'.rows t).map strip

variable {D' D : Env}

/-- The rows of joined tables, stripped. -/
def stripOne (j : Join) (m : Row) : Row := if j.right.sampled then strip m else m

def stripTuple : List Join → List (Option Row) → List (Option Row)
  | j :: js, m :: ms => m.map (stripOne j) :: stripTuple js ms
  | _, _ => []

theorem stripOne_get (j : Join) {c : Str} (h : c ≠ compactCol) (m : Row) : (stripOne j m).get c = m.get c := by
  unfold stripOne
  split
  · exact get_strip h m
  · rfl

theorem strips_rows (hD : Strips D' D) (j : Join) : D.rows j.right = (D'.rows j.right).map (stripOne j) := by
  unfold stripOne
  cases h : j.right.sampled
  · simp [(hD.source _ h).1]
  · simp [hD.sampled _ h]

theorem onTrue_strip {j : Join} (h : ∀ c ∈ j.rightColumns, c ≠ compactCol) (r m : Row) :
    onTrue j r (stripOne j m) = onTrue j r m := by
  unfold onTrue
  congr 2
  exact List.map_congr_left fun e he => by rw [stripOne_get j (h _ (List.of_mem_zip he).2)]

theorem joinRow_strip (hD : Strips D' D) (outer : Bool) {j : Join} (h : ∀ c ∈ j.rightColumns, c ≠ compactCol) (r : Row) :
    joinRow D outer j r = (joinRow D' outer j r).map (Option.map (stripOne j)) := by
  unfold joinRow
  rw [strips_rows hD j, List.filter_map]
  have : (onTrue j r ∘ stripOne j) = onTrue j r := funext fun m => onTrue_strip h r m
  rw [this]
  dsimp only
  rw [List.isEmpty_map]
  split
  · rfl
  · rw [List.map_map, List.map_map]
    rfl

theorem joinTuples_strip (hD : Strips D' D) (outer : Bool) (r : Row) : ∀ {js : List Join},
    (∀ j ∈ js, ∀ c ∈ j.rightColumns, c ≠ compactCol) → joinTuples D outer r js = (joinTuples D' outer r js).map (stripTuple js)
  | [], _ => rfl
  | j :: js, h => by
    rw [joinTuples, joinTuples, joinRow_strip hD outer (h j List.mem_cons_self), List.flatMap_map, List.map_flatMap,
      joinTuples_strip hD outer r fun x hx => h x (List.mem_cons_of_mem j hx)]
    refine List.flatMap_congr fun m _ => ?_
    rw [List.map_map, List.map_map]
    rfl

theorem existsCond_strip (hD : Strips D' D) {j : Join} (h : ∀ c ∈ j.rightColumns, c ≠ compactCol) (r : Row) :
    existsCond D j r = existsCond D' j r := by
  unfold existsCond
  rw [strips_rows hD j, List.any_map]
  have : (onTrue j r ∘ stripOne j) = onTrue j r := funext fun m => onTrue_strip h r m
  rw [this]

theorem notNullConds_strip : ∀ {js : List Join} (tup : List (Option Row)),
    (∀ j ∈ js, ∀ c ∈ j.rightColumns, c ≠ compactCol) → notNullConds js (stripTuple js tup) = notNullConds js tup
  | [], tup, _ => by simp [notNullConds]
  | j :: js, [], _ => by simp [notNullConds, stripTuple]
  | j :: js, m :: ms, h => by
    rw [stripTuple, notNullConds, notNullConds, notNullConds_strip ms fun x hx => h x (List.mem_cons_of_mem j hx)]
    congr 1
    refine List.map_congr_left fun c hc => ?_
    cases m with
    | none => rfl
    | some m => simp [stripOne_get j (h j List.mem_cons_self c hc)]

theorem joinCond_strip (hD : Strips D' D) (outer : Bool) (r : Row) {hs es : List Join} (tup : List (Option Row))
    (h1 : ∀ j ∈ hs, ∀ c ∈ j.rightColumns, c ≠ compactCol) (h2 : ∀ j ∈ es, ∀ c ∈ j.rightColumns, c ≠ compactCol) :
    joinCond D outer r hs es (stripTuple hs tup) = joinCond D' outer r hs es tup := by
  have : (es.map fun j => existsCond D j r) = es.map fun j => existsCond D' j r :=
    List.map_congr_left fun j hj => existsCond_strip hD (h2 j hj) r
  unfold joinCond
  rw [this, notNullConds_strip tup h1]

theorem fromWhere_strip (hD : Strips D' D) {t : TableId} (ht : t.sampled = false) {joins : Option (List Join)} {outer : Bool}
    {c c' : Nat → Row → Bool} (hj : ∀ j ∈ joins.getD [], ∀ c ∈ j.rightColumns, c ≠ compactCol) (hc : c = c') :
    fromWhere D t joins outer c = fromWhere D' t joins outer c' := by
  subst hc
  obtain ⟨h1, h2⟩ := hD.source t ht
  cases joins with
  | none => simp only [fromWhere, h1]
  | some js =>
    cases js with
    | nil => simp only [fromWhere, h1]
    | cons j js =>
      rw [Option.getD_some] at hj
      have hu : useJoin D t = useJoin D' t := by funext x; simp [useJoin, h2]
      simp only [fromWhere, hu, h1, h2]
      have hh : ∀ x ∈ (j :: js).filter (useJoin D' t), ∀ c ∈ x.rightColumns, c ≠ compactCol :=
        fun x hx => hj x (List.mem_filter.1 hx).1
      have he : ∀ x ∈ (j :: js).filter (fun x => !useJoin D' t x), ∀ c ∈ x.rightColumns, c ≠ compactCol :=
        fun x hx => hj x (List.mem_filter.1 hx).1
      have key : ∀ p : Row × Nat,
          ((joinTuples D outer p.1 ((j :: js).filter (useJoin D' t))).filter fun tup =>
            joinCond D outer p.1 ((j :: js).filter (useJoin D' t)) ((j :: js).filter fun x => !useJoin D' t x) tup &&
              c p.2 p.1).map (fun _ => p.1) =
          ((joinTuples D' outer p.1 ((j :: js).filter (useJoin D' t))).filter fun tup =>
            joinCond D' outer p.1 ((j :: js).filter (useJoin D' t)) ((j :: js).filter fun x => !useJoin D' t x) tup &&
              c p.2 p.1).map (fun _ => p.1) := by
        intro p
        rw [joinTuples_strip hD outer p.1 hh, List.filter_map, List.map_map]
        have : ((fun tup => joinCond D outer p.1 ((j :: js).filter (useJoin D' t)) ((j :: js).filter fun x => !useJoin D' t x) tup &&
              c p.2 p.1) ∘ stripTuple ((j :: js).filter (useJoin D' t))) = fun tup =>
            joinCond D' outer p.1 ((j :: js).filter (useJoin D' t)) ((j :: js).filter fun x => !useJoin D' t x) tup &&
              c p.2 p.1 := by
          funext tup
          simp only [Function.comp]
          rw [joinCond_strip hD outer p.1 tup hh he]
        rw [this]
        rfl
      simp only [key]

variable {T : Tables}

/-- No table has the column added for compaction. -/
def NoCompactCol (T : Tables) : Prop := ∀ k m, dget T k = some m → compactCol ∉ m.columns

theorem hasCol_ne (hT : NoCompactCol T) {t : TableId} {c : Str} (h : HasCol T t c) : c ≠ compactCol := by
  obtain ⟨m, h1, h2⟩ := h
  rintro rfl
  exact hT _ m h1 h2

mutual
theorem where_strip (E : Engine) (hD : Strips D' D) (hT : NoCompactCol T) (t t' : TableId) (i : Nat) (r : Row) :
    ∀ w : Where, WherePlain T t' w → Where.eval E D t i r w = Where.eval E D' t i r w
  | .false_, _ => by simp only [Where.eval]
  | .true_, _ => by simp only [Where.eval]
  | .op _ _ _, _ => by simp only [Where.eval]
  | .inVals _ _ _, _ => by simp only [Where.eval]
  | .random _ _, _ => by simp only [Where.eval]
  | .sql _, _ => by simp only [Where.eval]
  | .inStmt cs st neg, h => by
    rw [WherePlain] at h
    simp only [Where.eval]
    rw [stmt_strip E hD hT st h.2]
  | .and cs, h => by
    rw [WherePlain] at h
    simp only [Where.eval]
    rw [wheres_strip E hD hT t t' i r cs h]
  | .or cs, h => by
    rw [WherePlain] at h
    simp only [Where.eval]
    rw [wheres_strip E hD hT t t' i r cs h]

theorem wheres_strip (E : Engine) (hD : Strips D' D) (hT : NoCompactCol T) (t t' : TableId) (i : Nat) (r : Row) :
    ∀ ws : List Where, WheresPlain T t' ws → Where.evals E D t i r ws = Where.evals E D' t i r ws
  | [], _ => by simp only [Where.evals]
  | w :: ws, h => by
    rw [WheresPlain] at h
    simp only [Where.evals]
    rw [where_strip E hD hT t t' i r w h.1, wheres_strip E hD hT t t' i r ws h.2]

theorem sel_strip (E : Engine) (hD : Strips D' D) (hT : NoCompactCol T) : ∀ x : Sel, SelPlain T x → Sel.eval E D x = Sel.eval E D' x
  | .mk cols t none limit joins outer tag, h => by
    rw [SelPlain] at h
    simp only [Sel.eval]
    rw [fromWhere_strip hD h.1 (fun j hj c hc => hasCol_ne hT ((h.2.2 j hj).2 c hc)) rfl]
  | .mk cols t (some w) limit joins outer tag, h => by
    rw [SelPlain] at h
    simp only [Sel.eval]
    rw [fromWhere_strip hD h.1 (fun j hj c hc => hasCol_ne hT ((h.2.2.1 j hj).2 c hc))
      (funext fun i => funext fun r => by rw [where_strip E hD hT t t i r w h.2.2.2])]

theorem sels_strip (E : Engine) (hD : Strips D' D) (hT : NoCompactCol T) : ∀ xs : List Sel, SelsPlain T xs →
    Sel.evals E D xs = Sel.evals E D' xs
  | [], _ => by simp only [Sel.evals]
  | x :: xs, h => by
    rw [SelsPlain] at h
    simp only [Sel.evals]
    rw [sel_strip E hD hT x h.1, sels_strip E hD hT xs h.2]

theorem stmt_strip (E : Engine) (hD : Strips D' D) (hT : NoCompactCol T) : ∀ x : Stmt, StmtPlain T x →
    Stmt.eval E D x = Stmt.eval E D' x
  | .select x, h => by
    rw [StmtPlain] at h
    simp only [Stmt.eval]
    exact sel_strip E hD hT x h
  | .union xs, h => by
    rw [StmtPlain] at h
    simp only [Stmt.eval]
    rw [sels_strip E hD hT xs h]
end

end Subsetter
