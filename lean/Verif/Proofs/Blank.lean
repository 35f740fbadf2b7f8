import Verif.Proofs.PyDict
import Verif.Model.Compact
import Verif.Spec.Anonymity
import Mathlib.Data.List.Dedup

/- Statements on rows with some columns blanked. -/
namespace Subsetter
open Spec

/-- The row with the columns `h` set to NULL. -/
def blank (h : List Str) (r : Row) : Row := r.map fun e => if e.1 ∈ h then (e.1, .null) else e

theorem dget_blank {h : List Str} {c : Str} (hc : c ∉ h) : ∀ r : Row, dget (blank h r) c = dget r c
  | [] => rfl
  | (k, v) :: r => by
    have ih := dget_blank hc r
    unfold blank at ih ⊢
    rw [List.map_cons]
    by_cases hk : k ∈ h
    · rw [if_pos hk]
      simp only [dget]
      have hne : k ≠ c := fun e => hc (e ▸ hk)
      rw [if_neg hne, if_neg hne, ih]
    · rw [if_neg hk]
      simp only [dget]
      rw [ih]

theorem get_blank {h : List Str} {c : Str} (hc : c ∉ h) (r : Row) : (blank h r).get c = r.get c := by
  unfold Row.get
  rw [dget_blank hc]

theorem map_get_blank {h cs : List Str} (hc : ∀ c ∈ cs, c ∉ h) (r : Row) : cs.map (blank h r).get = cs.map r.get :=
  List.map_congr_left fun c hm => get_blank (hc c hm) r

theorem blank_blank (h : List Str) (r : Row) : blank h (blank h r) = blank h r := by
  unfold blank
  rw [List.map_map]
  refine List.map_congr_left fun e _ => ?_
  simp only [Function.comp]
  by_cases he : e.1 ∈ h <;> simp [he]

theorem blank_nil (r : Row) : blank [] r = r := by
  unfold blank
  simp

/-- Rows are the same up to hidden columns if they are the same when blanked. -/
theorem sameShown_iff {h : List Str} : ∀ {r r' : Row}, SameShown h r r' ↔ blank h r = blank h r'
  | [], [] => by simp [SameShown, blank]
  | [], _ :: _ => by simp [SameShown, blank]
  | _ :: _, [] => by simp [SameShown, blank]
  | e :: r, e' :: r' => by
    have ih := sameShown_iff (h := h) (r := r) (r' := r')
    unfold SameShown blank at ih ⊢
    rw [List.forall₂_cons, ih, List.map_cons, List.map_cons, List.cons.injEq]
    refine and_congr_left fun _ => ?_
    obtain ⟨k, v⟩ := e
    obtain ⟨k', v'⟩ := e'
    dsimp only
    by_cases hk : k ∈ h
    · rw [if_pos hk]
      by_cases hk' : k' ∈ h
      · rw [if_pos hk']
        simp [hk]
      · rw [if_neg hk', Prod.mk.injEq]
        exact ⟨fun a => absurd (a.1 ▸ hk) hk', fun a => absurd (a.1 ▸ hk) hk'⟩
    · rw [if_neg hk]
      by_cases hk' : k' ∈ h
      · rw [if_pos hk', Prod.mk.injEq]
        exact ⟨fun a => absurd (a.1 ▸ hk') hk, fun a => absurd (a.1 ▸ hk') hk⟩
      · rw [if_neg hk', Prod.mk.injEq]
        simp [hk]

theorem forall₂_sameShown {h : List Str} : ∀ {l l' : List Row},
    List.Forall₂ (SameShown h) l l' ↔ l.map (blank h) = l'.map (blank h)
  | [], [] => by simp
  | [], _ :: _ => by simp
  | _ :: _, [] => by simp
  | _ :: _, _ :: _ => by
    rw [List.forall₂_cons, sameShown_iff, forall₂_sameShown, List.map_cons, List.map_cons, List.cons.injEq]

theorem sameShown_blank (h : List Str) (r : Row) : SameShown h r (blank h r) :=
  sameShown_iff.2 (blank_blank h r).symm

theorem map_blank_blank (h : List Str) (l : List Row) : (l.map (blank h)).map (blank h) = l.map (blank h) := by
  rw [List.map_map]
  exact List.map_congr_left fun r _ => blank_blank h r

/-- Random order does not depend on hidden values. -/
theorem shuffle_blank {E : Engine} {cfg : PlannerConfig} {hid : Key → List Str} (hE : Blind E cfg hid) (t : TableId)
    (g : Nat) (l : List Row) : E.shuffle t g (l.map (blank (hid t.key))) = (E.shuffle t g l).map (blank (hid t.key)) := by
  have h1 := forall₂_sameShown.1 (hE.shuffle t g l (l.map (blank (hid t.key)))
    (forall₂_sameShown.2 (map_blank_blank _ _).symm))
  rw [h1]
  symm
  have h2 : ∀ r ∈ E.shuffle t g (l.map (blank (hid t.key))), blank (hid t.key) r = r := by
    intro r hr
    obtain ⟨r0, -, rfl⟩ := List.mem_map.1 ((E.shuffle_perm t g _).mem_iff.1 hr)
    exact blank_blank _ _
  exact (List.map_congr_left h2).trans (List.map_id _)

mutual
/-- Conditions without subqueries that do not read the columns `h`. -/
def WBlind (E : Engine) (t : TableId) (h : List Str) : Where → Prop
  | .op _ c _ => c ∉ h
  | .inVals cs _ _ => ∀ c ∈ cs, c ∉ h
  | .inStmt _ _ _ => False
  | .and cs => WBlinds E t h cs
  | .or cs => WBlinds E t h cs
  | .sql s => ∀ r, E.sql s t (blank h r) = E.sql s t r
  | _ => True
def WBlinds (E : Engine) (t : TableId) (h : List Str) : List Where → Prop
  | [] => True
  | c :: cs => WBlind E t h c ∧ WBlinds E t h cs
end

variable {E : Engine} {t : TableId} {h : List Str} {V V' : Env}

theorem wblinds_iff : ∀ {cs : List Where}, WBlinds E t h cs ↔ ∀ c ∈ cs, WBlind E t h c
  | [] => by simp [WBlinds]
  | c :: cs => by rw [WBlinds, wblinds_iff]; simp

mutual
theorem wblind_eval (i : Nat) (r : Row) : ∀ {w : Where}, WBlind E t h w →
    Where.eval E V' t i (blank h r) w = Where.eval E V t i r w
  | .op _ _ _, hw => by simp only [Where.eval]; rw [get_blank hw]
  | .inVals _ _ _, hw => by simp only [Where.eval]; rw [map_get_blank hw]
  | .inStmt _ _ _, hw => hw.elim
  | .and _, hw => by simp only [Where.eval]; rw [wblinds_eval i r hw]
  | .or _, hw => by simp only [Where.eval]; rw [wblinds_eval i r hw]
  | .random _ _, _ => by simp only [Where.eval]
  | .sql _, hw => by simp only [Where.eval]; exact hw r
  | .true_, _ => by simp only [Where.eval]
  | .false_, _ => by simp only [Where.eval]
theorem wblinds_eval (i : Nat) (r : Row) : ∀ {cs : List Where}, WBlinds E t h cs →
    Where.evals E V' t i (blank h r) cs = Where.evals E V t i r cs
  | [], _ => by simp only [Where.evals]
  | _ :: _, hw => by simp only [Where.evals]; rw [wblind_eval i r hw.1, wblinds_eval i r hw.2]
end

/-- `V'` shows the tables of `V` with the columns `hid` blanked. -/
structure Blanked (hid : Key → List Str) (V V' : Env) : Prop where
  rows : ∀ t, V'.rows t = (V.rows t).map (blank (hid t.key))
  pk : ∀ t, V'.pk t = V.pk t

/-- The join does not read hidden columns. -/
def JBlind (hid : Key → List Str) (k : Key) (j : Join) : Prop :=
  (∀ c ∈ j.leftColumns, c ∉ hid k) ∧ ∀ c ∈ j.rightColumns, c ∉ hid j.right.key

variable {hid : Key → List Str} {k : Key}

theorem onTrue_blank {j : Join} (hj : JBlind hid k j) (r m : Row) :
    onTrue j (blank (hid k) r) (blank (hid j.right.key) m) = onTrue j r m := by
  unfold onTrue
  congr 2
  refine List.map_congr_left fun p hp => ?_
  rw [get_blank (hj.1 _ (List.of_mem_zip hp).1), get_blank (hj.2 _ (List.of_mem_zip hp).2)]

theorem joinRow_blank (hV : Blanked hid V V') {outer : Bool} {j : Join} (hj : JBlind hid k j) (r : Row) :
    joinRow V' outer j (blank (hid k) r) = (joinRow V outer j r).map (Option.map (blank (hid j.right.key))) := by
  have h1 : (V'.rows j.right).filter (onTrue j (blank (hid k) r)) =
      ((V.rows j.right).filter (onTrue j r)).map (blank (hid j.right.key)) := by
    rw [hV.rows, List.filter_map]
    congr 1
    exact List.filter_congr fun m _ => onTrue_blank hj r m
  unfold joinRow
  simp only [h1, List.isEmpty_map]
  split
  · rfl
  · simp [List.map_map, Function.comp_def]

/-- Blanking of joined rows. -/
def blankTuple (hid : Key → List Str) : List Join → List (Option Row) → List (Option Row)
  | j :: js, m :: ms => m.map (blank (hid j.right.key)) :: blankTuple hid js ms
  | _, _ => []

theorem joinTuples_blank (hV : Blanked hid V V') {outer : Bool} (r : Row) : ∀ {js : List Join}, (∀ j ∈ js, JBlind hid k j) →
    joinTuples V' outer (blank (hid k) r) js = (joinTuples V outer r js).map (blankTuple hid js)
  | [], _ => rfl
  | j :: js, h => by
    have ih := joinTuples_blank hV (outer := outer) r (js := js) fun j hj => h j (.tail _ hj)
    simp only [joinTuples]
    rw [joinRow_blank hV (h j (.head _)), List.flatMap_map, ih, List.map_flatMap]
    refine congrArg (fun f => List.flatMap f _) (funext fun m => ?_)
    rw [List.map_map, List.map_map]
    rfl

theorem existsCond_blank (hV : Blanked hid V V') {j : Join} (hj : JBlind hid k j) (r : Row) :
    existsCond V' j (blank (hid k) r) = existsCond V j r := by
  unfold existsCond
  rw [hV.rows, List.any_map]
  refine congrArg (fun f => List.any _ f) (funext fun m => onTrue_blank hj r m)

theorem notNull_blank : ∀ {js : List Join}, (∀ j ∈ js, JBlind hid k j) → ∀ ms : List (Option Row),
    notNullConds js (blankTuple hid js ms) = notNullConds js ms
  | [], _, ms => by cases ms <;> rfl
  | _ :: _, _, [] => rfl
  | j :: js, h, m :: ms => by
    simp only [blankTuple, notNullConds]
    rw [notNull_blank (js := js) (fun j hj => h j (.tail _ hj))]
    congr 1
    refine List.map_congr_left fun c hc => ?_
    cases m with
    | none => rfl
    | some m => simp only [Option.map_some]; rw [get_blank ((h j (.head _)).2 c hc)]

theorem joinCond_blank (hV : Blanked hid V V') {outer : Bool} (r : Row) {hs es : List Join} (h1 : ∀ j ∈ hs, JBlind hid k j)
    (h2 : ∀ j ∈ es, JBlind hid k j) (ms : List (Option Row)) :
    joinCond V' outer (blank (hid k) r) hs es (blankTuple hid hs ms) = joinCond V outer r hs es ms := by
  have h3 : (es.map fun j => existsCond V' j (blank (hid k) r)) = es.map fun j => existsCond V j r :=
    List.map_congr_left fun j hj => existsCond_blank hV (h2 j hj) r
  unfold joinCond
  rw [h3, notNull_blank h1]

theorem groupBy_blank {f : Row → Row} {key : Row → List Val} (hf : ∀ r, key (f r) = key r) : ∀ (l : List Row) seen,
    groupBy key (l.map f) seen = (groupBy key l seen).map f
  | [], _ => rfl
  | r :: l, seen => by
    simp only [List.map_cons, groupBy, hf]
    split
    · exact groupBy_blank hf l seen
    · rw [groupBy_blank hf l]; rfl

theorem plainRows_blank (hV : Blanked hid V V') {t : TableId} {cond cond' : Nat → Row → Bool}
    (hc : ∀ i r, cond' i (blank (hid t.key) r) = cond i r) :
    ((V'.rows t).zipIdx.filter fun p => cond' p.2 p.1).map Prod.fst =
      (((V.rows t).zipIdx.filter fun p => cond p.2 p.1).map Prod.fst).map (blank (hid t.key)) := by
  rw [hV.rows, List.zipIdx_map, List.filter_map, List.map_map, List.map_map]
  have : (V.rows t).zipIdx.filter ((fun p : Row × Nat => cond' p.2 p.1) ∘ Prod.map (blank (hid t.key)) id) =
      (V.rows t).zipIdx.filter fun p => cond p.2 p.1 := List.filter_congr fun p _ => hc p.2 p.1
  rw [this]
  rfl

theorem fromWhere_blank (hV : Blanked hid V V') {t : TableId} {joins : Option (List Join)} {outer : Bool}
    {cond cond' : Nat → Row → Bool} (hc : ∀ i r, cond' i (blank (hid t.key) r) = cond i r)
    (hj : ∀ j ∈ joins.getD [], JBlind hid t.key j) (hpk : ∀ c ∈ V.pk t, c ∉ hid t.key) :
    fromWhere V' t joins outer cond' = (fromWhere V t joins outer cond).map (blank (hid t.key)) := by
  unfold fromWhere
  rcases joins with _ | _ | ⟨j, js⟩
  · exact plainRows_blank hV hc
  · exact plainRows_blank hV hc
  · have hu : useJoin V' t = useJoin V t := by
      funext x
      unfold useJoin
      rw [hV.pk]
    dsimp only
    rw [hu, hV.pk]
    have hj' : ∀ x ∈ j :: js, JBlind hid t.key x := hj
    generalize he1 : (j :: js).filter (useJoin V t) = hs
    generalize he2 : ((j :: js).filter fun x => !useJoin V t x) = es
    have h1 : ∀ x ∈ hs, JBlind hid t.key x := fun x hx => hj' x (by rw [← he1] at hx; exact (List.mem_filter.1 hx).1)
    have h2 : ∀ x ∈ es, JBlind hid t.key x := fun x hx => hj' x (by rw [← he2] at hx; exact (List.mem_filter.1 hx).1)
    have htup : ((V'.rows t).zipIdx.flatMap fun p => ((joinTuples V' outer p.1 hs).filter fun tup =>
          joinCond V' outer p.1 hs es tup && cond' p.2 p.1).map fun _ => p.1) =
        ((V.rows t).zipIdx.flatMap fun p => ((joinTuples V outer p.1 hs).filter fun tup =>
          joinCond V outer p.1 hs es tup && cond p.2 p.1).map fun _ => p.1).map (blank (hid t.key)) := by
      rw [hV.rows, List.zipIdx_map, List.flatMap_map, List.map_flatMap]
      refine congrArg (fun f => List.flatMap f _) (funext fun p => ?_)
      simp only [Prod.map]
      rw [joinTuples_blank hV p.1 h1, List.filter_map, List.map_map, List.map_map]
      have : (joinTuples V outer p.1 hs).filter ((fun tup => joinCond V' outer (blank (hid t.key) p.1) hs es tup &&
          cond' (id p.2) (blank (hid t.key) p.1)) ∘ blankTuple hid hs) =
          (joinTuples V outer p.1 hs).filter fun tup => joinCond V outer p.1 hs es tup && cond p.2 p.1 := by
        refine List.filter_congr fun tup _ => ?_
        simp only [Function.comp, id]
        rw [joinCond_blank hV p.1 h1 h2, hc]
      rw [this]
      rfl
    rw [htup]
    split
    · rfl
    · exact groupBy_blank (fun r => map_get_blank hpk r) _ _

/-- Selects of rows of `k` whose joins satisfy `J` and whose condition satisfies `P`. -/
structure SelOf (k : Key) (J : Join → Prop) (P : Where → Prop) (x : Sel) : Prop where
  cols : x.columns = none
  from_ : x.from_ = ⟨k.1, k.2, false⟩
  joins : ∀ j ∈ x.joins.getD [], J j
  cond : ∀ w, x.where_ = some w → P w

/-- Statements made of such selects. -/
def StmtOf (k : Key) (J : Join → Prop) (P : Where → Prop) : Stmt → Prop
  | .select x => SelOf k J P x
  | .union xs => ∀ x ∈ xs, SelOf k J P x

theorem selOf_blank {cfg : PlannerConfig} (hE : Blind E cfg hid) (hV : Blanked hid V V')
    (hpk : ∀ c ∈ V.pk ⟨k.1, k.2, false⟩, c ∉ hid k) {x : Sel}
    (hx : SelOf k (JBlind hid k) (WBlind E ⟨k.1, k.2, false⟩ (hid k)) x) :
    Sel.eval E V' x = (Sel.eval E V x).map (blank (hid k)) := by
  obtain ⟨cols, t, w, limit, joins, outer, tag⟩ := x
  obtain ⟨h1, h2, h3, h4⟩ := hx
  simp only [Sel.columns, Sel.from_, Sel.joins, Sel.where_] at h1 h2 h3 h4
  subst h1 h2
  have hproj : ∀ l : List Row, l.map (project none) = l := fun l => List.map_id l
  have key : ∀ cond cond' : Nat → Row → Bool, (∀ i r, cond' i (blank (hid k) r) = cond i r) →
      applyLimit E ⟨k.1, k.2, false⟩ tag limit (fromWhere V' ⟨k.1, k.2, false⟩ joins outer cond') =
      (applyLimit E ⟨k.1, k.2, false⟩ tag limit (fromWhere V ⟨k.1, k.2, false⟩ joins outer cond)).map (blank (hid k)) := by
    intro cond cond' hc
    rw [fromWhere_blank hV (t := ⟨k.1, k.2, false⟩) (joins := joins) (outer := outer) (cond := cond) (cond' := cond') hc h3 hpk]
    unfold applyLimit
    cases limit with
    | none => rfl
    | some n =>
      dsimp only
      have := shuffle_blank hE ⟨k.1, k.2, false⟩ tag (fromWhere V ⟨k.1, k.2, false⟩ joins outer cond)
      rw [this, List.map_take]
      rfl
  cases w with
  | none =>
    simp only [Sel.eval, hproj]
    exact key _ _ fun _ _ => rfl
  | some w =>
    simp only [Sel.eval, hproj]
    exact key _ _ fun i r => by rw [wblind_eval i r (h4 w rfl)]

theorem fromWhere_sub {t : TableId} {joins : Option (List Join)} {outer : Bool} {cond : Nat → Row → Bool} {r : Row}
    (h : r ∈ fromWhere V t joins outer cond) : r ∈ V.rows t := by
  have hg : ∀ (key : Row → List Val) (l : List Row) seen, ∀ r ∈ groupBy key l seen, r ∈ l := by
    intro key l
    induction l with
    | nil => intro _ r h; cases h
    | cons a l ih =>
      intro seen r h
      simp only [groupBy] at h
      split at h
      · exact .tail _ (ih _ r h)
      · rcases List.mem_cons.1 h with rfl | h
        · exact .head _
        · exact .tail _ (ih _ r h)
  have hm : ∀ p ∈ (V.rows t).zipIdx, p.1 ∈ V.rows t := by
    intro p hp
    have := List.mem_map_of_mem (f := Prod.fst) hp
    rwa [List.zipIdx_map_fst] at this
  unfold fromWhere at h
  rcases joins with _ | _ | ⟨j, js⟩
  · obtain ⟨p, hp, rfl⟩ := List.mem_map.1 h
    exact hm p (List.mem_filter.1 hp).1
  · obtain ⟨p, hp, rfl⟩ := List.mem_map.1 h
    exact hm p (List.mem_filter.1 hp).1
  · dsimp only at h
    have h' : r ∈ (V.rows t).zipIdx.flatMap fun p =>
        ((joinTuples V outer p.1 ((j :: js).filter (useJoin V t))).filter fun tup =>
          joinCond V outer p.1 ((j :: js).filter (useJoin V t)) ((j :: js).filter fun x => !useJoin V t x) tup && cond p.2 p.1).map fun _ => p.1 := by
      split at h
      · exact h
      · exact hg _ _ _ r h
    obtain ⟨p, hp, h'⟩ := List.mem_flatMap.1 h'
    obtain ⟨-, -, rfl⟩ := List.mem_map.1 h'
    exact hm p hp

theorem selOf_sub {J : Join → Prop} {P : Where → Prop} {x : Sel} (hx : SelOf k J P x) {r : Row} (h : r ∈ Sel.eval E V x) :
    r ∈ V.rows ⟨k.1, k.2, false⟩ := by
  obtain ⟨cols, t, w, limit, joins, outer, tag⟩ := x
  obtain ⟨h1, h2, -, -⟩ := hx
  simp only [Sel.columns, Sel.from_] at h1 h2
  subst h1 h2
  have hproj : ∀ l : List Row, l.map (project none) = l := fun l => List.map_id l
  have key : ∀ l : List Row, r ∈ applyLimit E ⟨k.1, k.2, false⟩ tag limit l → r ∈ l := by
    intro l h
    unfold applyLimit at h
    cases limit with
    | none => exact h
    | some n => exact (E.shuffle_perm _ _ _).mem_iff.1 (List.mem_of_mem_take h)
  cases w with
  | none =>
    simp only [Sel.eval, hproj] at h
    exact fromWhere_sub (key _ h)
  | some w =>
    simp only [Sel.eval, hproj] at h
    exact fromWhere_sub (key _ h)

theorem dedup_map_on {f : Row → Row} : ∀ {l : List Row}, (∀ a ∈ l, ∀ b ∈ l, f a = f b → a = b) → (l.map f).dedup = l.dedup.map f
  | [], _ => by simp
  | a :: l, h => by
    have ih := dedup_map_on (l := l) fun x hx y hy => h x (.tail _ hx) y (.tail _ hy)
    rw [List.map_cons]
    by_cases ha : a ∈ l
    · rw [List.dedup_cons_of_mem (List.mem_map_of_mem ha), List.dedup_cons_of_mem ha, ih]
    · have : f a ∉ l.map f := by
        intro hm
        obtain ⟨b, hb, e⟩ := List.mem_map.1 hm
        exact ha (h b (.tail _ hb) a (.head _) e ▸ hb)
      rw [List.dedup_cons_of_notMem this, List.dedup_cons_of_notMem ha, ih, List.map_cons]

theorem stmtOf_blank {cfg : PlannerConfig} (hE : Blind E cfg hid) (hV : Blanked hid V V')
    (hpk : ∀ c ∈ V.pk ⟨k.1, k.2, false⟩, c ∉ hid k)
    (hinj : ∀ a ∈ V.rows ⟨k.1, k.2, false⟩, ∀ b ∈ V.rows ⟨k.1, k.2, false⟩, blank (hid k) a = blank (hid k) b → a = b) {st : Stmt}
    (hst : StmtOf k (JBlind hid k) (WBlind E ⟨k.1, k.2, false⟩ (hid k)) st) :
    Stmt.eval E V' st = (Stmt.eval E V st).map (blank (hid k)) := by
  cases st with
  | select x => simp only [Stmt.eval]; exact selOf_blank hE hV hpk hst
  | union xs =>
    have h1 : ∀ {xs : List Sel}, (∀ x ∈ xs, SelOf k (JBlind hid k) (WBlind E ⟨k.1, k.2, false⟩ (hid k)) x) →
        Sel.evals E V' xs = (Sel.evals E V xs).map (List.map (blank (hid k))) ∧
        ∀ r ∈ (Sel.evals E V xs).flatten, r ∈ V.rows ⟨k.1, k.2, false⟩ := by
      intro xs
      induction xs with
      | nil => intro _; simp [Sel.evals]
      | cons x xs ih =>
        intro h
        obtain ⟨i1, i2⟩ := ih fun y hy => h y (.tail _ hy)
        simp only [Sel.evals]
        refine ⟨by rw [selOf_blank hE hV hpk (h x (.head _)), i1]; rfl, fun r hr => ?_⟩
        rw [List.flatten_cons] at hr
        rcases List.mem_append.1 hr with hr | hr
        · exact selOf_sub (h x (.head _)) hr
        · exact i2 r hr
    obtain ⟨h2, h3⟩ := h1 hst
    simp only [Stmt.eval]
    rw [h2, ← List.map_flatten]
    exact dedup_map_on fun a ha b hb => hinj a (h3 a ha) b (h3 b hb)

end Subsetter
