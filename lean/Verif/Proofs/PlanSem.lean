import Verif.Proofs.PlanLoop
import Verif.Proofs.Exec

/- The sample described by a plan, table by table. -/
set_option linter.unusedSimpArgs false
set_option linter.unusedSectionVars false
namespace Subsetter
open Spec

theorem refers_swap {a b : List Str} {r m : Row} : Refers a b r m ↔ Refers b a m r := by
  have key : ∀ {a b : List Str} {r m : Row}, Refers a b r m → Refers b a m r := by
    intro a b r m h p hp
    have hp' : (p.2, p.1) ∈ a.zip b := by
      obtain ⟨i, hi, rfl⟩ := List.mem_iff_getElem.1 hp
      simp only [List.length_zip] at hi
      refine List.mem_iff_getElem.2 ⟨i, by simp only [List.length_zip]; omega, ?_⟩
      simp only [List.getElem_zip]
    obtain ⟨h1, h2⟩ := h _ hp'
    exact ⟨h2 ▸ h1, h2.symm⟩
  exact ⟨key, key⟩

theorem sampleEnv_false (T : Tables) (src S : Key → List Row) (k : Key) :
    (sampleEnv T src S).rows (k.id false) = src k := rfl
theorem sampleEnv_true (T : Tables) (src S : Key → List Row) (k : Key) :
    (sampleEnv T src S).rows (k.id true) = S k := rfl

theorem passthroughQuery_eval (E : Engine) (T : Tables) (src S : Key → List Row) (k : Key) :
    (passthroughQuery k).eval E (sampleEnv T src S) = src k := by
  simp only [passthroughQuery, TableQuery.eval, Stmt.eval]
  rw [sel_eval_eq]
  simp only [Sel.from_mk, Sel.tag_mk, Sel.limit_mk, Sel.joins_mk, Sel.joinsOuter_mk,
    Sel.columns_mk]
  rw [fromWhere_joinFree (.inl rfl)]
  have hp : (project none) = id := by funext r; rfl
  simp only [applyLimit, hp, List.map_id]
  have : (fun (p : Row × Nat) => (Sel.mk none (k.id false) none none none false 0).cond E
      (sampleEnv T src S) p.2 p.1) = fun _ => true := by
    funext p; rfl
  rw [this, List.filter_true]
  simp only [List.zipIdx_map_fst]
  rfl

/-- Backward rows: some already planned table has a key to `k` and a sampled row referring to
`r`. -/
def RelatedBack (T : Tables) (S : Key → List Row) (pre : List Key) (k : Key) (r : Row) : Prop :=
  ∃ a ∈ pre, ∃ fk, HasFk T a fk k ∧ ∃ c ∈ S a, Refers fk.columns fk.dstColumns c r

/-- Forward rows: for every key to an already planned table, `r` refers to a sampled row. -/
def RelatedFwd (T : Tables) (S : Key → List Row) (pre : List Key) (k : Key) (r : Row) : Prop :=
  ∀ fk b, HasFk T k fk b → b ∈ pre → ∃ m ∈ S b, Refers fk.columns fk.dstColumns r m

namespace PlanShape
variable {cfg : PlannerConfig} {ign pass : List Key} {T T' : Tables} {found ord : List Key} {p : Plan}
  (hT : TablesOK T) (hp : PlanShape cfg ign pass T T' found ord p)
include hT hp

theorem getT' {k : Key} {t : TableMeta} (h : dget T' k = some t) :
    ∃ t₀, (k, t₀) ∈ T ∧ t = { t₀ with revForeignKeys := revOf T k } := by
  rw [hp.rev_eq, addRev_get, Option.map_eq_some_iff] at h
  obtain ⟨t₀, h1, rfl⟩ := h
  have h2 := hT.get.1 h1
  refine ⟨t₀, h2, ?_⟩
  rw [hT.no_rev k t₀ h2]; rfl

theorem isSomeT' {k : Key} : (dget T' k).isSome = (dget T k).isSome := by
  rw [hp.rev_eq, addRev_get]; simp

theorem key_eq' {k : Key} {t : TableMeta} (h : dget T' k = some t) : t.key = k := by
  obtain ⟨t₀, h1, rfl⟩ := hp.getT' hT h
  exact hT.key_eq k t₀ h1

theorem mem_fksTo {k : Key} {t : TableMeta} (h : dget T' k = some t) {processed : List Key}
    {fk : ForeignKey} : fk ∈ fksTo t processed ↔ HasFk T k fk fk.dst ∧ fk.dst ∈ processed := by
  obtain ⟨t₀, h1, rfl⟩ := hp.getT' hT h
  unfold fksTo
  simp only [List.mem_filter, decide_eq_true_eq]
  constructor
  · rintro ⟨h2, h3⟩; exact ⟨⟨t₀, h1, h2, rfl⟩, h3⟩
  · rintro ⟨⟨t₁, h2, h3, -⟩, h4⟩
    have := hT.get.2 h2
    rw [hT.get.2 h1] at this
    cases this
    exact ⟨h3, h4⟩

theorem mem_revsTo {k : Key} {t : TableMeta} (h : dget T' k = some t) {processed : List Key}
    {rfk : ForeignKey} : rfk ∈ revsTo t processed ↔
      ∃ a fk, HasFk T a fk k ∧ rfk = ⟨fk.dstColumns, a.1, a.2, fk.columns⟩ ∧ a ∈ processed := by
  obtain ⟨t₀, h1, rfl⟩ := hp.getT' hT h
  unfold revsTo
  simp only [List.mem_filter, decide_eq_true_eq, mem_revOf hT]
  constructor
  · rintro ⟨⟨a, fk, h2, rfl⟩, h3⟩; exact ⟨a, fk, h2, rfl, h3⟩
  · rintro ⟨a, fk, h2, rfl, h3⟩; exact ⟨⟨a, fk, h2, rfl⟩, h3⟩

theorem mem_ord {pre post : List Key} {k : Key} (he : ord = pre ++ k :: post) : k ∈ ord := by
  rw [he]; simp

theorem mem_pre {pre post : List Key} {k v : Key} (he : ord = pre ++ k :: post) (hv : v ∈ pre) :
    v ∈ ord := by
  rw [he]; simp [hv]

/-- Whether there are forward keys. -/
theorem fksTo_ne {pre post : List Key} {k : Key} {t : TableMeta} (he : ord = pre ++ k :: post)
    (h : dget T' k = some t) : fksTo t (pre ++ [k]) ≠ [] ↔ ∃ v ∈ pre, Ref T k v := by
  constructor
  · intro hne
    obtain ⟨fk, hfk⟩ := List.exists_mem_of_ne_nil _ hne
    obtain ⟨h1, h2⟩ := (hp.mem_fksTo hT h).1 hfk
    rcases List.mem_append.1 h2 with h2 | h2
    · exact ⟨_, h2, fk, h1⟩
    · simp only [List.mem_singleton] at h2
      rw [h2] at h1
      exact absurd ⟨fk, h1⟩ (hp.order.noself k (hp.mem_ord hT he))
  · rintro ⟨v, hv, fk, h1⟩
    have hd : fk.dst = v := by obtain ⟨_, _, _, h⟩ := h1; exact h
    refine List.ne_nil_of_mem (a := fk) ((hp.mem_fksTo hT h).2 ⟨hd ▸ h1, ?_⟩)
    rw [hd]; simp [hv]

/-- Whether there are backward keys. -/
theorem revsTo_ne {pre post : List Key} {k : Key} {t : TableMeta} (he : ord = pre ++ k :: post)
    (h : dget T' k = some t) : revsTo t (pre ++ [k]) ≠ [] ↔ ∃ v ∈ pre, Ref T v k := by
  constructor
  · intro hne
    obtain ⟨rfk, hfk⟩ := List.exists_mem_of_ne_nil _ hne
    obtain ⟨a, fk, h1, -, h2⟩ := (hp.mem_revsTo hT h).1 hfk
    rcases List.mem_append.1 h2 with h2 | h2
    · exact ⟨a, h2, fk, h1⟩
    · simp only [List.mem_singleton] at h2
      subst h2
      exact absurd ⟨fk, h1⟩ (hp.order.noself a (hp.mem_ord hT he))
  · rintro ⟨v, hv, fk, h1⟩
    exact List.ne_nil_of_mem ((hp.mem_revsTo hT h).2 ⟨v, fk, h1, rfl, by simp [hv]⟩)

theorem joinedBy_fwd {pre post : List Key} {k : Key} {t : TableMeta} (he : ord = pre ++ k :: post)
    (h : dget T' k = some t) {Ts : Tables} {src S : Key → List Row} {r : Row} :
    JoinedBy (sampleEnv Ts src S) (fksTo t (pre ++ [k])) false r ↔ RelatedFwd T S pre k r := by
  unfold JoinedBy RelatedFwd
  simp only [Bool.false_eq_true, if_false, sampleEnv_true]
  constructor
  · intro hj fk b h1 hb
    have hd : fk.dst = b := by obtain ⟨_, _, _, h⟩ := h1; exact h
    subst hd
    exact hj fk ((hp.mem_fksTo hT h).2 ⟨h1, by simp [hb]⟩)
  · intro hf fk hfk
    obtain ⟨h1, h2⟩ := (hp.mem_fksTo hT h).1 hfk
    rcases List.mem_append.1 h2 with h2 | h2
    · exact hf fk _ h1 h2
    · simp only [List.mem_singleton] at h2
      rw [h2] at h1
      exact absurd ⟨fk, h1⟩ (hp.order.noself k (hp.mem_ord hT he))

theorem joinedBy_back {pre post : List Key} {k : Key} {t : TableMeta} (he : ord = pre ++ k :: post)
    (h : dget T' k = some t) {Ts : Tables} {src S : Key → List Row} {r : Row} :
    JoinedBy (sampleEnv Ts src S) (revsTo t (pre ++ [k])) true r ↔ RelatedBack T S pre k r := by
  unfold JoinedBy RelatedBack
  simp only [if_true]
  constructor
  · rintro ⟨rfk, h1, m, h2, h3⟩
    obtain ⟨a, fk, h4, rfl, h5⟩ := (hp.mem_revsTo hT h).1 h1
    rcases List.mem_append.1 h5 with h5 | h5
    · exact ⟨a, h5, fk, h4, m, h2, refers_swap.1 h3⟩
    · simp only [List.mem_singleton] at h5
      subst h5
      exact absurd ⟨fk, h4⟩ (hp.order.noself a (hp.mem_ord hT he))
  · rintro ⟨a, ha, fk, h4, c, hc, h3⟩
    exact ⟨_, (hp.mem_revsTo hT h).2 ⟨a, fk, h4, rfl, by simp [ha]⟩, c, hc, refers_swap.1 h3⟩

theorem fksTo_cols {k : Key} {t : TableMeta} (h : dget T' k = some t) {processed : List Key} :
    ∀ fk ∈ fksTo t processed, fk.columns.length = fk.dstColumns.length ∧ fk.dstColumns ≠ [] := by
  intro fk hfk
  obtain ⟨⟨t₀, h1, h2, -⟩, -⟩ := (hp.mem_fksTo hT h).1 hfk
  have := hT.fk_cols k t₀ h1 fk h2
  refine ⟨this.1, fun e => this.2 ?_⟩
  rw [e] at this
  exact List.length_eq_zero_iff.1 this.1

theorem revsTo_cols {k : Key} {t : TableMeta} (h : dget T' k = some t) {processed : List Key} :
    ∀ fk ∈ revsTo t processed, fk.columns.length = fk.dstColumns.length ∧ fk.dstColumns ≠ [] := by
  intro rfk hfk
  obtain ⟨a, fk, ⟨t₀, h1, h2, -⟩, rfl, -⟩ := (hp.mem_revsTo hT h).1 hfk
  have := hT.fk_cols a t₀ h1 fk h2
  exact ⟨this.1.symm, this.2⟩

/-! ### The rows of the sample -/

theorem planned_of_mem {k : Key} {q : TableQuery} (hk : k ∈ found ++ ord)
    (h : (k.str, q) ∈ p.queries) : Planned p k q := by
  refine ⟨k.str, h, parse_of_nodot (found_nodot hT ?_)⟩
  rcases List.mem_append.1 hk with hk | hk
  · rw [hp.found_eq] at hk; exact (List.mem_filter.1 hk).2
  · exact (hp.order.avail k hk).1

theorem mem_of_planned {k : Key} {q : TableQuery} (h : Planned p k q) : k ∈ found ++ ord := by
  obtain ⟨n, h1, h2⟩ := h
  have h3 : n ∈ p.queries.map Prod.fst := List.mem_map_of_mem (f := Prod.fst) h1
  rw [hp.keys] at h3
  obtain ⟨k', h4, rfl⟩ := List.mem_map.1 h3
  have hs : (dget T k').isSome := by
    rcases List.mem_append.1 h4 with hk | hk
    · rw [hp.found_eq] at hk; exact (List.mem_filter.1 hk).2
    · exact (hp.order.avail k' hk).1
  rw [parse_of_nodot (found_nodot hT hs)] at h2
  cases h2
  exact h4

variable {E : Engine} {Ts : Tables} {src S : Key → List Row}

theorem rows_pass_at {k : Key} (hS : ∀ q, Planned p k q → S k = q.eval E (sampleEnv Ts src S)) (hk : k ∈ found) :
    S k = src k := by
  rw [hS _ (hp.planned_of_mem hT (by simp [hk]) (hp.passq k hk)), passthroughQuery_eval]

theorem rows_pass (hS : IsSample E Ts src p S) {k : Key} (hk : k ∈ found) : S k = src k :=
  hp.rows_pass_at hT (hS k) hk

variable (hpk : PkOK Ts src)
include hpk

omit hT hp in
theorem pk_nodup (k : Key) : (sampleEnv Ts src S).pk (k.id false) ≠ [] →
    (((sampleEnv Ts src S).rows (k.id false)).map fun r =>
      ((sampleEnv Ts src S).pk (k.id false)).map r.get).Nodup := by
  intro h
  simp only [sampleEnv_false]
  have e : (sampleEnv Ts src S).pk (k.id false) =
      ((dget Ts k).map TableMeta.primaryKey).getD [] := rfl
  rw [e] at h ⊢
  cases ht : dget Ts k with
  | none => rw [ht] at h; simp at h
  | some t =>
    rw [ht] at h
    exact hpk k t ht h

/-- The cases of a planned table. -/
theorem rows_cases_at {pre post : List Key} {k : Key}
    (hS : ∀ q, Planned p k q → S k = q.eval E (sampleEnv Ts src S)) (he : ord = pre ++ k :: post) :
    open Classical in
    -- forward
    ((∃ v ∈ pre, Ref T k v) ∧ k.str ∉ dkeys cfg.targets ∧
      S k = (src k).filter fun r => decide (RelatedFwd T S pre k r ∧
        MeetsConstraints E ((dget cfg.tableConstraints k.str).getD []) r)) ∨
    -- backward
    ((¬ ∃ v ∈ pre, Ref T k v) ∧ (∃ v ∈ pre, Ref T v k) ∧ k.str ∉ dkeys cfg.targets ∧
      (dget cfg.tableConstraints k.str).getD [] = [] ∧
      S k = (src k).filter fun r => decide (RelatedBack T S pre k r)) ∨
    -- target
    ((¬ ∃ v ∈ pre, Ref T k v) ∧ ∃ x, dget cfg.targets k.str = some x ∧
      (x.all = true ∨ ¬ ∃ v ∈ pre, Ref T v k) ∧ S k = targetRows E src k x) ∨
    -- target that is referenced
    ((¬ ∃ v ∈ pre, Ref T k v) ∧ ∃ x, dget cfg.targets k.str = some x ∧ x.all = false ∧
      (dget cfg.tableConstraints k.str).getD [] = [] ∧
      (∃ v ∈ pre, Ref T v k) ∧
      ((x.amount = none ∧ (∀ pc, x.percent = some pc → 0 < pc) ∧ S k = src k) ∨
       ((x.amount ≠ none ∨ ∃ pc, x.percent = some pc ∧ pc ≤ 0) ∧
        ∀ r, r ∈ S k ↔ (r ∈ src k ∧ RelatedBack T S pre k r) ∨ r ∈ targetRows E src k x))) := by
  classical
  obtain ⟨t, q, ht, hq, hmem⟩ := hp.ordq pre k post he
  have hkey := hp.key_eq' hT ht
  have hSk := hS q (hp.planned_of_mem hT (by simp [hp.mem_ord hT he]) hmem)
  obtain ⟨st, rfl, hsh⟩ := planTable_shape hq
  rw [TableQuery.eval] at hSk
  have hFne := hp.fksTo_ne hT he ht
  have hRne := hp.revsTo_ne hT he ht
  have hpk' := pk_nodup (S := S) hpk
  have hback : ∀ joins, (sortFks (revsTo t (pre ++ [k]))).mapM (fkJoin T' t) = .ok joins →
      revsTo t (pre ++ [k]) ≠ [] →
      (relationSel t.key joins true []).eval E (sampleEnv Ts src S) =
        (src k).filter fun r => decide (RelatedBack T S pre k r) := by
    intro joins hj hR
    rw [relationSel_eval (P := fun _ => True) hj hR (hp.revsTo_cols hT ht) E _ t.key true
      (by intro i r; simp [Where.eval, Where.evals, all3]) (hpk' t.key), hkey, sampleEnv_false]
    refine List.filter_congr fun r _ => ?_
    rw [hp.joinedBy_back hT he ht]; simp
  generalize hx : dget cfg.targets k.str = target at hsh
  cases hsh with
  | @forward joins ws st hF hR hj hw hs =>
    left
    rw [simplify_single (relationSel_mergeSafe (constraintClauses_flat hw)) hs,
      relationSel_eval hj hF (hp.fksTo_cols hT ht) E _ t.key false
        (fun i r => constraintClauses_eval hw E _ _ i r) (hpk' t.key), hkey, sampleEnv_false] at hSk
    refine ⟨hFne.1 hF, ?_, ?_⟩
    · have := dget_none_iff.1 hx; exact this
    · rw [hSk]
      refine List.filter_congr fun r _ => ?_
      rw [hp.joinedBy_fwd hT he ht]
  | @backward joins st hF hR hC hj hs =>
    right; left
    rw [simplify_single (relationSel_mergeSafe (by simp)) hs, hback joins hj hR] at hSk
    exact ⟨fun h => hFne.2 h hF, hRne.1 hR, dget_none_iff.1 hx, by rw [← hkey]; exact hC, hSk⟩
  | @target x st hF hR hw hs =>
    right; right; left
    rw [simplify_single targetSel_mergeSafe hs, targetSel_eval, hkey] at hSk
    refine ⟨fun h => hFne.2 h hF, x, rfl, ?_, hSk⟩
    rcases hR with h | h
    · exact .inl h
    · exact .inr fun h' => hRne.2 h' h
  | @both x joins st hF hR ha hC hj hs =>
    right; right; right
    refine ⟨fun h => hFne.2 h hF, x, rfl, ha, by rw [← hkey]; exact hC, hRne.1 hR, ?_⟩
    have hrel : ∀ r, r ∈ (relationSel t.key joins true []).eval E (sampleEnv Ts src S) ↔
        r ∈ src k ∧ RelatedBack T S pre k r := by
      intro r; rw [hback joins hj hR]; simp
    by_cases hp0 : ∃ pc, x.percent = some pc ∧ pc ≤ 0
    · right
      refine ⟨.inr hp0, fun r => ?_⟩
      obtain ⟨pc, h1, h2⟩ := hp0
      rw [hSk, simplify_drop (relationSel_mergeSafe (by simp)) ha h1 h2 hs, hrel]
      constructor
      · exact .inl
      · rintro (h | h)
        · exact h
        · exfalso
          have hempty : ∀ n : List (Row × Nat), (n.filter fun y =>
              decide (x.all = true ∨ TargetAccepts E k x y.2 y.1)) = [] := by
            intro n
            rw [List.filter_eq_nil_iff]
            intro y _
            simp only [ha, Bool.false_eq_true, false_or, decide_eq_true_eq]
            intro hacc
            have h3 := hacc.percent pc h1
            have h5 : pc / 100 ≤ 0 := div_nonpos_of_nonpos_of_nonneg h2 (by norm_num)
            rw [E.below_zero _ _ _ _ h5] at h3
            cases h3
          unfold targetRows at h
          simp only [hempty, List.map_nil] at h
          cases hn : x.amount with
          | none => rw [hn] at h; simp at h
          | some n =>
            rw [hn] at h
            have := (E.shuffle_perm ⟨k.1, k.2, false⟩ 0 []).mem_iff.1 (List.mem_of_mem_take h)
            simp at this
    · have hp1 : ∀ pc, x.percent = some pc → 0 < pc := by
        intro pc h1
        by_contra h2
        exact hp0 ⟨pc, h1, not_lt.1 h2⟩
      cases hn : x.amount with
      | none =>
        left
        refine ⟨rfl, hp1, ?_⟩
        rw [hSk, simplify_merge hn (.inr hp1) hs, hkey, sampleEnv_false]
      | some n =>
        right
        refine ⟨.inl (by simp), fun r => ?_⟩
        rw [hSk, simplify_pair (relationSel_mergeSafe (by simp)) targetSel_mergeSafe
          (by simp [targetSel, hn]) hs, hrel, targetSel_eval, hkey]
        rfl

theorem rows_cases (hS : IsSample E Ts src p S) {pre post : List Key} {k : Key} (he : ord = pre ++ k :: post) :
    open Classical in
    -- forward
    ((∃ v ∈ pre, Ref T k v) ∧ k.str ∉ dkeys cfg.targets ∧
      S k = (src k).filter fun r => decide (RelatedFwd T S pre k r ∧
        MeetsConstraints E ((dget cfg.tableConstraints k.str).getD []) r)) ∨
    -- backward
    ((¬ ∃ v ∈ pre, Ref T k v) ∧ (∃ v ∈ pre, Ref T v k) ∧ k.str ∉ dkeys cfg.targets ∧
      (dget cfg.tableConstraints k.str).getD [] = [] ∧
      S k = (src k).filter fun r => decide (RelatedBack T S pre k r)) ∨
    -- target
    ((¬ ∃ v ∈ pre, Ref T k v) ∧ ∃ x, dget cfg.targets k.str = some x ∧
      (x.all = true ∨ ¬ ∃ v ∈ pre, Ref T v k) ∧ S k = targetRows E src k x) ∨
    -- target that is referenced
    ((¬ ∃ v ∈ pre, Ref T k v) ∧ ∃ x, dget cfg.targets k.str = some x ∧ x.all = false ∧
      (dget cfg.tableConstraints k.str).getD [] = [] ∧
      (∃ v ∈ pre, Ref T v k) ∧
      ((x.amount = none ∧ (∀ pc, x.percent = some pc → 0 < pc) ∧ S k = src k) ∨
       ((x.amount ≠ none ∨ ∃ pc, x.percent = some pc ∧ pc ≤ 0) ∧
        ∀ r, r ∈ S k ↔ (r ∈ src k ∧ RelatedBack T S pre k r) ∨ r ∈ targetRows E src k x))) :=
  hp.rows_cases_at hT hpk (hS k) he

end PlanShape
end Subsetter
