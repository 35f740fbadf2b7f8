import Verif.Proofs.PlanSem
import Verif.Proofs.SimpRefs

/- Plans made by the planner refer to earlier tables only; referential integrity of the sample. -/
set_option linter.unusedSimpArgs false
set_option linter.unusedSectionVars false
namespace Subsetter
open Spec

theorem passthroughQuery_refs (k : Key) : (passthroughQuery k).refs = [k.id false] := rfl

theorem relationSel_refs {k : Key} {joins : List Join} {outer : Bool} {ws : List Where}
    (h : ∀ w ∈ ws, w.Flat) {x : TableId} (hx : x ∈ (relationSel k joins outer ws).refs) :
    x = k.id false ∨ ∃ j ∈ joins, j.right = x := by
  rw [mem_selRefs] at hx
  simp only [relationSel, Sel.from_mk, Sel.joins_mk, Sel.where_mk, Option.getD_some] at hx
  rcases hx with h1 | h1 | ⟨w, h1, h2⟩
  · exact .inl h1
  · exact .inr h1
  · cases h1; rw [and_refs h] at h2; cases h2

theorem targetSel_refs {k : Key} {x : TargetConfig} {i : TableId} (hx : i ∈ (targetSel k x).refs) :
    i = k.id false := by
  rw [mem_selRefs] at hx
  simp only [targetSel, Sel.from_mk, Sel.joins_mk, Sel.where_mk, Option.getD_none] at hx
  rcases hx with h1 | ⟨_, h1, _⟩ | ⟨w, h1, h2⟩
  · exact h1
  · cases h1
  · cases h1; rw [and_refs (targetClauses_flat x)] at h2; cases h2

theorem simplify_refs {st st' : Stmt} (h : st.simplify = .ok st') : ∀ x ∈ st'.refs, x ∈ st.refs :=
  (simp_refs _).2.2 _ _ h

theorem tableShape_refs {T : Tables} {C : Dict Str (List ColumnConstraint)} {t : TableMeta}
    {processed : List Key} {target : Option TargetConfig} {st : Stmt}
    (h : TableShape T C t processed target st) : ∀ x ∈ st.refs,
      x = t.key.id false ∨ ∃ fk, (fk ∈ fksTo t processed ∨ fk ∈ revsTo t processed) ∧
        x = fk.dst.id true := by
  intro x hx
  have hjoin : ∀ {F : List ForeignKey} {joins : List Join},
      (sortFks F).mapM (fkJoin T t) = .ok joins → (∃ j ∈ joins, j.right = x) →
      ∃ fk ∈ F, x = fk.dst.id true := by
    rintro F joins hj ⟨j, h1, rfl⟩
    obtain ⟨fk, h2, h3⟩ := (joins_spec hj).1 j h1
    exact ⟨fk, h2, h3.2.1⟩
  cases h with
  | forward hF hR hj hw hs =>
    obtain ⟨s, h1, h2⟩ := mem_selRefss.1 (simplify_refs hs x hx)
    simp only [List.mem_singleton] at h1; subst h1
    rcases relationSel_refs (constraintClauses_flat hw) h2 with h | h
    · exact .inl h
    · obtain ⟨fk, h3, h4⟩ := hjoin hj h; exact .inr ⟨fk, .inl h3, h4⟩
  | backward hF hR hC hj hs =>
    obtain ⟨s, h1, h2⟩ := mem_selRefss.1 (simplify_refs hs x hx)
    simp only [List.mem_singleton] at h1; subst h1
    rcases relationSel_refs (by simp) h2 with h | h
    · exact .inl h
    · obtain ⟨fk, h3, h4⟩ := hjoin hj h; exact .inr ⟨fk, .inr h3, h4⟩
  | target hF hR hw hs =>
    obtain ⟨s, h1, h2⟩ := mem_selRefss.1 (simplify_refs hs x hx)
    simp only [List.mem_singleton] at h1; subst h1
    exact .inl (targetSel_refs h2)
  | both hF hR ha hC hj hs =>
    obtain ⟨s, h1, h2⟩ := mem_selRefss.1 (simplify_refs hs x hx)
    simp only [List.mem_cons, List.not_mem_nil, or_false] at h1
    rcases h1 with rfl | rfl
    · rcases relationSel_refs (by simp) h2 with h | h
      · exact .inl h
      · obtain ⟨fk, h3, h4⟩ := hjoin hj h; exact .inr ⟨fk, .inr h3, h4⟩
    · exact .inl (targetSel_refs h2)

namespace PlanShape
variable {cfg : PlannerConfig} {ign pass : List Key} {T T' : Tables} {found ord : List Key} {p : Plan}
  (hT : TablesOK T) (hp : PlanShape cfg ign pass T T' found ord p)
include hT hp

theorem inT {k : Key} (hk : k ∈ found ++ ord) : (dget T k).isSome := by
  rcases List.mem_append.1 hk with hk | hk
  · rw [hp.found_eq] at hk; exact (List.mem_filter.1 hk).2
  · exact (hp.order.avail k hk).1

theorem names_nodup : (p.queries.map Prod.fst).Nodup := by
  rw [hp.keys]
  exact map_str_nodup hT (fun k hk => hp.inT hT hk) hp.nodup

theorem planned_unique {k : Key} {q q' : TableQuery} (h : Planned p k q) (h' : Planned p k q') :
    q = q' := by
  obtain ⟨n, h1, h2⟩ := h
  obtain ⟨n', h3, h4⟩ := h'
  have := parse_inj h2 h4
  subst this
  have e1 := dget_of_mem (hp.names_nodup hT) h1
  rw [dget_of_mem (hp.names_nodup hT) h3] at e1
  exact (Option.some.inj e1).symm

theorem exists_planned {k : Key} (hk : k ∈ found ++ ord) : ∃ q, Planned p k q := by
  rcases List.mem_append.1 hk with h | h
  · exact ⟨_, hp.planned_of_mem hT hk (hp.passq k h)⟩
  · obtain ⟨pre, post, he⟩ := List.append_of_mem h
    obtain ⟨t, q, -, -, h3⟩ := hp.ordq pre k post he
    exact ⟨q, hp.planned_of_mem hT hk h3⟩

/-- References of a planned query. -/
theorem refs_cases {k : Key} {q : TableQuery} (h : Planned p k q) {x : TableId} (hx : x ∈ q.refs) :
    x = k.id false ∨ ∃ pre post d, ord = pre ++ k :: post ∧ d ∈ pre ∧ x = d.id true := by
  rcases List.mem_append.1 (hp.mem_of_planned hT h) with hk | hk
  · have := hp.planned_unique hT h (hp.planned_of_mem hT (by simp [hk]) (hp.passq k hk))
    subst this
    rw [passthroughQuery_refs] at hx
    exact .inl (by simpa using hx)
  · obtain ⟨pre, post, he⟩ := List.append_of_mem hk
    obtain ⟨t, q', ht, h2, h3⟩ := hp.ordq pre k post he
    have := hp.planned_unique hT h (hp.planned_of_mem hT (by simp [hk]) h3)
    subst this
    obtain ⟨st, rfl, hsh⟩ := planTable_shape h2
    rcases tableShape_refs hsh x hx with h4 | ⟨fk, h4, rfl⟩
    · rw [hp.key_eq' hT ht] at h4; exact .inl h4
    · refine .inr ⟨pre, post, fk.dst, he, ?_, rfl⟩
      rcases h4 with h4 | h4
      · obtain ⟨h5, h6⟩ := (hp.mem_fksTo hT ht).1 h4
        rcases List.mem_append.1 h6 with h6 | h6
        · exact h6
        · simp only [List.mem_singleton] at h6
          rw [h6] at h5
          exact absurd ⟨fk, h5⟩ (hp.order.noself k hk)
      · obtain ⟨a, fk', h5, rfl, h6⟩ := (hp.mem_revsTo hT ht).1 h4
        rcases List.mem_append.1 h6 with h6 | h6
        · exact h6
        · simp only [List.mem_singleton] at h6
          subst h6
          exact absurd ⟨fk', h5⟩ (hp.order.noself a hk)

theorem needs_before {k d : Key} (h : Needs p k d) : ∃ pre post, ord = pre ++ k :: post ∧ d ∈ pre := by
  obtain ⟨q, h1, x, h2, h3, h4⟩ := h
  rcases hp.refs_cases hT h1 h2 with rfl | ⟨pre, post, d', he, hd, rfl⟩
  · simp [Key.id] at h3
  · have : d' = d := h4
    subst this
    exact ⟨pre, post, he, hd⟩

theorem planOK {Ts : Tables} (hTs : ∀ k ∈ found ++ ord, (dget Ts k).isSome) : PlanOK Ts p := by
  refine ⟨hp.names_nodup hT, fun n q hn => ?_, fun k q h x hx => ?_, fun k d h => ?_⟩
  · have h3 : n ∈ p.queries.map Prod.fst := List.mem_map_of_mem (f := Prod.fst) hn
    rw [hp.keys] at h3
    obtain ⟨k, h4, rfl⟩ := List.mem_map.1 h3
    exact ⟨k, parse_of_nodot (found_nodot hT (hp.inT hT h4)), hTs k h4⟩
  · rcases hp.refs_cases hT h hx with rfl | ⟨pre, post, d, he, hd, rfl⟩
    · exact hTs k (hp.mem_of_planned hT h)
    · exact hTs d (by rw [he]; simp [hd])
  · obtain ⟨pre, post, he, hd⟩ := hp.needs_before hT h
    exact hp.exists_planned hT (by rw [he]; simp [hd])

theorem acyclic : Acyclic p := by
  have hlt : ∀ {k d}, Needs p k d → ord.idxOf d < ord.idxOf k := by
    intro k d h
    obtain ⟨pre, post, he, hd⟩ := hp.needs_before hT h
    have hnd := hp.order.nodup
    have hk : k ∉ pre := by
      rw [he] at hnd
      exact fun hk => (List.nodup_append.1 hnd).2.2 k hk k (by simp) rfl
    rw [he, List.idxOf_append_of_mem hd, List.idxOf_append_of_notMem hk]
    have := List.idxOf_lt_length_of_mem hd
    omega
  have : ∀ {k d}, Relation.TransGen (Needs p) k d → ord.idxOf d < ord.idxOf k := by
    intro k d h
    induction h with
    | single h => exact hlt h
    | tail _ h ih => exact lt_trans (hlt h) ih
  exact fun k h => lt_irrefl _ (this h)

variable {E : Engine} {Ts : Tables} {src S : Key → List Row} (hS : IsSample E Ts src p S)
  (hpk : PkOK Ts src)
include hS hpk

omit hT hp hS hpk in
theorem targetRows_subset {k : Key} {x : TargetConfig} {r : Row} (h : r ∈ targetRows E src k x) :
    r ∈ src k := by
  classical
  have key : ∀ r, r ∈ (((src k).zipIdx.filter fun p =>
      decide (x.all = true ∨ TargetAccepts E k x p.2 p.1)).map Prod.fst) → r ∈ src k := by
    intro r hr
    obtain ⟨y, h1, rfl⟩ := List.mem_map.1 hr
    exact List.mem_map.2 ⟨y, (List.mem_filter.1 h1).1, rfl⟩ |> fun h => by
      rwa [List.zipIdx_map_fst] at h
  unfold targetRows at h
  cases hn : x.amount with
  | none => rw [hn] at h; exact key r h
  | some n =>
    rw [hn] at h
    exact key r ((E.shuffle_perm _ _ _).mem_iff.1 (List.mem_of_mem_take h))

omit hT hp hS hpk in
theorem targetRows_all {k : Key} {x : TargetConfig} (ha : x.all = true) (hn : x.amount = none) :
    targetRows E src k x = src k := by
  classical
  unfold targetRows
  simp only [ha, true_or, decide_true, List.filter_true, List.zipIdx_map_fst, hn]

omit hS in
/-- Sampled rows are rows of the source. -/
theorem sample_subset_at {k : Key} (hSk : ∀ q, Planned p k q → S k = q.eval E (sampleEnv Ts src S))
    (hk : k ∈ found ++ ord) {r : Row} (hr : r ∈ S k) : r ∈ src k := by
  rcases List.mem_append.1 hk with h | h
  · rwa [hp.rows_pass_at hT hSk h] at hr
  · obtain ⟨pre, post, he⟩ := List.append_of_mem h
    rcases hp.rows_cases_at hT hpk hSk he with ⟨-, -, h1⟩ | ⟨-, -, -, -, h1⟩ | ⟨-, x, -, -, h1⟩ |
      ⟨-, x, -, -, -, -, ⟨-, -, h1⟩ | ⟨-, h1⟩⟩
    · rw [h1] at hr; exact (List.mem_filter.1 hr).1
    · rw [h1] at hr; exact (List.mem_filter.1 hr).1
    · rw [h1] at hr; exact targetRows_subset hr
    · rwa [h1] at hr
    · rcases (h1 r).1 hr with h2 | h2
      · exact h2.1
      · exact targetRows_subset h2

theorem sample_subset {k : Key} (hk : k ∈ found ++ ord) {r : Row} (hr : r ∈ S k) : r ∈ src k :=
  hp.sample_subset_at hT hpk (hS k) hk hr

theorem fkKept (hall : ∀ n x, dget cfg.targets n = some x → x.all = true → x.amount = none)
    {a b : Key} {fk : ForeignKey} (ha : a ∈ found ++ ord) (hb : b ∈ found ++ ord)
    (h : HasFk T a fk b) : FkKept src S a fk b := by
  intro r hr ⟨m, hm, hrm⟩
  have hpass : b ∈ found → ∃ m ∈ S b, Refers fk.columns fk.dstColumns r m := fun hb => by
    rw [hp.rows_pass hT hS hb]; exact ⟨m, hm, hrm⟩
  rcases List.mem_append.1 hb with hb | hb
  · exact hpass hb
  rcases List.mem_append.1 ha with ha | ha
  · obtain ⟨t, h1, h2, h3⟩ := h
    have := hp.found_fks a t ha (hT.get.2 h1) fk h2
    refine hpass ?_
    rw [hp.found_eq]
    refine List.mem_filter.2 ⟨?_, hp.closed a fk b ⟨t, h1, h2, h3⟩⟩
    rw [← h3]; exact this
  have hab : a ≠ b := by
    rintro rfl
    exact hp.order.noself a ha ⟨fk, h⟩
  obtain ⟨pre, post, he⟩ := List.append_of_mem hb
  by_cases hpre : a ∈ pre
  · -- the parent table comes later: it contains what is referenced
    have href : ∃ v ∈ pre, Ref T v b := ⟨a, hpre, fk, h⟩
    have hrel : RelatedBack T S pre b m := ⟨a, hpre, fk, h, r, hr, hrm⟩
    rcases hp.rows_cases hT hpk hS he with ⟨h0, h1, -⟩ | ⟨-, -, -, -, h1⟩ | ⟨-, x, h0, h2, h1⟩ |
      ⟨-, x, -, -, -, -, ⟨-, -, h1⟩ | ⟨-, h1⟩⟩
    · rcases hp.order.dir pre b post he with ⟨-, h2⟩ | ⟨-, -, h2⟩
      · exact absurd h0 h2
      · exact absurd href h2
    · refine ⟨m, ?_, hrm⟩
      rw [h1]; exact List.mem_filter.2 ⟨hm, by simpa using hrel⟩
    · rcases h2 with h2 | h2
      · refine ⟨m, ?_, hrm⟩
        rw [h1, targetRows_all h2 (hall _ x h0 h2)]; exact hm
      · exact absurd href h2
    · exact ⟨m, by rw [h1]; exact hm, hrm⟩
    · exact ⟨m, (h1 m).2 (.inl ⟨hm, hrel⟩), hrm⟩
  · -- the parent table comes first: rows of `a` were joined with it
    have hpost : a ∈ post := by
      rw [he] at ha
      rcases List.mem_append.1 ha with h | h
      · exact absurd h hpre
      · rcases List.mem_cons.1 h with h | h
        · exact absurd h hab
        · exact h
    obtain ⟨p1, p2, hpost⟩ := List.append_of_mem hpost
    have he' : ord = (pre ++ b :: p1) ++ a :: p2 := by rw [he, hpost]; simp
    have hbin : b ∈ pre ++ b :: p1 := by simp
    have href : ∃ v ∈ pre ++ b :: p1, Ref T a v := ⟨b, hbin, fk, h⟩
    rcases hp.rows_cases hT hpk hS he' with ⟨-, -, h1⟩ | ⟨h1, -⟩ | ⟨h1, -⟩ | ⟨h1, -⟩
    · rw [h1] at hr
      have := (List.mem_filter.1 hr).2
      simp only [decide_eq_true_eq] at this
      exact this.1 fk b h hbin
    all_goals exact absurd href h1

end PlanShape
end Subsetter
