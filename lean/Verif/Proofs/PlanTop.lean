import Verif.Proofs.PlanRefs
import Verif.Proofs.PlanErr
import Verif.Proofs.Rewrite
import Verif.Proofs.Closure

/- The whole planner in terms of the specification. -/
set_option linter.unusedSimpArgs false
set_option linter.unusedSectionVars false
namespace Subsetter
open Spec Props

theorem parseName_ok {s : Str} {k : Key} : parseName s = .ok k ↔ parseTableName s = some k := by
  unfold parseName
  cases parseTableName s <;> simp

theorem parseName_error {s : Str} {e : PlanErr} (h : parseName s = .error e) : e = .badName := by
  unfold parseName at h
  cases h1 : parseTableName s with
  | none => rw [h1] at h; cases h; rfl
  | some k => rw [h1] at h; cases h

theorem mapM_parseName {names : List Str} :
    (∃ ks, names.mapM parseName = .ok ks ∧ ∀ k, k ∈ ks ↔ Named names k) ∨
    (names.mapM parseName = .error .badName ∧ ∃ n ∈ names, parseTableName n = none) := by
  induction names with
  | nil => exact .inl ⟨[], rfl, by simp [Named]⟩
  | cons n names ih =>
    rw [List.mapM_cons]
    cases h : parseTableName n with
    | none =>
      right
      refine ⟨?_, n, by simp, h⟩
      rw [show parseName n = .error .badName by unfold parseName; rw [h]]; rfl
    | some k =>
      rcases ih with ⟨ks, h1, h2⟩ | ⟨h1, m, h2, h3⟩
      · left
        refine ⟨k :: ks, ?_, fun k' => ?_⟩
        · rw [parseName_ok.2 h, h1]; rfl
        · simp only [List.mem_cons, h2, Named]
          constructor
          · rintro (rfl | ⟨m, h3, h4⟩)
            · exact ⟨n, .inl rfl, h⟩
            · exact ⟨m, .inr h3, h4⟩
          · rintro ⟨m, rfl | h3, h4⟩
            · rw [h] at h4; exact .inl (Option.some.inj h4).symm
            · exact .inr ⟨m, h3, h4⟩
      · right
        refine ⟨?_, m, List.mem_cons_of_mem _ h2, h3⟩
        rw [parseName_ok.2 h, h1]; rfl

theorem parseSet_cases (names : List Str) :
    (∃ ks, parseSet names = .ok ks ∧ ks.Nodup ∧ ∀ k, k ∈ ks ↔ Named names k) ∨
    (parseSet names = .error .badName ∧ ∃ n ∈ names, parseTableName n = none) := by
  unfold parseSet
  rcases mapM_parseName (names := names) with ⟨ks, h1, h2⟩ | ⟨h1, h2⟩
  · left
    rw [h1]
    exact ⟨toSet ks, rfl, toSet_nodup _, fun k => by rw [mem_toSet, h2]⟩
  · right; rw [h1]; exact ⟨rfl, h2⟩

/-- Everything known about a successful run of the planner. -/
structure Planning (cfg : PlannerConfig) (T : Tables) (p : Plan) (ign pass : List Key)
    (T₁ T₂ : Tables) (found ord : List Key) : Prop where
  ign_iff : ∀ k, k ∈ ign ↔ Named cfg.ignore k
  pass_iff : ∀ k, k ∈ pass ↔ Named cfg.passthrough k
  ok : TablesOK T₁
  same : SameBut T T₁
  used : ∀ a fk b, HasFk T₁ a fk b ↔ UsedFk cfg T a fk b
  shape : PlanShape cfg ign pass T₁ T₂ found ord p

theorem planning {cfg : PlannerConfig} {T : Tables} (hI : Input cfg T) {p : Plan}
    (h : planInternal cfg T = .ok p) :
    ∃ ign pass T₁ T₂ found ord, Planning cfg T p ign pass T₁ T₂ found ord := by
  unfold planInternal at h
  rcases parseSet_cases cfg.ignore with ⟨ign, h1, -, h2⟩ | ⟨h1, -⟩
  swap
  · rw [h1] at h; cases h
  rw [h1] at h
  rcases parseSet_cases cfg.passthrough with ⟨pass, h3, h3', h4⟩ | ⟨h3, -⟩
  swap
  · rw [h3] at h; cases h
  rw [h3] at h
  simp only at h
  cases h5 : rewriteFks cfg T with
  | error e => rw [h5] at h; cases h
  | ok T₁ =>
    rw [h5] at h
    obtain ⟨h6, h7⟩ := rewriteFks_ok hI.tables hI.extra h5
    obtain ⟨T₂, found, ord, h8⟩ := planTables_shape h6 h3' hI.named h
    exact ⟨ign, pass, T₁, T₂, found, ord, h2, h4, h6, h7,
      rewriteFks_used hI.tables hI.extra h5, h8⟩

namespace Planning
variable {cfg : PlannerConfig} {T : Tables} {p : Plan} {ign pass : List Key} {T₁ T₂ : Tables}
  {found ord : List Key} (h : Planning cfg T p ign pass T₁ T₂ found ord)
include h

theorem ref_iff {a b : Key} : Ref T₁ a b ↔ UsedRef cfg T a b := by
  unfold Ref UsedRef; simp only [h.used]

theorem mem_found {k : Key} : k ∈ found ↔ k ∈ pass ∧ (dget T₁ k).isSome := by
  rw [h.shape.found_eq, List.mem_filter]

theorem planned_iff {k : Key} : (∃ q, Planned p k q) ↔ k ∈ found ++ ord :=
  ⟨fun ⟨_, hq⟩ => h.shape.mem_of_planned h.ok hq, fun hk => h.shape.exists_planned h.ok hk⟩

theorem isSome_iff {k : Key} : (dget T₁ k).isSome ↔ (dget T k).isSome := by
  rw [dget_isSome_iff, dget_isSome_iff]
  rw [h.same.keys]

theorem nodot {k : Key} (hk : k ∈ found ++ ord) : '.' ∉ k.1 :=
  found_nodot h.ok (h.shape.inT h.ok hk)

/-- A planned table is passthrough or sampled. -/
theorem sampled_iff {k : Key} (hk : k ∈ found ++ ord) : k.str ∉ p.passthrough ↔ k ∈ ord := by
  have hnd := List.nodup_append.1 h.shape.nodup
  rw [h.shape.passthrough]
  constructor
  · intro hs
    rcases List.mem_append.1 hk with hk | hk
    · exact absurd (List.mem_map_of_mem hk) hs
    · exact hk
  · intro hs hm
    obtain ⟨k', hk', e⟩ := List.mem_map.1 hm
    have := str_inj (h.nodot (List.mem_append.2 (.inl hk'))) (h.nodot hk) e
    subst this
    exact hnd.2.2 k' hk' k' hs rfl

theorem earlier_iff {pre post : List Key} {k v : Key} (he : ord = pre ++ k :: post)
    (hv : '.' ∉ v.1) : Earlier p v k ↔ v ∈ pre := by
  have hnd := h.shape.names_nodup h.ok
  have hkeys : p.queries.map Prod.fst =
      (found ++ pre).map Key.str ++ k.str :: post.map Key.str := by
    rw [h.shape.keys, he]; simp
  have hin : ∀ x ∈ found ++ pre, x ∈ found ++ ord := by
    intro x hx
    rw [he]
    rcases List.mem_append.1 hx with hx | hx <;> simp [hx]
  constructor
  · rintro ⟨l₁, l₂, h1, h2, h3⟩
    have hl : l₁ = (found ++ pre).map Key.str := by
      have hb : Before (p.queries.map Prod.fst) v.str k.str := by
        obtain ⟨a, b, rfl⟩ := List.append_of_mem h2
        exact ⟨a, b, l₂, by rw [h1]; simp⟩
      rw [hkeys] at hb hnd
      have := (before_split hnd).1 hb
      -- both splittings at `k` agree
      rw [h1] at hkeys
      rw [← hkeys] at hnd
      have k1 : k.str ∉ l₁ := fun hk => (List.nodup_append.1 hnd).2.2 _ hk _ (by simp) rfl
      have k2 : k.str ∉ (found ++ pre).map Key.str := by
        rw [hkeys] at hnd
        exact fun hk => (List.nodup_append.1 hnd).2.2 _ hk _ (by simp) rfl
      have e1 := congrArg (List.takeWhile (fun s => decide (s ≠ k.str))) hkeys
      rw [List.takeWhile_append_of_pos (by
          intro a ha; simp only [decide_eq_true_eq]; rintro rfl; exact k1 ha),
        List.takeWhile_append_of_pos (by
          intro a ha; simp only [decide_eq_true_eq]; rintro rfl; exact k2 ha)] at e1
      simpa using e1
    rw [hl] at h2
    obtain ⟨v', hv', e⟩ := List.mem_map.1 h2
    have := str_inj (h.nodot (hin v' hv')) hv e
    subst this
    rcases List.mem_append.1 hv' with hf | hp
    · exact absurd (by rw [h.shape.passthrough]; exact List.mem_map_of_mem hf) h3
    · exact hp
  · intro hvp
    refine ⟨_, _, hkeys, List.mem_map_of_mem (List.mem_append.2 (.inr hvp)), ?_⟩
    have hvo : v ∈ ord := by rw [he]; simp [hvp]
    exact (h.sampled_iff (List.mem_append.2 (.inr hvo))).2 hvo

theorem used_nodot {a b : Key} {fk : ForeignKey} (hu : UsedFk cfg T a fk b) : '.' ∉ a.1 ∧ '.' ∉ b.1 := by
  have hf := (h.used a fk b).2 hu
  exact ⟨found_nodot h.ok (ref_isSome h.ok ⟨fk, hf⟩), found_nodot h.ok (h.shape.closed a fk b hf)⟩

theorem relatedFwd_iff {pre post : List Key} {k : Key} (he : ord = pre ++ k :: post)
    {S : Key → List Row} {r : Row} : RelatedFwd T₁ S pre k r ↔
      ∀ fk b, UsedFk cfg T k fk b → Earlier p b k → ∃ m ∈ S b, Refers fk.columns fk.dstColumns r m := by
  unfold RelatedFwd
  constructor
  · intro hr fk b hu hb
    exact hr fk b ((h.used _ _ _).2 hu) ((h.earlier_iff he (h.used_nodot hu).2).1 hb)
  · intro hr fk b hu hb
    have hu := (h.used _ _ _).1 hu
    exact hr fk b hu ((h.earlier_iff he (h.used_nodot hu).2).2 hb)

theorem relatedBack_iff {pre post : List Key} {k : Key} (he : ord = pre ++ k :: post)
    {S : Key → List Row} {r : Row} : RelatedBack T₁ S pre k r ↔
      ∃ a fk, Earlier p a k ∧ UsedFk cfg T a fk k ∧ ∃ c ∈ S a, Refers fk.columns fk.dstColumns c r := by
  unfold RelatedBack
  constructor
  · rintro ⟨a, ha, fk, hu, hc⟩
    have hu := (h.used _ _ _).1 hu
    exact ⟨a, fk, (h.earlier_iff he (h.used_nodot hu).1).2 ha, hu, hc⟩
  · rintro ⟨a, fk, ha, hu, hc⟩
    exact ⟨a, (h.earlier_iff he (h.used_nodot hu).1).1 ha, fk, (h.used _ _ _).2 hu, hc⟩

theorem refFwd_iff {pre post : List Key} {k : Key} (he : ord = pre ++ k :: post) :
    (∃ v ∈ pre, Ref T₁ k v) ↔ ∃ b, Earlier p b k ∧ UsedRef cfg T k b := by
  constructor
  · rintro ⟨v, hv, hr⟩
    obtain ⟨fk, hu⟩ := h.ref_iff.1 hr
    exact ⟨v, (h.earlier_iff he (h.used_nodot hu).2).2 hv, fk, hu⟩
  · rintro ⟨v, hv, fk, hu⟩
    exact ⟨v, (h.earlier_iff he (h.used_nodot hu).2).1 hv, h.ref_iff.2 ⟨fk, hu⟩⟩

theorem refBack_iff {pre post : List Key} {k : Key} (he : ord = pre ++ k :: post) :
    (∃ v ∈ pre, Ref T₁ v k) ↔ ∃ b, Earlier p b k ∧ UsedRef cfg T b k := by
  constructor
  · rintro ⟨v, hv, hr⟩
    obtain ⟨fk, hu⟩ := h.ref_iff.1 hr
    exact ⟨v, (h.earlier_iff he (h.used_nodot hu).1).2 hv, fk, hu⟩
  · rintro ⟨v, hv, fk, hu⟩
    exact ⟨v, (h.earlier_iff he (h.used_nodot hu).1).1 hv, h.ref_iff.2 ⟨fk, hu⟩⟩

end Planning

/-- The tables loaded from a database are as the planner expects them. -/
theorem loaded_ok {fnmatch : Str → Str → Bool} {db : Dict Str TableMeta} (hdb : DbOK db)
    {select : List Str} {fwd bwd : Bool} {l : Loaded}
    (h : fromEngine fnmatch db select fwd bwd = some (some l)) :
    TablesOK l.tables ∧ (fwd = true → ∀ a fk b, HasFk l.tables a fk b → (dget l.tables b).isSome) := by
  rcases fromEngine_spec (fnmatch := fnmatch) hdb select fwd bwd with
    ⟨l', h1, h2, -, h4, h5⟩ | ⟨h1, -⟩
  · rw [h] at h1; cases h1
    refine ⟨⟨h2, fun k t hk => (h4 k t hk).2, fun k t hk => ?_, fun k t hk => ?_,
      fun k t hk fk hfk => ?_⟩, ?_⟩
    · obtain ⟨⟨n, hn⟩, rfl⟩ := h4 k t hk
      exact hdb.no_dot n t hn
    · obtain ⟨⟨n, hn⟩, rfl⟩ := h4 k t hk
      exact hdb.no_rev n t hn
    · obtain ⟨⟨n, hn⟩, rfl⟩ := h4 k t hk
      have := hdb.fk_cols n t hn fk hfk
      exact ⟨this.1, this.2.1⟩
    · rintro hf a fk b ⟨t, h6, h7, h8⟩
      rw [dget_isSome_iff]
      obtain ⟨s, hs, hr⟩ := (h5 a).1 (List.mem_map_of_mem (f := Prod.fst) h6)
      obtain ⟨⟨n, hn⟩, he⟩ := h4 a t h6
      exact (h5 b).2 ⟨s, hs, hr.tail (.inl ⟨hf, n, t, fk, hn, he, h7, h8⟩)⟩
  · rw [h] at h1; cases h1

/-- Used keys refer to loaded tables if those of the database do. -/
theorem usedFk_closed {cfg : PlannerConfig} {T : Tables} (hT : TablesOK T)
    (hcl : ∀ a fk b, HasFk T a fk b → (dget T b).isSome) {a b : Key} {fk : ForeignKey}
    (h : UsedFk cfg T a fk b) : (dget T b).isSome := by
  rcases h with ⟨h | ⟨e, -, t, c, -, -, -, -, ho⟩, -⟩ | ⟨x, -, -, -, -, ⟨t, ht, -⟩, -⟩
  · exact hcl a fk b h
  · obtain ⟨t', ht', -⟩ := (ho b).2 rfl
    rw [hT.get.2 ht']; rfl
  · rw [hT.get.2 ht]; rfl

theorem planInternal_error {cfg : PlannerConfig} {T : Tables} (hI : Input cfg T)
    (hcl : ∀ a fk b, UsedFk cfg T a fk b → (dget T b).isSome) {e : PlanErr}
    (h : planInternal cfg T = .error e) : e = .badName ∨
      ∃ ign pass, (∀ k, k ∈ ign ↔ Named cfg.ignore k) ∧
      (∀ k, k ∈ pass ↔ Named cfg.passthrough k) ∧ Cause cfg ign pass T (UsedRef cfg T) e := by
  unfold planInternal at h
  rcases parseSet_cases cfg.ignore with ⟨ign, h1, -, h2⟩ | ⟨h1, -⟩
  swap
  · rw [h1] at h; cases h; exact .inl rfl
  rw [h1] at h
  rcases parseSet_cases cfg.passthrough with ⟨pass, h3, h3', h4⟩ | ⟨h3, -⟩
  swap
  · rw [h3] at h; cases h; exact .inl rfl
  rw [h3] at h
  simp only at h
  cases h5 : rewriteFks cfg T with
  | error e => rw [h5] at h; cases h; exact .inl (rewriteFks_error h5)
  | ok T₁ =>
    rw [h5] at h
    right
    refine ⟨ign, pass, h2, h4, ?_⟩
    obtain ⟨h6, h7⟩ := rewriteFks_ok hI.tables hI.extra h5
    have hu := rewriteFks_used hI.tables hI.extra h5
    have hsome : ∀ k, (dget T₁ k).isSome ↔ (dget T k).isSome := by
      intro k; rw [dget_isSome_iff, dget_isSome_iff]; rw [h7.keys]
    have href : Ref T₁ = UsedRef cfg T := by
      funext a b; unfold Ref UsedRef; simp only [hu]
    have := planTables_error h6 hI.named
      (fun a fk b hf => (hsome b).2 (hcl a fk b ((hu a fk b).1 hf))) h
    rw [href] at this
    cases e with
    | unselectedTarget s =>
      exact ⟨this.1, fun k hk hs => this.2 k ((hsome k).2 hk) hs⟩
    | constraintColumn a c =>
      obtain ⟨t, ht, h8, h9⟩ := this
      obtain ⟨t', h10, h11⟩ := h7.same a t (h6.get.2 ht)
      refine ⟨t', hI.tables.get.1 h10, ?_, h9⟩
      rw [h11] at h8; exact h8
    | _ => exact this

end Subsetter
