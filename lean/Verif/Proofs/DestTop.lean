import Verif.Proofs.Create
import Verif.Proofs.DestHistory

/- Truncation, and order of insertion of a prepared destination. -/
namespace Subsetter
open Spec Props

/-- `S` without the rows of the tables `ks`. -/
def DbState.without (S : DbState) (ks : List Key) : DbState := fun k => if k ∈ ks then [] else S k

theorem truncateStates_spec : ∀ {ts : List TableMeta} {S : DbState},
    (∀ X ∈ truncateStates ts S, ∃ pre suf, ts = pre ++ suf ∧ X = S.without (pre.map TableMeta.key)) ∧
    (truncateStates ts S).getLast?.getD S = S.without (ts.map TableMeta.key)
  | [], S => by
    refine ⟨by simp [truncateStates], ?_⟩
    funext k
    simp [truncateStates, DbState.without]
  | t :: ts, S => by
    obtain ⟨h1, h2⟩ := truncateStates_spec (ts := ts) (S := S.set t.key [])
    have hw : ∀ ks, (S.set t.key []).without ks = S.without (t.key :: ks) := by
      intro ks
      funext k
      by_cases e : k = t.key <;> by_cases e' : k ∈ ks <;> simp [DbState.without, DbState.set, e, e']
    refine ⟨fun X hX => ?_, ?_⟩
    · rcases List.mem_cons.1 hX with rfl | hX
      · refine ⟨[t], ts, rfl, ?_⟩
        rw [List.map_cons, List.map_nil, ← hw []]
        funext k
        simp [DbState.without]
      · obtain ⟨pre, suf, h3, h4⟩ := h1 X hX
        exact ⟨t :: pre, suf, by rw [h3]; rfl, by rw [h4, hw]; rfl⟩
    · unfold truncateStates
      rw [List.map_cons, ← hw, ← h2, List.getLast?_cons, Option.getD_some]

theorem PreparedFacts.hasFk {remap : Str → Str} {planned : List Str} {db : Dict Str TableMeta} {x : DestMeta}
    (h : PreparedFacts remap planned db x) {a b : Key} {fk : ForeignKey} (hfk : DbFk db a fk b)
    (ha : ∃ t, (a, t) ∈ x.tables) : HasFk x.tables a fk b := by
  obtain ⟨t, ht⟩ := ha
  obtain ⟨n, t', h1, h2, h3, h4⟩ := hfk
  obtain ⟨n', h5⟩ := h.loads.sub a t ht
  have hk := h.tables.key_eq a t ht
  have e1 := h.name_eq n t' h1
  have e2 := h.name_eq n' t h5
  rw [← hk] at h2
  simp only [Prod.mk.injEq] at h2
  rw [h2.1, h2.2, ← e2] at e1
  subst e1
  have h6 := dget_of_mem h.names h1
  rw [dget_of_mem h.names h5] at h6
  cases h6
  exact ⟨t, ht, h3, h4⟩

theorem PreparedFacts.truncate {remap : Str → Str} {planned : List Str} {db : Dict Str TableMeta} {x : DestMeta}
    (h : PreparedFacts remap planned db x) {S : DbState} {states : List DbState}
    (ht : truncate x S = .ok states) :
    (Intact db S → ∀ X ∈ states, Intact db X) ∧
    (∀ X ∈ states, ∀ k, X k = S k ∨ ((∃ t, (k, t) ∈ x.tables) ∧ X k = [])) ∧
    (∀ k, (∃ t, (k, t) ∈ x.tables) → (states.getLast?.getD S) k = []) ∧
    ∀ k, (¬ ∃ t, (k, t) ∈ x.tables) → (states.getLast?.getD S) k = S k := by
  unfold Subsetter.truncate at ht
  rcases metaToposort_spec h.tables with ⟨ts, h1, h2, h3, h4, -⟩ | ⟨h1, -⟩
  · rw [h1] at ht
    cases ht
    have hmem : ∀ k, k ∈ ts.map TableMeta.key ↔ ∃ t, (k, t) ∈ x.tables := by
      intro k
      constructor
      · intro hk
        obtain ⟨t, g1, rfl⟩ := List.mem_map.1 hk
        obtain ⟨⟨k', t'⟩, g2, rfl⟩ := List.mem_map.1 (h2.mem_iff.1 g1)
        exact ⟨t', by rw [show TableMeta.key t' = k' from h.tables.key_eq k' t' g2]; exact g2⟩
      · rintro ⟨t, g1⟩
        exact List.mem_map.2 ⟨t, h2.mem_iff.2 (List.mem_map.2 ⟨_, g1, rfl⟩), h.tables.key_eq k t g1⟩
    obtain ⟨g1, g2⟩ := truncateStates_spec (ts := ts.reverse) (S := S)
    refine ⟨fun hS X hX a fk b hfk r hr hnn => ?_, fun X hX k => ?_, fun k hk => ?_, fun k hk => ?_⟩
    · obtain ⟨pre, suf, g3, rfl⟩ := g1 X hX
      have ha : a ∉ pre.map TableMeta.key := by
        intro ha
        simp [DbState.without, ha] at hr
      rw [DbState.without, if_neg ha] at hr
      have hb : b ∉ pre.map TableMeta.key := by
        intro hb
        have hbT : ∃ t, (b, t) ∈ x.tables := by
          rw [← hmem, ← List.mem_reverse, ← List.map_reverse, g3, List.map_append]
          exact List.mem_append_left _ hb
        have haT : ∃ t, (a, t) ∈ x.tables := by
          refine h.loads.referring a b ?_ hbT
          obtain ⟨n, t, f1, f2, f3, f4⟩ := hfk
          exact ⟨n, t, fk, f1, f2, f3, f4⟩
        obtain ⟨tb, htb⟩ := hbT
        have hbef := h4 a b ⟨fk, h.hasFk hfk haT⟩ (by rw [dget_of_mem h.tables.keys_nodup htb]; rfl)
        have e : ts.map TableMeta.key = (suf.map TableMeta.key).reverse ++ (pre.map TableMeta.key).reverse := by
          rw [← List.reverse_append, ← List.map_append, ← g3, List.map_reverse, List.reverse_reverse]
        have has : a ∈ suf.map TableMeta.key := by
          have := (hmem a).2 haT
          rw [e] at this
          rcases List.mem_append.1 this with h | h
          · simpa using h
          · exact absurd (by simpa using h) ha
        rw [e] at hbef h3
        exact before_asymm h3 hbef (before_append_mem (by simpa using has) (by simpa using hb))
      obtain ⟨m, f1, f2⟩ := hS a fk b hfk r hr hnn
      exact ⟨m, by rw [DbState.without, if_neg hb]; exact f1, f2⟩
    · obtain ⟨pre, suf, g3, rfl⟩ := g1 X hX
      by_cases hk : k ∈ pre.map TableMeta.key
      · refine .inr ⟨?_, by rw [DbState.without, if_pos hk]⟩
        rw [← hmem, ← List.mem_reverse, ← List.map_reverse, g3, List.map_append]
        exact List.mem_append_left _ hk
      · exact .inl (by rw [DbState.without, if_neg hk])
    · rw [g2, DbState.without, if_pos]
      rw [List.map_reverse, List.mem_reverse, hmem]
      exact hk
    · rw [g2, DbState.without, if_neg]
      rw [List.map_reverse, List.mem_reverse, hmem]
      exact hk
  · rw [h1] at ht; cases ht

theorem destOf_ne_nil {remap : Str → Str} {n : Str} {k : Key} (h : DestOf remap n k) : n ≠ [] := by
  rintro rfl
  obtain ⟨s, t, h1, -⟩ := h
  cases h1

theorem before_of_map {α β : Type*} {f : α → β} {l : List α} {a b : β} (h : Before (l.map f) a b) :
    ∃ x y, Before l x y ∧ f x = a ∧ f y = b := by
  obtain ⟨l1, l2, l3, h⟩ := h
  obtain ⟨m1, m2, rfl, -, h2⟩ := List.map_eq_append_iff.1 h
  obtain ⟨x, m3, rfl, rfl, h3⟩ := List.map_eq_cons_iff.1 h2
  obtain ⟨m4, m5, rfl, -, h4⟩ := List.map_eq_append_iff.1 h3
  obtain ⟨y, m6, rfl, rfl, -⟩ := List.map_eq_cons_iff.1 h4
  exact ⟨x, y, ⟨m1, m4, m6, rfl⟩, rfl, rfl⟩

theorem before_filterMap {α β : Type*} {f : α → Option β} {l : List α} {x y : α} {u v : β} (h : Before l x y)
    (hx : f x = some u) (hy : f y = some v) : Before (l.filterMap f) u v := by
  obtain ⟨l1, l2, l3, rfl⟩ := h
  exact ⟨l1.filterMap f, l2.filterMap f, l3.filterMap f, by simp [List.filterMap_append, List.filterMap_cons, hx, hy]⟩

/-- The order of insertion. -/
theorem PreparedFacts.order {remap : Str → Str} {planned : List Str} {db : Dict Str TableMeta} {x : DestMeta}
    (h : PreparedFacts remap planned db x) {order : List Str} (ho : insertOrder x = .ok order) :
    order.Nodup ∧
    (∀ n, n ∈ order ↔ n ∈ planned ∧ ∃ k, DestOf remap n k ∧ ∃ t, (k, t) ∈ x.tables) ∧
    ∀ a b na nb, DbRef db a b → DestOf remap na a → DestOf remap nb b → na ∈ order → nb ∈ order →
      Before order nb na := by
  unfold insertOrder at ho
  obtain ⟨hnd, hall, hback⟩ := remapped_facts h.remap
  rcases metaToposort_spec h.tables with ⟨ts, h1, h2, h3, h4, -⟩ | ⟨h1, -⟩
  · rw [h1] at ho
    cases ho
    have hname : ∀ t n, (dget x.remapped (TableMeta.key t).str).filter (fun n => !n.isEmpty) = some n ↔
        n ∈ planned ∧ DestOf remap n t.key ∨ (n ∈ planned ∧ ∃ k, DestOf remap n k ∧ k.str = t.key.str) := by
      intro t n
      rw [Option.filter_eq_some_iff]
      constructor
      · rintro ⟨g1, -⟩
        obtain ⟨g2, k, g3, g4⟩ := hback _ _ g1
        exact .inr ⟨g2, k, g3, g4⟩
      · intro hg
        have : n ∈ planned ∧ ∃ k, DestOf remap n k ∧ k.str = t.key.str := by
          rcases hg with ⟨g1, g2⟩ | hg
          · exact ⟨g1, _, g2, rfl⟩
          · exact hg
        obtain ⟨g1, k, g2, g3⟩ := this
        obtain ⟨k', g4, g5⟩ := hall n g1
        rw [destOf_unique g4 g2, g3] at g5
        refine ⟨g5, ?_⟩
        have := destOf_ne_nil g2
        cases n with
        | nil => exact absurd rfl this
        | cons c n => rfl
    have hin : ∀ t ∈ ts, (t.key, t) ∈ x.tables := by
      intro t ht
      obtain ⟨⟨k', t'⟩, g2, rfl⟩ := List.mem_map.1 (h2.mem_iff.1 ht)
      rw [show TableMeta.key t' = k' from h.tables.key_eq k' t' g2]; exact g2
    have hkey : ∀ t ∈ ts, ∀ n, (dget x.remapped (TableMeta.key t).str).filter (fun n => !n.isEmpty) = some n →
        n ∈ planned ∧ DestOf remap n t.key := by
      intro t ht n hn
      rcases (hname t n).1 hn with g | ⟨g1, k, g2, g3⟩
      · exact g
      · refine ⟨g1, ?_⟩
        have : k = t.key := str_inj (destOf_nodot g2) (h.tables.no_dot _ _ (hin t ht)) g3
        rw [← this]; exact g2
    have hmemb : ∀ n, n ∈ ts.filterMap (fun t => (dget x.remapped (TableMeta.key t).str).filter fun n => !n.isEmpty) ↔
        n ∈ planned ∧ ∃ k, DestOf remap n k ∧ ∃ t, (k, t) ∈ x.tables := by
      intro n
      rw [List.mem_filterMap]
      constructor
      · rintro ⟨t, ht, hn⟩
        obtain ⟨g1, g2⟩ := hkey t ht n hn
        exact ⟨g1, _, g2, t, hin t ht⟩
      · rintro ⟨g1, k, g2, t, g3⟩
        have hk : t.key = k := h.tables.key_eq k t g3
        refine ⟨t, h2.mem_iff.2 (List.mem_map.2 ⟨_, g3, rfl⟩), ?_⟩
        rw [hname, hk]
        exact .inl ⟨g1, g2⟩
    refine ⟨?_, hmemb, ?_⟩
    · have hsub : ∀ (ts : List TableMeta), (ts.map TableMeta.key).Nodup → (∀ t ∈ ts, ∀ n,
          (dget x.remapped (TableMeta.key t).str).filter (fun n => !n.isEmpty) = some n → DestOf remap n t.key) →
          (ts.filterMap fun t => (dget x.remapped (TableMeta.key t).str).filter fun n => !n.isEmpty).Nodup := by
        intro ts
        induction ts with
        | nil => intro _ _; simp
        | cons t ts ih =>
          intro g1 g2
          rw [List.map_cons, List.nodup_cons] at g1
          rw [List.filterMap_cons]
          split
          · exact ih g1.2 fun t ht => g2 t (by simp [ht])
          · rename_i n hn
            rw [List.nodup_cons]
            refine ⟨fun hm => ?_, ih g1.2 fun t ht => g2 t (by simp [ht])⟩
            obtain ⟨t', g3, g4⟩ := List.mem_filterMap.1 hm
            have e := destOf_unique (g2 t (by simp) n hn) (g2 t' (by simp [g3]) n g4)
            exact g1.1 (List.mem_map.2 ⟨t', g3, e.symm⟩)
      exact hsub ts h3 fun t ht n hn => (hkey t ht n hn).2
    · intro a b na nb hab hda hdb' hna hnb
      obtain ⟨-, ka, g1, ta, g2⟩ := (hmemb na).1 hna
      obtain ⟨-, kb, g3, tb, g4⟩ := (hmemb nb).1 hnb
      rw [destOf_unique g1 hda] at g2
      rw [destOf_unique g3 hdb'] at g4
      obtain ⟨n, t, fk, f1, f2, f3, f4⟩ := hab
      have hbef := h4 a b ⟨fk, h.hasFk ⟨n, t, f1, f2, f3, f4⟩ ⟨ta, g2⟩⟩
        (by rw [dget_of_mem h.tables.keys_nodup g4]; rfl)
      have hta : TableMeta.key ta = a := h.tables.key_eq a ta g2
      have htb : TableMeta.key tb = b := h.tables.key_eq b tb g4
      obtain ⟨tb', ta', hb1, e1, e2⟩ := before_of_map hbef
      refine before_filterMap hb1 ?_ ?_
      · rw [hname, e1]; exact .inl ⟨((hmemb nb).1 hnb).1, hdb'⟩
      · rw [hname, e2]; exact .inl ⟨((hmemb na).1 hna).1, hda⟩
  · rw [h1] at ho; cases ho

theorem finished_of_before {jobs : List TableJob} {writes : List (Key × List (List (List Val)))}
    {err : Option DestErr} (hk : (jobs.map TableJob.key).Nodup)
    (hp : writes.map Prod.fst <+: jobs.map TableJob.key) {a b : Key} (ha : a ∈ writes.map Prod.fst)
    (h : Before (jobs.map TableJob.key) b a) : Finished writes err b := by
  right
  obtain ⟨post, e⟩ := hp
  obtain ⟨l1, l2, l3, e2⟩ := h
  obtain ⟨p1, p2, e3⟩ := List.append_of_mem ha
  have hnd : ((p1 ++ a :: p2) ++ post).Nodup := by rw [← e3, e]; exact hk
  have hb : b ∈ p1 := by
    have h1 : (p1 ++ a :: (p2 ++ post)).Nodup := by simpa using hnd
    refine (before_split h1).1 ?_
    refine ⟨l1, l2, l3, ?_⟩
    rw [← e2, ← e, e3]
    simp
  obtain ⟨q1, q2, rfl⟩ := List.append_of_mem hb
  rw [List.append_assoc, List.cons_append] at e3
  obtain ⟨w, w', rfl, -, h2⟩ := List.map_eq_append_iff.1 e3
  obtain ⟨⟨b', bs⟩, rest, rfl, rfl, h3⟩ := List.map_eq_cons_iff.1 h2
  refine ⟨w, bs, rest, rfl, ?_⟩
  rintro rfl
  simp at h3

theorem writtenTo_mem {jobs : List TableJob} {writes : List (Key × List (List (List Val)))} {k : Key} {r : Row}
    (h : WrittenTo jobs writes k r) : k ∈ writes.map Prod.fst := by
  obtain ⟨j, -, -, bs, h1, -⟩ := h
  exact List.mem_map.2 ⟨_, h1, rfl⟩

theorem keys_of_order {remap : Str → Str} {order : List Str} {jobs : List TableJob}
    (h : List.Forall₂ (fun n j => DestOf remap n (TableJob.key j)) order jobs) (hnd : order.Nodup)
    (hinj : ∀ n n' k, n ∈ order → n' ∈ order → DestOf remap n k → DestOf remap n' k → n = n') :
    (jobs.map TableJob.key).Nodup ∧
    ∀ n n', Before order n n' → ∀ k k', DestOf remap n k → DestOf remap n' k' →
      Before (jobs.map TableJob.key) k k' := by
  induction h with
  | nil =>
    refine ⟨by simp, ?_⟩
    rintro n n' ⟨l1, l2, l3, h⟩
    simp at h
  | @cons n j order jobs h1 h2 ih =>
    rw [List.nodup_cons] at hnd
    obtain ⟨ih1, ih2⟩ := ih hnd.2 fun n n' k hn hn' => hinj n n' k (by simp [hn]) (by simp [hn'])
    refine ⟨?_, ?_⟩
    · rw [List.map_cons, List.nodup_cons]
      refine ⟨fun hm => ?_, ih1⟩
      obtain ⟨j', g1, g2⟩ := List.mem_map.1 hm
      obtain ⟨n', g3, g4⟩ := forall₂_mem_right h2 g1
      rw [g2] at g4
      exact hnd.1 (hinj n n' _ (by simp) (by simp [g3]) h1 g4 ▸ g3)
    · intro m m' hb k k' hk hk'
      rw [List.map_cons, before_cons_iff]
      rcases before_cons_iff.1 hb with ⟨rfl, g1⟩ | g1
      · left
        refine ⟨destOf_unique hk h1, ?_⟩
        obtain ⟨j', g2, g3⟩ := forall₂_mem_left h2 g1
        exact List.mem_map.2 ⟨j', g2, destOf_unique g3 hk'⟩
      · exact .inr (ih2 m m' g1 k k' hk hk')

/-- Writing in the order of insertion keeps all foreign keys intact. -/
theorem PreparedFacts.insertion {σ : Type} {W : Outside σ Val} {dialect : Dialect} {remap : Str → Str}
    {planned : List Str} {db : Dict Str TableMeta} {x : DestMeta} (h : PreparedFacts remap planned db x)
    {order : List Str} (ho : insertOrder x = .ok order) {jobs : List TableJob}
    (hj : List.Forall₂ (fun n j => DestOf remap n (TableJob.key j)) order jobs)
    (hok : ∀ j ∈ jobs, JobOK W j) (hkept : KeysKept db jobs) {S0 : DbState}
    (hold : ∀ j ∈ jobs, TableHolds j.input.dest (S0 j.key)) (h0 : Intact db S0) {s : σ}
    {hist : List DbState} {writes : List (Key × List (List (List Val)))} {err : Option DestErr}
    (hrun : copyTables W dialect jobs [S0] s = (hist, writes, err))
    (hcl : WritesClosed db jobs S0 writes err) : ∀ X ∈ hist, Intact db X := by
  obtain ⟨g1, g2, g3⟩ := h.order ho
  have hinj : ∀ n n' k, n ∈ order → n' ∈ order → DestOf remap n k → DestOf remap n' k → n = n' :=
    fun n n' k hn hn' => remapped_inj h.remap ((g2 n).1 hn).1 ((g2 n').1 hn').1
  obtain ⟨g4, g5⟩ := keys_of_order hj g1 hinj
  have hord : ∀ a fk b, DbFk db a fk b → a ∈ jobs.map TableJob.key → b ∈ jobs.map TableJob.key →
      Before (jobs.map TableJob.key) b a := by
    intro a fk b hfk ha hb
    obtain ⟨ja, f1, rfl⟩ := List.mem_map.1 ha
    obtain ⟨jb, f2, rfl⟩ := List.mem_map.1 hb
    obtain ⟨na, f3, f4⟩ := forall₂_mem_right hj f1
    obtain ⟨nb, f5, f6⟩ := forall₂_mem_right hj f2
    obtain ⟨n, t, e1, e2, e3, e4⟩ := hfk
    exact g5 nb na (g3 _ _ na nb ⟨n, t, fk, e1, e2, e3, e4⟩ f4 f6 f3 f5) _ _ f6 f4
  obtain ⟨k1, k2⟩ := copyTables_inv g4 hkept hok (fun j hj => hj) (winv_init hold) hrun
  intro X hX
  rcases k2 X hX with h1 | ⟨done1, k, bs', bs, rest, f1, f2, f3⟩
  · rw [List.mem_singleton] at h1
    rw [h1]; exact h0
  · rw [List.nil_append] at f3
    refine WInv.intact g4 hord h0 k1 ?_ f1 f2 f3
    intro a r hr fk b hfk hnn
    rcases hcl a r hr fk b hfk hnn with ⟨m, e1, e2⟩ | ⟨⟨j, e1, rfl⟩, e2⟩
    · exact ⟨m, .inl e1, e2⟩
    · have ha := writtenTo_mem hr
      obtain ⟨m, e3, e4⟩ := e2 (finished_of_before g4 k1 ha
        (hord a fk _ hfk (k1.subset ha) (List.mem_map.2 ⟨j, e1, rfl⟩)))
      exact ⟨m, .inr e3, e4⟩

end Subsetter
