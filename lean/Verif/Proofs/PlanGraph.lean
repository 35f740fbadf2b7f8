import Verif.Proofs.MetaLemmas
import Verif.Proofs.Order
import Verif.Props.Solver

/- The graph the planner builds and the order it gets from the solver. -/
set_option linter.unusedSimpArgs false
namespace Subsetter
open Spec Props

theorem dset_new {κ ν : Type} [DecidableEq κ] {d : Dict κ ν} {k : κ} {v : ν}
    (h : k ∉ d.map Prod.fst) : dset d k v = d ++ [(k, v)] := by
  induction d with
  | nil => rfl
  | cons p d ih =>
    obtain ⟨a, w⟩ := p
    simp only [List.map_cons, List.mem_cons, not_or] at h
    simp [dset, Ne.symm h.1, ih h.2]

section
variable {T : Tables} (hT : TablesOK T) {ex : List Key}
include hT

theorem asGraph_mem {a : Str} {es : List Str} : (a, es) ∈ asGraph T ex ↔
    ∃ k t, (k, t) ∈ T ∧ k ∉ ex ∧ a = k.str ∧
      es = toSet ((t.foreignKeys.filter fun fk =>
        decide (fk.dst ∉ ex) && (dget T fk.dst).isSome).map fun fk => fk.dst.str) := by
  unfold asGraph
  simp only [List.mem_map, List.mem_filter, decide_eq_true_eq]
  constructor
  · rintro ⟨⟨k, t⟩, ⟨h1, h2⟩, h3⟩
    have hk : t.key = k := hT.key_eq k t h1
    simp only at h2 h3
    rw [hk] at h2 h3
    simp only [Prod.mk.injEq] at h3
    exact ⟨k, t, h1, h2, h3.1.symm, h3.2.symm⟩
  · rintro ⟨k, t, h1, h2, rfl, rfl⟩
    have hk : t.key = k := hT.key_eq k t h1
    refine ⟨(k, t), ⟨h1, ?_⟩, ?_⟩
    · simp only; rw [hk]; exact h2
    · simp only; rw [hk]

theorem asGraph_node {a : Str} : Node (asGraph T ex) a ↔
    ∃ k, (dget T k).isSome ∧ k ∉ ex ∧ a = k.str := by
  unfold Node
  have e : a ∈ (asGraph T ex).map Prod.fst ↔ ∃ es, (a, es) ∈ asGraph T ex := by
    simp
  rw [e]
  constructor
  · rintro ⟨es, h⟩
    obtain ⟨k, t, h1, h2, h3, -⟩ := (asGraph_mem hT).1 h
    exact ⟨k, by rw [hT.get.2 h1]; rfl, h2, h3⟩
  · rintro ⟨k, h1, h2, h3⟩
    obtain ⟨t, ht⟩ := Option.isSome_iff_exists.1 h1
    exact ⟨_, (asGraph_mem hT).2 ⟨k, t, hT.get.1 ht, h2, h3, rfl⟩⟩

theorem asGraph_edge {a b : Str} : Edge (asGraph T ex) a b ↔
    ∃ k k', a = k.str ∧ b = k'.str ∧ Ref T k k' ∧ k ∉ ex ∧ k' ∉ ex ∧ (dget T k').isSome := by
  unfold Edge
  constructor
  · rintro ⟨es, h1, h2⟩
    obtain ⟨k, t, h3, h4, h5, rfl⟩ := (asGraph_mem hT).1 h1
    rw [mem_toSet] at h2
    obtain ⟨fk, h6, h7⟩ := List.mem_map.1 h2
    simp only [List.mem_filter, Bool.and_eq_true, decide_eq_true_eq] at h6
    exact ⟨k, fk.dst, h5, h7.symm, ⟨fk, t, h3, h6.1, rfl⟩, h4, h6.2.1, h6.2.2⟩
  · rintro ⟨k, k', rfl, rfl, ⟨fk, t, h1, h2, h3⟩, h4, h5, h6⟩
    have h3' : fk.dst = k' := h3
    refine ⟨_, (asGraph_mem hT).2 ⟨k, t, h1, h4, rfl, rfl⟩, ?_⟩
    rw [mem_toSet]
    refine List.mem_map.2 ⟨fk, ?_, by rw [h3']⟩
    simp only [List.mem_filter, Bool.and_eq_true, decide_eq_true_eq, h3']
    exact ⟨h2, h5, h6⟩

theorem asGraph_keys_nodup : ((asGraph T ex).map Prod.fst).Nodup := by
  unfold asGraph
  rw [List.map_map]
  have h : ((T.filter fun p => decide (p.2.key ∉ ex)).map Prod.fst).Nodup :=
    (List.filter_sublist.map _).nodup hT.keys_nodup
  refine List.Nodup.map_on ?_ (List.Nodup.of_map _ h)
  rintro ⟨k, t⟩ h1 ⟨k', t'⟩ h2 e
  have h1' := (List.mem_filter.1 h1).1
  have h2' := (List.mem_filter.1 h2).1
  simp only [Function.comp] at e
  have hk : t.key = k := hT.key_eq k t h1'
  have hk' : t'.key = k' := hT.key_eq k' t' h2'
  rw [hk, hk'] at e
  have := str_inj (hT.no_dot k t h1') (hT.no_dot k' t' h2') e
  subst this
  have e1 := hT.get.2 h1'
  rw [hT.get.2 h2'] at e1
  cases e1; rfl

theorem nil_not_asGraph : ([] : Str) ∉ (asGraph T ex).map Prod.fst := by
  intro h
  obtain ⟨k, -, -, h1⟩ := (asGraph_node hT).1 h
  exact str_ne_nil k h1.symm

end

section
variable {T : Tables} (hT : TablesOK T) {targets : List Str} {pass ign : List Key}
include hT

theorem planGraph_eq : planGraph T targets pass ign =
    asGraph T (setUnion pass ign) ++ [([], toSet targets)] :=
  dset_new (nil_not_asGraph hT)

theorem planGraph_node {a : Str} : Node (planGraph T targets pass ign) a ↔
    a = [] ∨ ∃ k, (dget T k).isSome ∧ k ∉ pass ∧ k ∉ ign ∧ a = k.str := by
  unfold Node
  rw [planGraph_eq hT, List.map_append, List.mem_append]
  have h := asGraph_node hT (ex := setUnion pass ign) (a := a)
  unfold Node at h
  rw [h]
  simp only [mem_setUnion, not_or, List.map_cons, List.map_nil, List.mem_singleton]
  constructor
  · rintro (⟨k, h1, ⟨h2, h3⟩, h4⟩ | h)
    · exact .inr ⟨k, h1, h2, h3, h4⟩
    · exact .inl h
  · rintro (h | ⟨k, h1, h2, h3, h4⟩)
    · exact .inr h
    · exact .inl ⟨k, h1, ⟨h2, h3⟩, h4⟩

theorem planGraph_edge {a b : Str} : Edge (planGraph T targets pass ign) a b ↔
    (a = [] ∧ b ∈ targets) ∨ ∃ k k', a = k.str ∧ b = k'.str ∧ Ref T k k' ∧
      (k ∉ pass ∧ k ∉ ign) ∧ (k' ∉ pass ∧ k' ∉ ign) ∧ (dget T k').isSome := by
  have h := asGraph_edge hT (ex := setUnion pass ign) (a := a) (b := b)
  simp only [mem_setUnion, not_or] at h
  rw [← h, planGraph_eq hT]
  unfold Edge
  simp only [List.mem_append, List.mem_singleton, Prod.mk.injEq]
  constructor
  · rintro ⟨es, h1 | ⟨rfl, rfl⟩, h2⟩
    · exact .inr ⟨es, h1, h2⟩
    · exact .inl ⟨rfl, mem_toSet.1 h2⟩
  · rintro (⟨rfl, h2⟩ | ⟨es, h1, h2⟩)
    · exact ⟨_, .inr ⟨rfl, rfl⟩, mem_toSet.2 h2⟩
    · exact ⟨es, .inl h1, h2⟩

theorem planGraph_isGraph (ht : ∀ s ∈ targets, Node (planGraph T targets pass ign) s) :
    IsGraph (planGraph T targets pass ign) := by
  refine ⟨?_, ?_, ?_⟩
  · rw [planGraph_eq hT, List.map_append]
    refine List.nodup_append.2 ⟨asGraph_keys_nodup hT, by simp, ?_⟩
    intro a ha b hb e
    simp only [List.map_cons, List.map_nil, List.mem_singleton] at hb
    subst hb; subst e
    exact nil_not_asGraph hT ha
  · intro u es h
    rw [planGraph_eq hT, List.mem_append] at h
    rcases h with h | h
    · obtain ⟨k, t, -, -, -, rfl⟩ := (asGraph_mem hT).1 h
      exact toSet_nodup _
    · simp only [List.mem_singleton, Prod.mk.injEq] at h
      rw [h.2]; exact toSet_nodup _
  · intro u v h
    rcases (planGraph_edge hT).1 h with ⟨-, h⟩ | ⟨k, k', -, rfl, -, -, ⟨h1, h2⟩, h3⟩
    · exact ht v h
    · exact (planGraph_node hT).2 (.inr ⟨k', h3, h1, h2, rfl⟩)

end

/-- What the planner knows about its order. -/
structure OrderFacts (T : Tables) (targets : List Str) (pass ign : List Key) (ord : List Key) :
    Prop where
  nodup : ord.Nodup
  avail : ∀ k ∈ ord, (dget T k).isSome ∧ k ∉ pass ∧ k ∉ ign
  noself : ∀ k ∈ ord, ¬ Ref T k k
  dir : ∀ pre k post, ord = pre ++ k :: post →
    ((k.str ∈ targets ∨ ∃ v ∈ pre, Ref T v k) ∧ ¬ ∃ v ∈ pre, Ref T k v) ∨
    ((∃ v ∈ pre, Ref T k v) ∧ k.str ∉ targets ∧ ¬ ∃ v ∈ pre, Ref T v k)
  targets_mem : ∀ s ∈ targets, ∃ k ∈ ord, k.str = s
  closed : ∀ k ∈ ord, ∀ k', (dget T k').isSome → k' ∉ pass → k' ∉ ign →
    (Ref T k k' ∨ Ref T k' k) → k' ∈ ord
  conn : ∀ k ∈ ord, ∃ k₀ ∈ ord, k₀.str ∈ targets ∧ Relation.ReflTransGen
    (fun a b => (Ref T a b ∨ Ref T b a) ∧ (dget T b).isSome ∧ b ∉ pass ∧ b ∉ ign) k₀ k

theorem ref_isSome {T : Tables} (hT : TablesOK T) {a b : Key} (h : Ref T a b) :
    (dget T a).isSome := by
  obtain ⟨fk, t, h1, -⟩ := h
  rw [hT.get.2 h1]; rfl

theorem before_cons_iff {α : Type} {l : List α} {s v u : α} :
    Before (s :: l) v u ↔ (v = s ∧ u ∈ l) ∨ Before l v u := by
  constructor
  · rintro ⟨l₁, l₂, l₃, h⟩
    cases l₁ with
    | nil =>
      simp only [List.nil_append, List.cons.injEq] at h
      exact .inl ⟨h.1.symm, by rw [h.2]; simp⟩
    | cons a l₁ =>
      simp only [List.cons_append, List.cons.injEq] at h
      exact .inr ⟨l₁, l₂, l₃, h.2⟩
  · rintro (⟨rfl, h⟩ | ⟨l₁, l₂, l₃, h⟩)
    · obtain ⟨a, b, rfl⟩ := List.append_of_mem h
      exact ⟨[], a, b, by simp⟩
    · exact ⟨s :: l₁, l₂, l₃, by simp [h]⟩

theorem before_split {α : Type} {pre post : List α} {k v : α} (hnd : (pre ++ k :: post).Nodup) :
    Before (pre ++ k :: post) v k ↔ v ∈ pre := by
  constructor
  · rintro ⟨l₁, l₂, l₃, h⟩
    have h' : pre ++ k :: post = (l₁ ++ v :: l₂) ++ k :: l₃ := by rw [h]; simp
    have hpre : pre = l₁ ++ v :: l₂ := by
      have h1 : k ∉ pre := by
        intro hk
        have := (List.nodup_append.1 hnd).2.2 k hk k (by simp)
        exact this rfl
      have h2 : k ∉ l₁ ++ v :: l₂ := by
        rw [h'] at hnd
        intro hk
        have := (List.nodup_append.1 hnd).2.2 k hk k (by simp)
        exact this rfl
      clear hnd h
      revert h'
      generalize l₁ ++ v :: l₂ = q at *
      induction pre generalizing q with
      | nil =>
        intro h'
        cases q with
        | nil => rfl
        | cons a q => simp at h' h2; exact absurd h'.1 h2.1
      | cons a pre ih =>
        intro h'
        cases q with
        | nil => simp at h' h1; exact absurd h'.1.symm h1.1
        | cons b q =>
          simp only [List.cons_append, List.cons.injEq] at h'
          simp only [List.mem_cons, not_or] at h1 h2
          rw [h'.1, ih h1.2 q h2.2 h'.2]
    rw [hpre]; simp
  · intro hv
    obtain ⟨a, b, rfl⟩ := List.append_of_mem hv
    exact ⟨a, b, post, by simp⟩

theorem solveOrder_facts {T : Tables} (hT : TablesOK T) {targets : List Str} {pass ign : List Key}
    (hne : [] ∉ targets) {order : List Str} (h : solveOrder T targets pass ign = .ok order) :
    ∃ ord : List Key, order = ord.map Key.str ∧ OrderFacts T targets pass ign ord := by
  unfold solveOrder at h
  simp only at h
  cases hf : targets.find? (fun t => (dget (planGraph T targets pass ign) t).isNone) with
  | some t => rw [hf] at h; cases h
  | none =>
    rw [hf] at h
    simp only at h
    have ht : ∀ s ∈ targets, Node (planGraph T targets pass ign) s := by
      intro s hs
      have := List.find?_eq_none.1 hf s hs
      unfold Node
      rw [← dget_isSome_iff]
      cases h : dget (planGraph T targets pass ign) s <;> simp_all
    have hG := planGraph_isGraph hT ht
    have hs : Node (planGraph T targets pass ign) [] := (planGraph_node hT).2 (.inl rfl)
    have hsrc : ∀ v, ¬ Edge (planGraph T targets pass ign) v [] := by
      intro v hv
      rcases (planGraph_edge hT).1 hv with ⟨-, h⟩ | ⟨k, k', -, h, -⟩
      · exact hne h
      · exact str_ne_nil k' h.symm
    cases ho : orderGraph (planGraph T targets pass ign) sourceNode with
    | error e => rw [ho] at h; cases h
    | ok l =>
      rw [ho] at h
      cases h
      have hso := c01_order_one_direction hG hs hsrc ho
      have hmem := c02_order_exactly_connected hG hs (.inl hsrc) ho
      obtain ⟨⟨hfirst, hnd, hone⟩, hself⟩ := hso
      cases l with
      | nil => simp at hfirst
      | cons a l =>
        simp only [List.head?_cons, Option.some.injEq] at hfirst
        subst hfirst
        simp only [List.tail_cons]
        have hnd' := (List.nodup_cons.1 hnd).2
        have hnil : [] ∉ l := (List.nodup_cons.1 hnd).1
        -- every name is the name of a table
        have hkey : ∀ s ∈ l, ∃ k, (dget T k).isSome ∧ k ∉ pass ∧ k ∉ ign ∧ s = k.str := by
          intro s hs'
          have hc := (hmem s).1 (List.mem_cons_of_mem _ hs')
          have hnode : Node (planGraph T targets pass ign) s := by
            rcases Relation.ReflTransGen.cases_tail hc with h | ⟨b, -, h⟩
            · rw [h]; exact hs
            · rcases h with h | ⟨es, h, -⟩
              · exact hG.closed _ _ h
              · exact List.mem_map_of_mem (f := Prod.fst) h
          rcases (planGraph_node hT).1 hnode with h | h
          · subst h; exact absurd hs' hnil
          · exact h
        have hdot : ∀ k, (dget T k).isSome → '.' ∉ k.1 := by
          intro k hk
          obtain ⟨t, ht⟩ := Option.isSome_iff_exists.1 hk
          exact hT.no_dot k t (hT.get.1 ht)
        let ord : List Key := l.map fun s => (parseTableName s).getD ([], [])
        have hparse : ∀ k, (dget T k).isSome → (parseTableName k.str).getD ([], []) = k := by
          intro k hk; rw [parse_of_nodot (hdot k hk)]; rfl
        have hord : l = ord.map Key.str := by
          rw [List.map_map]
          conv_lhs => rw [← List.map_id l]
          refine List.map_congr_left fun s hs' => ?_
          obtain ⟨k, hk, -, -, rfl⟩ := hkey s hs'
          simp only [Function.comp, id]
          rw [hparse k hk]
        have hin : ∀ k, k ∈ ord → k.str ∈ l := by
          intro k hk; rw [hord]; exact List.mem_map_of_mem hk
        have hav : ∀ k ∈ ord, (dget T k).isSome ∧ k ∉ pass ∧ k ∉ ign := by
          intro k hk
          obtain ⟨s, hs', rfl⟩ := List.mem_map.1 hk
          obtain ⟨k', h1, h2, h3, rfl⟩ := hkey s hs'
          rw [hparse k' h1]
          exact ⟨h1, h2, h3⟩
        have hback : ∀ k, (dget T k).isSome → k.str ∈ l → k ∈ ord := by
          intro k hk hs'
          refine List.mem_map.2 ⟨k.str, hs', ?_⟩
          exact hparse k hk
        have hordnd : ord.Nodup := by
          rw [hord] at hnd'; exact List.Nodup.of_map _ hnd'
        have hstr : ∀ k k', (dget T k).isSome → (dget T k').isSome → k.str = k'.str → k = k' :=
          fun k k' h h' e => str_inj (hdot k h) (hdot k' h') e
        have hedge : ∀ k k', k ∈ ord → k' ∈ ord →
            (Edge (planGraph T targets pass ign) k.str k'.str ↔ Ref T k k') := by
          intro k k' hk hk'
          rw [planGraph_edge hT]
          constructor
          · rintro (⟨h, -⟩ | ⟨a, b, h1, h2, h3, -, -, h4⟩)
            · exact absurd h (str_ne_nil k)
            · rw [hstr k a (hav k hk).1 (ref_isSome hT h3) h1, hstr k' b (hav k' hk').1 h4 h2]
              exact h3
          · intro h
            exact .inr ⟨k, k', rfl, rfl, h, (hav k hk).2, (hav k' hk').2, (hav k' hk').1⟩
        have htarget : ∀ k ∈ ord, (Edge (planGraph T targets pass ign) [] k.str ↔ k.str ∈ targets) := by
          intro k hk
          rw [planGraph_edge hT]
          constructor
          · rintro (⟨-, h⟩ | ⟨a, -, h, -⟩)
            · exact h
            · exact absurd h.symm (str_ne_nil a)
          · intro h; exact .inl ⟨rfl, h⟩
        refine ⟨ord, hord, ⟨hordnd, hav, ?_, ?_, ?_, ?_, ?_⟩⟩
        · intro k hk h
          exact hself k.str (List.mem_cons_of_mem _ (hin k hk)) ((hedge k k hk hk).2 h)
        · intro pre k post he
          have hk : k ∈ ord := by rw [he]; simp
          have hsp : l = pre.map Key.str ++ k.str :: post.map Key.str := by
            rw [hord, he]; simp
          have hbef : ∀ v, Before ([] :: l) v k.str ↔ v = [] ∨ ∃ k' ∈ pre, k'.str = v := by
            intro v
            rw [before_cons_iff]
            have h1 : Before l v k.str ↔ v ∈ pre.map Key.str := by
              rw [hsp] at hnd' ⊢; exact before_split hnd'
            rw [h1, List.mem_map]
            constructor
            · rintro (⟨h, -⟩ | h)
              · exact .inl h
              · exact .inr h
            · rintro (h | h)
              · exact .inl ⟨h, hin k hk⟩
              · exact .inr h
          have hpre : ∀ v ∈ pre, v ∈ ord := by intro v hv; rw [he]; simp [hv]
          have hA : (∃ v, Before ([] :: l) v k.str ∧
              Edge (planGraph T targets pass ign) v k.str) ↔
              (k.str ∈ targets ∨ ∃ v ∈ pre, Ref T v k) := by
            constructor
            · rintro ⟨v, h1, h2⟩
              rcases (hbef v).1 h1 with rfl | ⟨k', hk', rfl⟩
              · exact .inl ((htarget k hk).1 h2)
              · exact .inr ⟨k', hk', (hedge k' k (hpre k' hk') hk).1 h2⟩
            · rintro (h | ⟨k', hk', h⟩)
              · exact ⟨[], (hbef []).2 (.inl rfl), (htarget k hk).2 h⟩
              · exact ⟨k'.str, (hbef _).2 (.inr ⟨k', hk', rfl⟩), (hedge k' k (hpre k' hk') hk).2 h⟩
          have hB : (∃ v, Before ([] :: l) v k.str ∧
              Edge (planGraph T targets pass ign) k.str v) ↔ ∃ v ∈ pre, Ref T k v := by
            constructor
            · rintro ⟨v, h1, h2⟩
              rcases (hbef v).1 h1 with rfl | ⟨k', hk', rfl⟩
              · exact absurd h2 (hsrc _)
              · exact ⟨k', hk', (hedge k k' hk (hpre k' hk')).1 h2⟩
            · rintro ⟨k', hk', h⟩
              exact ⟨k'.str, (hbef _).2 (.inr ⟨k', hk', rfl⟩), (hedge k k' hk (hpre k' hk')).2 h⟩
          have := hone k.str (List.mem_cons_of_mem _ (hin k hk)) (str_ne_nil k)
          rw [hA, hB] at this
          rcases this with h | h
          · exact .inl h
          · refine .inr ⟨h.1, fun h' => h.2 (.inl h'), fun h' => h.2 (.inr h')⟩
        · intro s hs'
          have h1 : s ∈ [] :: l := (hmem s).2
            (Relation.ReflTransGen.single (.inl ((planGraph_edge hT).2 (.inl ⟨rfl, hs'⟩))))
          rcases List.mem_cons.1 h1 with h | h
          · rw [h] at hs'; exact absurd hs' hne
          · rw [hord] at h
            obtain ⟨k, hk, rfl⟩ := List.mem_map.1 h
            exact ⟨k, hk, rfl⟩
        · intro k hk k' h1 h2 h3 h4
          have hc := (hmem k.str).1 (List.mem_cons_of_mem _ (hin k hk))
          have hstep : Edge (planGraph T targets pass ign) k.str k'.str ∨
              Edge (planGraph T targets pass ign) k'.str k.str := by
            rcases h4 with h4 | h4
            · exact .inl ((planGraph_edge hT).2 (.inr ⟨k, k', rfl, rfl, h4, (hav k hk).2, ⟨h2, h3⟩, h1⟩))
            · exact .inr ((planGraph_edge hT).2 (.inr ⟨k', k, rfl, rfl, h4, ⟨h2, h3⟩, (hav k hk).2,
                (hav k hk).1⟩))
          have hc' := (hmem k'.str).2 (hc.tail hstep)
          rcases List.mem_cons.1 hc' with h | h
          · exact absurd h (str_ne_nil k')
          · exact hback k' h1 h
        · -- connectedness
          have key : ∀ s, Connected (planGraph T targets pass ign) sourceNode s → s ≠ [] →
              ∃ k₀ ∈ ord, ∃ k, k.str = s ∧ (dget T k).isSome ∧ k₀.str ∈ targets ∧
                Relation.ReflTransGen (fun a b => (Ref T a b ∨ Ref T b a) ∧
                  (dget T b).isSome ∧ b ∉ pass ∧ b ∉ ign) k₀ k := by
            intro s hc
            induction hc with
            | refl => intro h; exact absurd rfl h
            | @tail b c hb hbc ih =>
              intro hcn
              by_cases hbn : b = []
              · subst hbn
                rcases hbc with h | h
                · have hcl : c ∈ l := by
                    have := (hmem c).2 (hb.tail (.inl h))
                    rcases List.mem_cons.1 this with h | h
                    · exact absurd h hcn
                    · exact h
                  rw [hord] at hcl
                  obtain ⟨k, hk, rfl⟩ := List.mem_map.1 hcl
                  exact ⟨k, hk, k, rfl, (hav k hk).1, (htarget k hk).1 h, .refl⟩
                · exact absurd h (hsrc _)
              · obtain ⟨k₀, hk₀, k, rfl, hk, hk₀t, hpath⟩ := ih hbn
                rcases hbc with h | h
                · rcases (planGraph_edge hT).1 h with ⟨h, -⟩ | ⟨a, b, e1, e2, h3, -, h4, h5⟩
                  · exact absurd h (str_ne_nil k)
                  · have := hstr k a hk (ref_isSome hT h3) e1
                    subst this
                    exact ⟨k₀, hk₀, b, e2.symm, h5, hk₀t, hpath.tail ⟨.inl h3, h5, h4⟩⟩
                · rcases (planGraph_edge hT).1 h with ⟨h, -⟩ | ⟨a, b, e1, e2, h3, h4, -, h5⟩
                  · exact absurd h hcn
                  · have := hstr k b hk h5 e2
                    subst this
                    exact ⟨k₀, hk₀, a, e1.symm, ref_isSome hT h3, hk₀t,
                      hpath.tail ⟨.inr h3, ref_isSome hT h3, h4⟩⟩
          intro k hk
          obtain ⟨k₀, hk₀, k', e, hk', h1, h2⟩ := key k.str
            ((hmem k.str).1 (List.mem_cons_of_mem _ (hin k hk))) (str_ne_nil k)
          rw [hstr k' k hk' (hav k hk).1 e] at h2
          exact ⟨k₀, hk₀, h1, h2⟩

end Subsetter
