import Verif.Proofs.Order

/- Independence of iteration order, and absence of internal errors for every source. -/
namespace Subsetter
open Spec

set_option linter.unusedSectionVars false

section
variable {α : Type u} [LinearOrder α]

theorem SameGraph.symm {G G' : Graph α} (h : SameGraph G G') : SameGraph G' G :=
  ⟨fun u => (h.1 u).symm, fun u v => (h.2 u v).symm⟩

theorem nbr_perm {G G' : Graph α} (hG : IsGraph G) (hG' : IsGraph G') (h : SameGraph G G') (u : α) :
    (nbr G u).Perm (nbr G' u) := by
  rw [List.perm_ext_iff_of_nodup (nbr_nodup hG u) (nbr_nodup hG' u)]
  intro v
  rw [← edge_iff_nbr hG.keys_nodup, ← edge_iff_nbr hG'.keys_nodup, h.2]

theorem done_chain_absurd {G : Graph α} (hG : IsGraph G) {ig : List α} {P : α → Prop}
    {w : Dict α Nat} (hw : Done G ig P w) {R : α → α → Prop}
    (hR : ∀ x y, R x y → Edge G x y) {x y : α} (h : Relation.TransGen R x y) :
    (dget w x).isSome → (∀ a b, R a b → b ∉ ig) → wt w y < wt w x ∧ (dget w y).isSome := by
  intro hx hig
  induction h with
  | single h1 =>
    have := hw.lt hG hx (hR _ _ h1) (hig _ _ h1)
    exact ⟨this.2, this.1⟩
  | tail _ h1 ih =>
    have := hw.lt hG ih.2 (hR _ _ h1) (hig _ _ h1)
    exact ⟨lt_trans this.2 ih.1, this.1⟩

theorem isChain_trans_mem {R : α → α → Prop} (S : α → Prop) : ∀ (l : List α) (a b : α),
    List.IsChain R (a :: (l ++ [b])) → (∀ x ∈ l, S x) → S b →
    Relation.TransGen (fun x y => R x y ∧ S y) a b := by
  intro l
  induction l with
  | nil => intro a b h _ hb; simp at h; exact Relation.TransGen.single ⟨h, hb⟩
  | cons c l ih =>
    intro a b h hS hb
    simp only [List.cons_append, List.isChain_cons_cons] at h
    exact Relation.TransGen.head ⟨h.1, hS c (by simp)⟩
      (ih c b h.2 (fun x hx => hS x (by simp [hx])) hb)

theorem report_absurd {G G' : Graph α} (hG : IsGraph G)
    (hE : ∀ u v, Edge G' u v → Edge G u v) {ig ig' : List α} (hig : ∀ x, x ∈ ig ↔ x ∈ ig')
    {P : α → Prop} {w : Dict α Nat} (hw : Done G ig P w) {e : SolverErr α}
    (h : CycleReport G' ig' (fun x => (dget w x).isSome) e) : False := by
  obtain ⟨c, -, hc, hm⟩ := h
  cases c with
  | nil => exact hc
  | cons a c =>
    have ht := isChain_trans_mem (R := Edge G') (fun x => x ∉ ig) c a a hc
      (fun x hx => by rw [hig]; exact (hm x (by simp [hx])).1)
      (by rw [hig]; exact (hm a (by simp)).1)
    have := done_chain_absurd hG hw (fun x y h => hE _ _ h.1) ht (hm a (by simp)).2.2
      (fun _ _ h => h.2)
    omega

theorem weight_eq {G G' : Graph α} (hG : IsGraph G) (hG' : IsGraph G') (h : SameGraph G G')
    {ig ig' : List α} (hig : ∀ x, x ∈ ig ↔ x ∈ ig') {P P' : α → Prop} {w w' : Dict α Nat}
    (hw : Done G ig P w) (hw' : Done G' ig' P' w')
    (hk : ∀ x, (dget w x).isSome ↔ (dget w' x).isSome) :
    ∀ (n : Nat) (x : α), wt w x ≤ n → wt w x = wt w' x := by
  intro n
  induction n with
  | zero =>
    intro x hx
    by_cases hs : (dget w x).isSome
    · have := (hw.fin x hs).2; omega
    · have hs' : ¬ (dget w' x).isSome := fun h => hs ((hk x).2 h)
      rw [Option.not_isSome_iff_eq_none] at hs hs'
      simp [wt, hs, hs']
  | succ n ih =>
    intro x hx
    by_cases hs : (dget w x).isSome
    · have hs' := (hk x).1 hs
      rw [(hw.fin x hs).2, (hw'.fin x hs').2]
      congr 1
      have hp : (((nbr G x).filter (· ∉ ig)).map (wt w)).Perm
          (((nbr G' x).filter (· ∉ ig')).map (wt w')) := by
        have h1 : (((nbr G x).filter (· ∉ ig)).map (wt w)) =
            (((nbr G x).filter (· ∉ ig')).map (wt w')) := by
          have h2 : (nbr G x).filter (· ∉ ig) = (nbr G x).filter (· ∉ ig') := by
            apply List.filter_congr
            intro y _
            simp [hig]
          rw [← h2]
          apply List.map_congr_left
          intro y hy
          obtain ⟨hy1, hy2⟩ := List.mem_filter.1 hy
          have := (hw.lt hG hs ((edge_iff_nbr hG.keys_nodup).2 hy1) (by simpa using hy2)).2
          exact ih y (by omega)
        rw [h1]
        exact ((nbr_perm hG hG' h x).filter _).map _
      exact hp.sum_nat
    · have hs' : ¬ (dget w' x).isSome := fun h => hs ((hk x).2 h)
      rw [Option.not_isSome_iff_eq_none] at hs hs'
      simp [wt, hs, hs']

theorem sort_eq {w w' : Dict α Nat} (hw : (w.map Prod.fst).Nodup) (hw' : (w'.map Prod.fst).Nodup)
    (hk : ∀ x, (dget w x).isSome ↔ (dget w' x).isSome) (he : ∀ x, wt w x = wt w' x) :
    w.insertionSort weightGe = w'.insertionSort weightGe := by
  have hp : w.Perm w' := by
    rw [List.perm_ext_iff_of_nodup hw.of_map hw'.of_map]
    have key : ∀ (w : Dict α Nat), (w.map Prod.fst).Nodup → ∀ p : α × Nat,
        p ∈ w ↔ (dget w p.1).isSome ∧ wt w p.1 = p.2 := by
      intro w hw p
      constructor
      · intro hp
        have : dget w p.1 = some p.2 := dget_of_mem hw hp
        simp [this, wt]
      · rintro ⟨h1, h2⟩
        obtain ⟨v, hv⟩ := Option.isSome_iff_exists.1 h1
        simp only [wt, hv, Option.getD_some] at h2
        have := dget_some_mem hv
        rw [h2] at this; exact this
    intro p
    rw [key w hw, key w' hw', hk, he]
  refine List.Perm.eq_of_pairwise' (r := weightGe) (List.pairwise_insertionSort weightGe w)
    (List.pairwise_insertionSort weightGe w') ?_
  exact ((List.perm_insertionSort weightGe w).trans hp).trans
    (List.perm_insertionSort weightGe w').symm

theorem toposortReachable_det {G G' : Graph α} (hG : IsGraph G) (hG' : IsGraph G')
    (h : SameGraph G G') {ig ig' : List α} (hig : ∀ x, x ∈ ig ↔ x ∈ ig') {src H : List α}
    (hsrc : ∀ s ∈ src, Node G s ∧ s ∈ ig)
    (hok : toposortReachable G src ig = .ok H) : toposortReachable G' src ig' = .ok H := by
  unfold toposortReachable at hok ⊢
  have h1 := reachSources_spec hG (P := fun _ => True) (by simp) src [] (done_nil G ig _)
    (fun s hs => (hsrc s hs).1) (fun s hs => (hsrc s hs).2) (by simp)
  cases hr : reachSources G ig src [] with
  | error e => rw [hr] at hok; simp at hok
  | ok w =>
    rw [hr] at hok h1
    simp only [Except.ok.injEq] at hok h1
    obtain ⟨hw, -, hsucc⟩ := h1
    have hsrc' : ∀ s ∈ src, Node G' s ∧ s ∈ ig' := fun s hs =>
      ⟨(h.1 s).1 (hsrc s hs).1, (hig s).1 (hsrc s hs).2⟩
    have h2 := reachSources_spec hG' (ig := ig') (P := fun x => (dget w x).isSome)
      (fun x y hx hxy hy => (hw.lt hG hx ((h.2 x y).2 hxy) (by rwa [hig])).1)
      src [] (done_nil G' ig' _) (fun s hs => (hsrc' s hs).1) (fun s hs => (hsrc' s hs).2)
      (fun s hs u hu hui => hsucc s hs u ((h.2 s u).2 hu) (by rwa [hig]))
    cases hr' : reachSources G' ig' src [] with
    | error e =>
      rw [hr'] at h2
      exact (report_absurd hG (fun u v => (h.2 u v).2) hig hw h2).elim
    | ok w' =>
      rw [hr'] at h2
      simp only at h2 ⊢
      obtain ⟨hw', -, hsucc'⟩ := h2
      have h3 := reachSources_spec hG (ig := ig) (P := fun x => (dget w' x).isSome)
        (fun x y hx hxy hy => (hw'.lt hG' hx ((h.2 x y).1 hxy) (by rwa [← hig])).1)
        src [] (done_nil G ig _) (fun s hs => (hsrc s hs).1) (fun s hs => (hsrc s hs).2)
        (fun s hs u hu hui => hsucc' s hs u ((h.2 s u).1 hu) (by rwa [← hig]))
      rw [hr] at h3
      have hk : ∀ x, (dget w x).isSome ↔ (dget w' x).isSome := fun x =>
        ⟨fun hx => (h3.1.good x hx).2.2, fun hx => (hw'.good x hx).2.2⟩
      rw [← hok, sort_eq hw.wnd hw'.wnd hk
        (fun x => weight_eq hG hG' h hig hw hw' hk _ x le_rfl)]

/-- Weak invariant of `while H`: enough for the absence of internal errors. -/
structure WeakInv (A : Graph α) (H vis result : List α) : Prop where
  nodup : result.Nodup
  vis_eq : ∀ x, x ∈ vis ↔ x ∈ result
  node : ∀ x ∈ result, Node A x
  H_sub : ∀ x ∈ H, x ∈ result

theorem WeakInv.next {A B : Graph α} (hN : ∀ u, Node B u ↔ Node A u) {H H' vis result : List α}
    (h : WeakInv A H vis result) (hH : ReachOK A H vis H') :
    WeakInv B H' (setUnion vis H') (result ++ H') := by
  have hfr : ∀ x ∈ H', x ∉ result := fun x hx hr => (hH.fresh x hx).1 ((h.vis_eq x).2 hr)
  refine ⟨?_, ?_, ?_, fun x hx => List.mem_append_right _ hx⟩
  · rw [List.nodup_append]
    refine ⟨h.nodup, hH.nodup, ?_⟩
    rintro x hx y hy rfl
    exact hfr x hy hx
  · intro x; rw [mem_setUnion, List.mem_append, h.vis_eq]
  · intro x hx
    rw [hN]
    rcases List.mem_append.1 hx with hx | hx
    · exact h.node x hx
    · exact (hH.fresh x hx).2

/-- Ends in an order of nodes without repetition that extends `result`, or in a real cycle. -/
theorem orderLoop_weak : ∀ (n : Nat) (A B : Graph α) (H vis result : List α),
    IsGraph A → IsGraph B → (∀ u v, Edge B u v ↔ Edge A v u) → (∀ u, Node B u ↔ Node A u) →
    WeakInv A H vis result → A.length = B.length → (H ≠ [] → A.length + 1 ≤ n + result.length) →
    (∃ l, orderLoop n A B H vis result = .ok l ∧ l.Nodup ∧ (∀ x ∈ l, Node A x) ∧ result <+: l) ∨
    (∃ c, orderLoop n A B H vis result = .error (.cycle c) ∧
      (ClosedChain (Edge A) c ∨ ClosedChain (fun a b => Edge A b a) c)) := by
  intro n
  induction n with
  | zero =>
    intro A B H vis result hA hB hAB hN h hlen hn
    cases H with
    | nil => exact Or.inl ⟨result, by simp [orderLoop], h.nodup, h.node, List.prefix_rfl⟩
    | cons a H =>
      have := hn (by simp)
      have := length_le_of_nodes h.nodup h.node
      omega
  | succ n ih =>
    intro A B H vis result hA hB hAB hN h hlen hn
    cases H with
    | nil => exact Or.inl ⟨result, by simp [orderLoop], h.nodup, h.node, List.prefix_rfl⟩
    | cons a H =>
      have hsrc : ∀ x ∈ a :: H, Node A x ∧ x ∈ vis := fun x hx =>
        ⟨h.node x (h.H_sub x hx), (h.vis_eq x).2 (h.H_sub x hx)⟩
      rcases toposortReachable_cases hA hsrc (P := fun _ => True) (by simp) (by simp) with
        ⟨H', h1, h2, -, -⟩ | ⟨e, h1, c, rfl, h3, -⟩
      · have := ih B A H' _ _ hB hA (fun u v => (hAB v u).symm) (fun u => (hN u).symm)
          (h.next hN h2) hlen.symm (by
            intro hne
            have := List.length_pos_of_ne_nil hne
            rw [List.length_append]
            have := hn (by simp)
            omega)
        simp only [orderLoop, h1]
        rcases this with ⟨l, h5, h6, h7, h8⟩ | ⟨c, h5, h6⟩
        · exact Or.inl ⟨l, h5, h6, fun x hx => (hN x).1 (h7 x hx),
            (List.prefix_append result H').trans h8⟩
        · refine Or.inr ⟨c, h5, ?_⟩
          have e1 : Edge B = fun a b => Edge A b a := by funext a b; exact propext (hAB a b)
          have e2 : (fun a b => Edge B b a) = Edge A := by funext a b; exact propext (hAB b a)
          rw [e2, e1] at h6; exact h6.symm
      · right
        exact ⟨c, by simp only [orderLoop, h1], Or.inl h3⟩

theorem weakInv_init {A : Graph α} {s : α} (hs : Node A s) : WeakInv A [s] [s] [s] :=
  ⟨by simp, by simp, by simpa using hs, by simp⟩

theorem orderGraph_weak {G : Graph α} (hG : IsGraph G) {s : α} (hs : Node G s) :
    (∃ l, orderGraph G s = .ok l ∧ l.Nodup ∧ (∀ x ∈ l, Node G x) ∧ l.head? = some s) ∨
    (∃ c, orderGraph G s = .error (.cycle c) ∧
      (ClosedChain (Edge G) c ∨ ClosedChain (fun a b => Edge G b a) c)) := by
  obtain ⟨RG, h1, h2, h3, h4⟩ := reverseGraph_spec hG false
  have hE : ∀ u v, Edge RG u v ↔ Edge G v u := by intro u v; rw [h4]; simp
  have hN : ∀ u, Node RG u ↔ Node G u := by intro u; unfold Node; rw [h3]
  have hlen : G.length = RG.length := by
    have := congrArg List.length h3; simpa using this.symm
  have hhead : ∀ l : List α, [s] <+: l → l.head? = some s := by
    rintro l ⟨t, rfl⟩; rfl
  simp only [orderGraph, h1, succs_of_node hs]
  by_cases ho : (nbr G s).isEmpty
  · rw [if_pos ho]
    rcases orderLoop_weak (G.length + 1) RG G [s] [s] [s] h2 hG
      (fun u v => (hE v u).symm) (fun u => (hN u).symm)
      (weakInv_init ((hN s).2 hs)) hlen.symm (by intro _; simp; omega) with
      ⟨l, h5, h6, h7, h8⟩ | ⟨c, h5, h6⟩
    · exact Or.inl ⟨l, h5, h6, fun x hx => (hN x).1 (h7 x hx), hhead l h8⟩
    · refine Or.inr ⟨c, h5, ?_⟩
      have e1 : Edge RG = fun a b => Edge G b a := by funext a b; exact propext (hE a b)
      have e2 : (fun a b => Edge RG b a) = Edge G := by funext a b; exact propext (hE b a)
      rw [e2, e1] at h6; exact h6.symm
  · rw [if_neg ho]
    rcases orderLoop_weak (G.length + 1) G RG [s] [s] [s] hG h2 hE hN
      (weakInv_init hs) hlen (by intro _; simp) with ⟨l, h5, h6, h7, h8⟩ | ⟨c, h5, h6⟩
    · exact Or.inl ⟨l, h5, h6, h7, hhead l h8⟩
    · exact Or.inr ⟨c, h5, h6⟩

theorem orderLoop_det : ∀ (n : Nat) (A B A' B' : Graph α) (H vis vis' result l : List α),
    IsGraph A → IsGraph B → IsGraph A' → IsGraph B' →
    (∀ u, Node B u ↔ Node A u) →
    SameGraph A A' → SameGraph B B' → (∀ x, x ∈ vis ↔ x ∈ vis') →
    WeakInv A H vis result →
    orderLoop n A B H vis result = .ok l → orderLoop n A' B' H vis' result = .ok l := by
  intro n
  induction n with
  | zero =>
    intro A B A' B' H vis vis' result l _ _ _ _ _ _ _ _ _ h
    cases H <;> simp_all [orderLoop]
  | succ n ih =>
    intro A B A' B' H vis vis' result l hA hB hA' hB' hN hAA hBB hv hinv h
    cases H with
    | nil => simpa [orderLoop] using h
    | cons a H =>
      simp only [orderLoop] at h ⊢
      have hsrc : ∀ x ∈ a :: H, Node A x ∧ x ∈ vis := fun x hx =>
        ⟨hinv.node x (hinv.H_sub x hx), (hinv.vis_eq x).2 (hinv.H_sub x hx)⟩
      rcases toposortReachable_cases hA hsrc (P := fun _ => True) (by simp) (by simp) with
        ⟨H', h1, h2, -, -⟩ | ⟨e, h1, -⟩
      · rw [h1] at h
        rw [toposortReachable_det hA hA' hAA hv hsrc h1]
        simp only at h ⊢
        exact ih B A B' A' H' _ _ _ l hB hA hB' hA' (fun u => (hN u).symm) hBB hAA
          (fun x => by simp [hv]) (hinv.next hN h2) h
      · rw [h1] at h; simp at h

theorem orderGraph_det {G G' : Graph α} (hG : IsGraph G) (hG' : IsGraph G') (h : SameGraph G G')
    {s : α} {l : List α} (hok : orderGraph G s = .ok l) : orderGraph G' s = .ok l := by
  obtain ⟨RG, h1, h2, h3, h4⟩ := reverseGraph_spec hG false
  obtain ⟨RG', h1', h2', h3', h4'⟩ := reverseGraph_spec hG' false
  have hN : ∀ u, Node RG u ↔ Node G u := by intro u; unfold Node; rw [h3]
  have hN' : ∀ u, Node RG' u ↔ Node G' u := by intro u; unfold Node; rw [h3']
  have hRR : SameGraph RG RG' := by
    refine ⟨fun u => by rw [hN, hN', h.1], fun u v => ?_⟩
    rw [h4, h4']; simp [h.2]
  have hlen : G.length = G'.length := by
    have : (G.map Prod.fst).Perm (G'.map Prod.fst) := by
      rw [List.perm_ext_iff_of_nodup hG.keys_nodup hG'.keys_nodup]; exact h.1
    simpa using this.length_eq
  have hs : Node G s := by
    by_contra hn
    simp only [orderGraph, h1] at hok
    have : dget G s = none := dget_none_iff.2 hn
    simp [succs, this] at hok
  have hs' := (h.1 s).1 hs
  have hem : (nbr G s).isEmpty = (nbr G' s).isEmpty := by
    rw [Bool.eq_iff_iff]
    have := nbr_perm hG hG' h s
    simp only [List.isEmpty_iff]
    constructor
    · intro h0; rw [h0] at this; exact this.nil_eq.symm
    · intro h0; rw [h0] at this; exact this.eq_nil
  simp only [orderGraph, h1, succs_of_node hs] at hok
  simp only [orderGraph, h1', succs_of_node hs', ← hem, ← hlen]
  by_cases ho : (nbr G s).isEmpty
  · rw [if_pos ho] at hok ⊢
    exact orderLoop_det _ RG G RG' G' _ _ _ _ l h2 hG h2' hG' (fun u => (hN u).symm) hRR h
      (fun _ => Iff.rfl) (weakInv_init ((hN s).2 hs)) hok
  · rw [if_neg ho] at hok ⊢
    exact orderLoop_det _ G RG G' RG' _ _ _ _ l hG h2 hG' h2' hN h hRR
      (fun _ => Iff.rfl) (weakInv_init hs) hok

end
end Subsetter
