import Verif.Proofs.MetaLemmas
import Verif.Proofs.Names
import Batteries.Data.List.Perm

/- The tables loaded by `from_engine`. -/
set_option linter.unusedSimpArgs false
namespace Subsetter
open Spec

theorem mem_tableDeps {db : Dict Str TableMeta} {fwd bwd : Bool} {k x : Key} :
    x ∈ tableDeps db fwd bwd k ↔ Pulls db fwd bwd k x := by
  unfold tableDeps Pulls DbRef
  simp only [List.mem_flatMap, List.mem_append]
  constructor
  · rintro ⟨⟨n, t⟩, h1, fk, h2, h3 | h3⟩
    · by_cases hc : (fwd && decide (t.key = k)) = true
      · rw [if_pos hc] at h3
        simp only [Bool.and_eq_true, decide_eq_true_eq] at hc
        simp only [List.mem_singleton] at h3
        exact .inl ⟨hc.1, n, t, fk, h1, hc.2, h2, h3.symm⟩
      · rw [if_neg hc] at h3; cases h3
    · by_cases hc : (bwd && decide (fk.dst = k)) = true
      · rw [if_pos hc] at h3
        simp only [Bool.and_eq_true, decide_eq_true_eq] at hc
        simp only [List.mem_singleton] at h3
        exact .inr ⟨hc.1, n, t, fk, h1, h3.symm, h2, hc.2⟩
      · rw [if_neg hc] at h3; cases h3
  · rintro (⟨hf, n, t, fk, h1, h2, h3, h4⟩ | ⟨hf, n, t, fk, h1, h2, h3, h4⟩)
    · refine ⟨(n, t), h1, fk, h3, .inl ?_⟩
      rw [if_pos (by simp only [Bool.and_eq_true, decide_eq_true_eq]; exact ⟨hf, h2⟩)]
      exact List.mem_singleton.2 h4.symm
    · refine ⟨(n, t), h1, fk, h3, .inr ?_⟩
      rw [if_pos (by simp only [Bool.and_eq_true, decide_eq_true_eq]; exact ⟨hf, h4⟩)]
      exact List.mem_singleton.2 h2.symm

theorem closeInner_spec : ∀ (ds seen new : List Key), ∃ add,
    (closeInner ds seen new).2 = new ++ add ∧ add.Nodup ∧ (∀ x ∈ add, x ∉ seen ∧ x ∈ ds) ∧
    (∀ x ∈ ds, x ∈ seen ∨ x ∈ add) ∧
    ∀ x, x ∈ (closeInner ds seen new).1 ↔ x ∈ seen ∨ x ∈ add := by
  intro ds
  induction ds with
  | nil => intro seen new; exact ⟨[], by simp [closeInner]⟩
  | cons d ds ih =>
    intro seen new
    rw [closeInner]
    by_cases hd : d ∈ seen
    · rw [if_pos hd]
      obtain ⟨add, h1, h2, h3, h4, h5⟩ := ih seen new
      refine ⟨add, h1, h2, fun x hx => ⟨(h3 x hx).1, List.mem_cons_of_mem _ (h3 x hx).2⟩, ?_, h5⟩
      intro x hx
      rcases List.mem_cons.1 hx with rfl | hx
      · exact .inl hd
      · exact h4 x hx
    · rw [if_neg hd]
      obtain ⟨add, h1, h2, h3, h4, h5⟩ := ih (d :: seen) (new ++ [d])
      refine ⟨d :: add, by rw [h1]; simp, ?_, ?_, ?_, ?_⟩
      · refine List.nodup_cons.2 ⟨fun h => (h3 d h).1 (by simp), h2⟩
      · intro x hx
        rcases List.mem_cons.1 hx with rfl | hx
        · exact ⟨hd, by simp⟩
        · obtain ⟨h6, h7⟩ := h3 x hx
          simp only [List.mem_cons, not_or] at h6
          exact ⟨h6.2, List.mem_cons_of_mem _ h7⟩
      · intro x hx
        rcases List.mem_cons.1 hx with rfl | hx
        · exact .inr (by simp)
        · rcases h4 x hx with h | h
          · rcases List.mem_cons.1 h with rfl | h
            · exact .inr (by simp)
            · exact .inl h
          · exact .inr (List.mem_cons_of_mem _ h)
      · intro x
        rw [h5]
        simp only [List.mem_cons]
        tauto

/-- The loop returns the closure, or fails on a reachable table that does not exist. -/
theorem closeLoop_spec {db : Dict Str TableMeta} {fwd bwd : Bool} {R : Key → Prop}
    (hR : ∀ a b, R a → Pulls db fwd bwd a b → R b)
    (hinj : ∀ a b, R a → R b → a.str = b.str → a = b) :
    ∀ (n : Nat) (seen done todo : List Key),
    (done ++ todo).Nodup → (∀ x, x ∈ seen ↔ x ∈ done ++ todo) →
    (∀ x ∈ done, ∀ y, Pulls db fwd bwd x y → y ∈ done ++ todo) →
    (∀ x ∈ done ++ todo, R x) → (∀ x ∈ done, x.str ∈ dkeys db) →
    db.length < n + done.length →
    (∃ rest, closeLoop db fwd bwd n seen done todo = some (some (done ++ todo ++ rest)) ∧
      (done ++ todo ++ rest).Nodup ∧
      (∀ x ∈ done ++ todo ++ rest, R x ∧ x.str ∈ dkeys db ∧
        ∀ y, Pulls db fwd bwd x y → y ∈ done ++ todo ++ rest) ∧
      ∀ Q : Key → Prop, (∀ x ∈ done ++ todo, Q x) → (∀ a b, Q a → Pulls db fwd bwd a b → Q b) →
        ∀ x ∈ done ++ todo ++ rest, Q x) ∨
    (closeLoop db fwd bwd n seen done todo = none ∧ ∃ k, R k ∧ k.str ∉ dkeys db) := by
  intro n
  have hlen : ∀ done : List Key, done.Nodup → (∀ x ∈ done, R x) → (∀ x ∈ done, x.str ∈ dkeys db) →
      done.length ≤ db.length := by
    intro done h1 h2 h3
    have h4 : (done.map Key.str).Nodup :=
      List.Nodup.map_on (fun a ha b hb e => hinj a b (h2 a ha) (h2 b hb) e) h1
    have h5 : (done.map Key.str) ⊆ dkeys db := by
      intro s hs; obtain ⟨k, hk, rfl⟩ := List.mem_map.1 hs; exact h3 k hk
    have := (List.subperm_of_subset h4 h5).length_le
    simpa [dkeys] using this
  have hdone : ∀ (m : Nat) (seen done : List Key), done.Nodup →
      (∀ x ∈ done, ∀ y, Pulls db fwd bwd x y → y ∈ done) →
      (∀ x ∈ done, R x) → (∀ x ∈ done, x.str ∈ dkeys db) →
      (∃ rest, closeLoop db fwd bwd m seen done [] = some (some (done ++ [] ++ rest)) ∧
      (done ++ [] ++ rest).Nodup ∧
      (∀ x ∈ done ++ [] ++ rest, R x ∧ x.str ∈ dkeys db ∧
        ∀ y, Pulls db fwd bwd x y → y ∈ done ++ [] ++ rest) ∧
      ∀ Q : Key → Prop, (∀ x ∈ done ++ [], Q x) → (∀ a b, Q a → Pulls db fwd bwd a b → Q b) →
        ∀ x ∈ done ++ [] ++ rest, Q x) := by
    intro m seen done h1 h2 h3 h4
    refine ⟨[], ?_, by simpa using h1, ?_, ?_⟩
    · cases m <;> simp [closeLoop]
    · intro x hx
      simp only [List.append_nil] at hx ⊢
      exact ⟨h3 x hx, h4 x hx, h2 x hx⟩
    · intro Q hQ _ x hx
      exact hQ x (by simpa using hx)
  induction n with
  | zero =>
    intro seen done todo h1 h2 h3 h4 h5 h6
    exfalso
    have := hlen done (List.nodup_append.1 h1).1 (fun x hx => h4 x (by simp [hx])) h5
    omega
  | succ n ih =>
    intro seen done todo h1 h2 h3 h4 h5 h6
    cases todo with
    | nil =>
      left
      exact hdone (n + 1) seen done (by simpa using h1) (by simpa using h3) (by simpa using h4) h5
    | cons k todo =>
      have hk : R k := h4 k (by simp)
      rw [closeLoop]
      cases hg : dget db k.str with
      | none =>
        right
        exact ⟨rfl, k, hk, dget_none_iff.1 hg⟩
      | some t =>
        have hkin : k.str ∈ dkeys db := dget_isSome_iff.1 (by rw [hg]; rfl)
        simp only
        obtain ⟨add, a1, a2, a3, a4, a5⟩ := closeInner_spec (tableDeps db fwd bwd k) seen []
        revert a1 a5
        generalize closeInner (tableDeps db fwd bwd k) seen [] = r
        obtain ⟨seen', new⟩ := r
        simp only [List.nil_append]
        rintro rfl a5
        have e : (done ++ [k]) ++ (todo ++ new) = (done ++ k :: todo) ++ new := by simp
        have hnew : ∀ x ∈ new, R x := fun x hx => hR k x hk (mem_tableDeps.1 (a3 x hx).2)
        have hnew' : ∀ x ∈ new, Pulls db fwd bwd k x := fun x hx => mem_tableDeps.1 (a3 x hx).2
        have := ih seen' (done ++ [k]) (todo ++ new) (by
            rw [e]
            refine List.nodup_append.2 ⟨h1, a2, ?_⟩
            rintro x hx y hy rfl
            exact (a3 x hy).1 ((h2 x).2 hx))
          (by intro x; rw [e, a5, h2]; simp only [List.mem_append])
          (by
            intro x hx y hxy
            rw [e]
            rcases List.mem_append.1 hx with hx | hx
            · exact List.mem_append.2 (.inl (h3 x hx y hxy))
            · simp only [List.mem_singleton] at hx
              subst hx
              rcases a4 y (mem_tableDeps.2 hxy) with h | h
              · exact List.mem_append.2 (.inl ((h2 y).1 h))
              · exact List.mem_append.2 (.inr h))
          (by
            intro x hx
            rw [e] at hx
            rcases List.mem_append.1 hx with hx | hx
            · exact h4 x hx
            · exact hnew x hx)
          (by
            intro x hx
            rcases List.mem_append.1 hx with hx | hx
            · exact h5 x hx
            · simp only [List.mem_singleton] at hx
              subst hx; exact hkin)
          (by simp only [List.length_append, List.length_cons, List.length_nil]; omega)
        rcases this with ⟨rest, b1, b2, b3, b4⟩ | h
        · left
          have e2 : done ++ [k] ++ (todo ++ new) ++ rest = done ++ k :: todo ++ (new ++ rest) := by
            simp
          rw [e2] at b1 b2 b3 b4
          refine ⟨new ++ rest, b1, b2, b3, fun Q hQ hQs => b4 Q (fun x hx => ?_) hQs⟩
          rw [e] at hx
          rcases List.mem_append.1 hx with hx | hx
          · exact hQ x hx
          · exact hQs k x (hQ k (by simp)) (hnew' x hx)
        · exact .inr h

theorem mem_selectedKeys {fnmatch : Str → Str → Bool} {db : Dict Str TableMeta} {select : List Str}
    {k : Key} : k ∈ selectedKeys fnmatch db select ↔ Selected fnmatch db select k := by
  unfold selectedKeys Selected
  simp only [List.mem_map, List.mem_filter, List.any_eq_true]
  constructor
  · rintro ⟨⟨n, t⟩, ⟨h1, pat, h2, h3⟩, h4⟩
    exact ⟨n, t, h1, h4, pat, h2, h3⟩
  · rintro ⟨n, t, h1, h4, pat, h2, h3⟩
    exact ⟨(n, t), ⟨h1, pat, h2, h3⟩, h4⟩

theorem Spec.DbOK.str_mem {db : Dict Str TableMeta} (hdb : DbOK db) {k : Key} (hk : '.' ∉ k.1) :
    k.str ∈ dkeys db ↔ InDb db k := by
  constructor
  · intro h
    obtain ⟨⟨n, t⟩, h1, h2⟩ := List.mem_map.1 h
    have h3 : n = t.key.str := hdb.name_eq n t h1
    have h4 : n = k.str := h2
    exact ⟨n, t, h1, str_inj (hdb.no_dot n t h1) hk (by rw [← h4, h3]; rfl)⟩
  · rintro ⟨n, t, h1, rfl⟩
    refine List.mem_map.2 ⟨(n, t), h1, hdb.name_eq n t h1⟩

theorem selectedKeys_nodup {fnmatch : Str → Str → Bool} {db : Dict Str TableMeta} (hdb : DbOK db)
    {select : List Str} : (selectedKeys fnmatch db select).Nodup := by
  unfold selectedKeys
  have h1 : (db.map fun p => p.2.key).Nodup := by
    refine List.Nodup.of_map Key.str ?_
    have : (db.map fun p => p.2.key).map Key.str = db.map Prod.fst := by
      rw [List.map_map]
      exact List.map_congr_left fun p hp => (hdb.name_eq p.1 p.2 hp).symm
    rw [this]; exact hdb.names_nodup
  exact h1.sublist ((List.filter_sublist (l := db)).map _)

/-- What `from_engine` loads. -/
theorem fromEngine_spec {fnmatch : Str → Str → Bool} {db : Dict Str TableMeta} (hdb : DbOK db)
    (select : List Str) (fwd bwd : Bool) :
    (∃ l, fromEngine fnmatch db select fwd bwd = some (some l) ∧ (l.tables.map Prod.fst).Nodup ∧
      l.tables.map Prod.fst = selectedKeys fnmatch db select ++ l.extra ∧
      (∀ k t, (k, t) ∈ l.tables → (∃ n, (n, t) ∈ db) ∧ (t.schema, t.name) = k) ∧
      ∀ k, k ∈ l.tables.map Prod.fst ↔
        ∃ s, Selected fnmatch db select s ∧ Relation.ReflTransGen (Pulls db fwd bwd) s k) ∨
    (fromEngine fnmatch db select fwd bwd = none ∧ ∃ s k, Selected fnmatch db select s ∧
      Relation.ReflTransGen (Pulls db fwd bwd) s k ∧ ¬ InDb db k) := by
  unfold fromEngine
  simp only
  have hdotsel : ∀ s, Selected fnmatch db select s → '.' ∉ s.1 := by
    rintro s ⟨n, t, h1, rfl, -⟩; exact hdb.no_dot n t h1
  have hdotpull : ∀ a b, Pulls db fwd bwd a b → '.' ∉ b.1 := by
    rintro a b (⟨-, n, t, fk, h1, h2, h3, rfl⟩ | ⟨-, n, t, fk, h1, rfl, h3, h4⟩)
    · exact (hdb.fk_cols n t h1 fk h3).2.2
    · exact hdb.no_dot n t h1
  let R : Key → Prop := fun k =>
    ∃ s, Selected fnmatch db select s ∧ Relation.ReflTransGen (Pulls db fwd bwd) s k
  have hRdot : ∀ k, R k → '.' ∉ k.1 := by
    rintro k ⟨s, h1, h2⟩
    rcases Relation.ReflTransGen.cases_tail h2 with h | ⟨c, -, h⟩
    · rw [h]; exact hdotsel s h1
    · exact hdotpull _ _ h
  have := closeLoop_spec (R := R) (db := db) (fwd := fwd) (bwd := bwd)
    (fun a b ⟨s, h1, h2⟩ hab => ⟨s, h1, h2.tail hab⟩)
    (fun a b ha hb e => str_inj (hRdot a ha) (hRdot b hb) e)
    (db.length + 1) (selectedKeys fnmatch db select) [] (selectedKeys fnmatch db select)
    (by simpa using selectedKeys_nodup hdb) (by simp) (by simp)
    (by
      intro x hx
      exact ⟨x, mem_selectedKeys.1 (by simpa using hx), .refl⟩) (by simp) (by simp)
  rcases this with ⟨rest, h1, h2, h3, h4⟩ | ⟨h1, k, ⟨s, h2, h3⟩, h4⟩
  · left
    rw [h1]
    simp only [List.nil_append] at h1 h2 h3 h4 ⊢
    have hm : ∀ (q : List Key), (∀ x ∈ q, x.str ∈ dkeys db) →
        ∃ T : Tables, q.mapM (fun k => (dget db k.str).map fun t => (k, t)) = some T ∧
          T.map Prod.fst = q ∧ ∀ k t, (k, t) ∈ T → dget db k.str = some t := by
      intro q
      induction q with
      | nil => intro _; exact ⟨[], rfl, rfl, by simp⟩
      | cons x q ih =>
        intro h
        obtain ⟨T, e1, e2, e3⟩ := ih fun y hy => h y (List.mem_cons_of_mem _ hy)
        obtain ⟨t, e4⟩ := Option.isSome_iff_exists.1 (dget_isSome_iff.2 (h x (by simp)))
        refine ⟨(x, t) :: T, ?_, by simp [e2], ?_⟩
        · simp [List.mapM_cons, e4, e1]
        · intro k t' hk
          rcases List.mem_cons.1 hk with hk | hk
          · cases hk; exact e4
          · exact e3 k t' hk
    obtain ⟨T, e1, e2, e3⟩ := hm _ fun x hx => (h3 x hx).2.1
    rw [e1]
    refine ⟨_, rfl, by rw [e2]; exact h2, ?_, ?_, ?_⟩
    · simp only; rw [e2]; simp
    · intro k t hk
      have hkin : k ∈ selectedKeys fnmatch db select ++ rest := by
        rw [← e2]; exact List.mem_map_of_mem (f := Prod.fst) hk
      have hkdot := hRdot k (h3 k hkin).1
      have hmem := dget_some_mem (e3 k t hk)
      refine ⟨⟨_, hmem⟩, ?_⟩
      have hn : k.str = t.key.str := hdb.name_eq _ t hmem
      exact (str_inj hkdot (hdb.no_dot _ t hmem) hn).symm
    · intro k
      simp only [e2]
      constructor
      · intro hk; exact (h3 k hk).1
      · rintro ⟨s, hs, hsk⟩
        induction hsk with
        | refl => exact List.mem_append.2 (.inl (mem_selectedKeys.2 hs))
        | tail _ hab ih => exact (h3 _ ih).2.2 _ hab
  · right
    rw [h1]
    refine ⟨rfl, s, k, h2, h3, fun hin => h4 ((hdb.str_mem ?_).2 hin)⟩
    exact hRdot k ⟨s, h2, h3⟩

end Subsetter
