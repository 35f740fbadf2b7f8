import Verif.Proofs.CanPlan
import Verif.Props.PlanClosed

/-
Property C88: exactly which configurations can be planned, and exactly which tables a plan has.
-/
namespace Subsetter.Props
open Subsetter Spec

/-- C88. The tables of a plan are the loaded passthrough tables and the tables linked to a target. -/
theorem c88_planned {cfg : PlannerConfig} {T : Tables} (hI : Input cfg T) {p : Plan} (h : planInternal cfg T = .ok p)
    (k : Key) : (∃ q, Planned p k q) ↔ (Named cfg.passthrough k ∧ k ∈ T.map Prod.fst) ∨ Linked cfg T k := by
  obtain ⟨ign, pass, T₁, T₂, found, ord, hp⟩ := planning hI h
  rw [hp.planned_iff, List.mem_append, hp.mem_found, hp.pass_iff, hp.isSome_iff, dget_isSome_iff, hp.linked_iff]

/-- C88, one direction: what holds if a plan was made, whatever constraints are configured. -/
theorem c88_needed {cfg : PlannerConfig} {T : Tables} (hI : Input cfg T) {p : Plan} (h : planInternal cfg T = .ok p) :
    CanPlan cfg T := by
  obtain ⟨ign, pass, T₁, T₂, found, ord, hp⟩ := planning hI h
  have hsrc : ∀ a b, UsedRef cfg T a b → (dget T a).isSome := fun a b hab =>
    hp.isSome_iff.1 (ref_isSome hp.ok (hp.ref_iff.2 hab))
  refine ⟨planInternal_names h, fun s hs => ?_, fun k hk hc => ?_, fun hinc a b hab hb => ?_, fun a b hab ha => ?_,
    fun a b hab => ?_⟩
  · obtain ⟨k, h1, h2⟩ := hp.shape.order.targets_mem s hs
    obtain ⟨h3, h4, h5⟩ := hp.shape.order.avail k h1
    refine ⟨k, h2, ?_, fun hn => h4 (hp.mem_found.2 ⟨(hp.pass_iff k).2 hn, h3⟩), fun hn => h5 ((hp.ign_iff k).2 hn)⟩
    rw [← dget_isSome_iff]; exact hp.isSome_iff.1 h3
  · have hord : Ordinary cfg T k := by
      obtain ⟨b, hb, -⟩ := Relation.TransGen.head'_iff.1 hc
      exact hb.2.1
    refine hord.2.1 (c64_circles hI h (k := k) ?_)
    have hpl : ∀ a, Linked cfg T a → ∃ q, Planned p a q := fun a ha => (c88_planned hI h a).2 (.inr ha)
    have : ∀ y, Relation.TransGen (Link cfg T) k y → Linked cfg T y ∧
        Relation.TransGen (fun a b => UsedRef cfg T a b ∧ (∃ q, Planned p a q) ∧ ∃ q, Planned p b q) k y := by
      intro y hy
      induction hy with
      | single h1 => exact ⟨.along hk h1, .single ⟨h1.1, hpl _ hk, hpl _ (.along hk h1)⟩⟩
      | tail _ h1 ih => exact ⟨.along ih.1 h1, ih.2.tail ⟨h1.1, hpl _ ih.1, hpl _ (.along ih.1 h1)⟩⟩
    exact (this k hc).2
  · by_contra ha
    exact (c14_ignored hI h).2 hinc a b hab ha hb
  · exact ((c13_passthrough hI h ha (hsrc a b hab)).2.2.1 b hab).1
  · rw [← dget_isSome_iff]
    obtain ⟨fk, hf⟩ := hp.ref_iff.2 hab
    exact hp.isSome_iff.1 (hp.shape.closed a fk b hf)

/-- C88, the other direction: constraints have to name columns of their table, and no key may refer to that table. -/
theorem c88_enough {cfg : PlannerConfig} {T : Tables} (hI : Input cfg T) (h : CanPlan cfg T)
    (hc : ∀ k t con, (k, t) ∈ T → con ∈ (dget cfg.tableConstraints k.str).getD [] →
      con.column ∈ t.columns ∧ ∀ a, ¬ UsedRef cfg T a k) : ∃ p, planInternal cfg T = .ok p := by
  have hcl : ∀ a fk b, UsedFk cfg T a fk b → (dget T b).isSome := fun a fk b hu => by
    rw [dget_isSome_iff]; exact h.closed a b ⟨fk, hu⟩
  cases hp : planInternal cfg T with
  | ok p => exact ⟨p, rfl⟩
  | error e =>
    exfalso
    rcases planInternal_error hI hcl hp with rfl | ⟨ign, pass, hi, hps, hca⟩
    · obtain ⟨n, h1, h2⟩ := planInternal_badName hI hcl hp
      exact h2 (h.names n h1)
    · cases e with
      | badName => exact hca
      | unselectedTarget s =>
        obtain ⟨k, h1, h2⟩ := h.targets s hca.1
        rcases hca.2 k (dget_isSome_iff.2 h2.1) h1 with h3 | h3
        · exact h2.2.1 ((hps k).1 h3)
        · exact h2.2.2 ((hi k).1 h3)
      | cycle c =>
        obtain ⟨k, -, h1, h2⟩ := planInternal_cycle hI hp
        exact h.acyclic k h1 h2
      | ignoredFk a b =>
        obtain ⟨h1, h2, h3, h4⟩ := hca
        exact h3 ((hi a).2 (h.ignored h1 a b h2 ((hi b).1 h4)))
      | passthroughFk a b =>
        obtain ⟨h1, h2, h3⟩ := hca
        exact h3 ((hps b).2 (h.passed a b h2 ((hps a).1 h1)))
      | constraintReverse a =>
        obtain ⟨h1, b, h2⟩ := hca
        obtain ⟨con, h3⟩ := List.exists_mem_of_ne_nil _ h1
        have h4 := hcl _ _ _ h2.choose_spec
        obtain ⟨t, ht⟩ := Option.isSome_iff_exists.1 h4
        exact (hc a t con (hI.tables.get.1 ht) h3).2 b h2
      | constraintColumn a c =>
        obtain ⟨t, h1, h2, con, h3, h4⟩ := hca
        exact h2 (h4 ▸ (hc a t con h1 h3).1)
      | _ => exact hca

/-- C88: without constraints, planning loaded tables succeeds exactly if the configuration meets `CanPlan`. -/
theorem c88_iff {cfg : PlannerConfig} {T : Tables} (hI : Input cfg T) (hc : cfg.tableConstraints = []) :
    (∃ p, planInternal cfg T = .ok p) ↔ CanPlan cfg T := by
  refine ⟨fun ⟨p, h⟩ => c88_needed hI h, fun h => c88_enough hI h ?_⟩
  intro k t con _ hcon
  rw [hc] at hcon
  cases hcon

/-- C88 from a database, with dependencies included. -/
theorem c88_database {fnmatch : Str → Str → Bool} {db : Dict Str TableMeta} (hdb : DbOK db) (hcl : DbClosed db)
    {cfg : PlannerConfig} (hinc : cfg.includeDependencies = true) (hx : ∀ x ∈ cfg.extraFks, x.Valid)
    (hn : [] ∉ dkeys cfg.targets) (hc : cfg.tableConstraints = []) :
    ∃ l, fromEngine fnmatch db (cfg.select ++ cfg.passthrough) true false = some (some l) ∧
      ((∃ p, plan fnmatch db cfg = .ok p) ↔ CanPlan cfg l.tables) := by
  obtain ⟨l, h1, -⟩ := c18_selection_closure (fnmatch := fnmatch) hdb hcl (cfg.select ++ cfg.passthrough) true false
  refine ⟨l, h1, ?_⟩
  have hpl : plan fnmatch db cfg = planInternal cfg l.tables := by unfold plan; rw [hinc, h1]
  rw [hpl]
  exact c88_iff ⟨(loaded_ok hdb h1).1, hx, hn⟩ hc

/-- C88, the promise of the documentation: if no table of the database refers to itself in a circle, targets that are
selected can be planned. -/
theorem c88_documented {fnmatch : Str → Str → Bool} {db : Dict Str TableMeta} (hdb : DbOK db) (hcl : DbClosed db)
    (hac : ∀ k, ¬ Relation.TransGen (DbRef db) k k) {select : List Str} {targets : Dict Str TargetConfig}
    (ht : ∀ s ∈ targets.map Prod.fst, ∃ k : Key, k.1 ++ '.' :: k.2 = s ∧ Selected fnmatch db select k) :
    ∃ p, plan fnmatch db { targets := targets, select := select } = .ok p := by
  have hn : ([] : Str) ∉ dkeys targets := by
    intro h
    obtain ⟨k, h1, -⟩ := ht [] h
    simp at h1
  obtain ⟨l, h1, h2⟩ := c88_database (fnmatch := fnmatch) hdb hcl (cfg := { targets := targets, select := select }) rfl
    (by simp) hn rfl
  rw [h2]
  obtain ⟨l', h3, -, h4, h5, -⟩ := c18_selection_closure (fnmatch := fnmatch) hdb hcl (select ++ []) true false
  rw [h1] at h3; cases h3
  obtain ⟨h6, h7⟩ := loaded_ok hdb h1
  have hused : ∀ a b, UsedRef { targets := targets, select := select } l.tables a b → DbRef db a b ∧ Ref l.tables a b := by
    rintro a b ⟨fk, ⟨h | ⟨e, h, -⟩, -⟩ | ⟨x, h, -⟩⟩
    · refine ⟨?_, fk, h⟩
      obtain ⟨t, g1, g2, g3⟩ := h
      obtain ⟨⟨n, hn⟩, g4⟩ := h4 a t g1
      exact ⟨n, t, fk, hn, g4, g2, g3⟩
    · cases h
    · cases h
  refine ⟨by simp, fun s hs => ?_, fun k _ hc => hac k ?_, fun _ a b _ h => ?_, fun a b _ h => ?_, fun a b h => ?_⟩
  · obtain ⟨k, g1, g2⟩ := ht s hs
    refine ⟨k, g1, (h5 k).2 ⟨k, by simpa using g2, .refl⟩, ?_, ?_⟩ <;> rintro ⟨n, hn, -⟩ <;> cases hn
  · exact Relation.TransGen.mono (fun a b hab => (hused a b hab.1).1) k k hc
  · obtain ⟨n, hn, -⟩ := h; cases hn
  · obtain ⟨n, hn, -⟩ := h; cases hn
  · obtain ⟨fk, hf⟩ := (hused a b h).2
    rw [← dget_isSome_iff]; exact h7 rfl a fk b hf

/-! ### Examples -/

/-- The example database has no circles, so its tables can be planned. -/
theorem c88_example : ∃ p, plan (fun a b => decide (a = b)) exDb { targets := [(str! "s.o", { all := true })], select := [str! "s.o"] } = .ok p := by
  refine c88_documented exDb_ok exDb_closed ?_ ?_
  · -- only orders refer to anything, and they refer to users
    have hd : ∀ a b, DbRef exDb a b → a = (str! "s", str! "o") ∧ b = (str! "s", str! "u") := by
      rintro a b ⟨n, t, fk, h, rfl, h2, rfl⟩
      simp only [exDb, List.mem_cons, Prod.mk.injEq, List.not_mem_nil, or_false] at h
      rcases h with ⟨rfl, rfl⟩ | ⟨rfl, rfl⟩
      · simp only [exTableO, List.mem_singleton] at h2; subst h2; exact ⟨rfl, rfl⟩
      · simp [exTableU] at h2
    intro k hk
    obtain ⟨b, h1, -⟩ := Relation.TransGen.head'_iff.1 hk
    obtain ⟨c, -, h2⟩ := Relation.TransGen.tail'_iff.1 hk
    have := (hd _ _ h1).1.symm.trans (hd _ _ h2).2
    exact absurd this (by decide)
  · intro s hs
    simp only [List.map_cons, List.map_nil, List.mem_singleton] at hs
    subst hs
    exact ⟨(str! "s", str! "o"), rfl, str! "s.o", exTableO, .head _, rfl, _, .head _, by decide⟩

/-- A third table linked to nothing. -/
def cpZ : TableMeta := { schema := str! "s", name := str! "z", columns := [str! "id"], primaryKey := [str! "id"] }

def cpTables : Tables := [((str! "s", str! "a"), pxA), ((str! "s", str! "b"), pxB), ((str! "s", str! "z"), cpZ)]

/-- A circle of tables no target is linked to is no obstacle, one that a target is linked to is.  Tables linked to no
target are not planned. -/
theorem c88_far_circle :
    pxNames (planInternal { targets := [(str! "s.z", { all := true })] } cpTables) = .ok [str! "s.z"] ∧
    pxNames (planInternal { targets := [(str! "s.a", { all := true }), (str! "s.z", { all := true })] } cpTables) = .error (.cycle [str! "s.a", str! "s.b"]) ∧
    pxNames (planInternal { targets := [(str! "s.z", { all := true })] } exTables) = .error (.unselectedTarget (str! "s.z")) := by
  decide +kernel

/-- Tables that refer to a target are planned even though no target refers to them. -/
theorem c88_against : pxNames (planInternal { targets := [(str! "s.u", { all := true })] } exTables) = .ok [str! "s.u", str! "s.o"] := by decide +kernel

end Subsetter.Props
