import Verif.Proofs.PlanCount
import Verif.Props.Planner

/-
Property C56: no row is sampled more often than it occurs in the source.
-/
namespace Subsetter.Props
open Subsetter Spec

/-- C56. The sample of a table holds no row more often than the source does. -/
theorem c56_not_more_often {cfg : PlannerConfig} {T : Tables} (hI : Input cfg T)
    {p : Plan} (h : planInternal cfg T = .ok p)
    {E : Engine} {Ts : Tables} {src S : Key → List Row} (hpk : PkOK Ts src)
    (hS : IsSample E Ts src p S) {k : Key} (hk : ∃ q, Planned p k q) :
    (∀ r, (S k).count r ≤ (src k).count r) ∧ (S k).length ≤ (src k).length := by
  obtain ⟨ign, pass, T₁, T₂, found, ord, hp⟩ := planning hI h
  have := hp.shape.sample_subperm hp.ok hS hpk (hp.planned_iff.1 hk)
  exact ⟨fun r => this.count_le r, this.length_le⟩

theorem c56_subperm {cfg : PlannerConfig} {T : Tables} (hI : Input cfg T)
    {p : Plan} (h : planInternal cfg T = .ok p)
    {E : Engine} {Ts : Tables} {src S : Key → List Row} (hpk : PkOK Ts src)
    (hS : IsSample E Ts src p S) {k : Key} (hk : ∃ q, Planned p k q) : (S k).Subperm (src k) := by
  obtain ⟨ign, pass, T₁, T₂, found, ord, hp⟩ := planning hI h
  exact hp.shape.sample_subperm hp.ok hS hpk (hp.planned_iff.1 hk)

theorem subperm_pairwise {α : Type} {R : α → α → Prop} (hR : ∀ a b, R a b → R b a) {l l' : List α} (h : l.Subperm l')
    (hl : l'.Pairwise R) : l.Pairwise R := by
  obtain ⟨m, h1, h2⟩ := h
  exact (h1.pairwise_iff (fun {a b} => hR a b)).1 (hl.sublist h2)

/-- C56. Primary keys and unique constraints of the source hold in the sample. -/
theorem c56_constraints_hold {cfg : PlannerConfig} {T : Tables} (hI : Input cfg T)
    {p : Plan} (h : planInternal cfg T = .ok p)
    {E : Engine} {Ts : Tables} {src S : Key → List Row} (hpk : PkOK Ts src)
    (hS : IsSample E Ts src p S) {k : Key} (hk : ∃ q, Planned p k q) {t : TableMeta} (ht : dget Ts k = some t) :
    (t.primaryKey ≠ [] → ((S k).map fun r => t.primaryKey.map r.get).Nodup) ∧
    (UniqueOK Ts src → ∀ u ∈ t.uniques, (S k).Pairwise fun r r' =>
      (∀ c ∈ u, r.get c ≠ .null) → u.map r.get ≠ u.map r'.get) := by
  have hsub := c56_subperm hI h hpk hS hk
  refine ⟨fun hne => ?_, fun hu u hmem => ?_⟩
  · exact List.pairwise_map.2 (subperm_pairwise (fun a b => Ne.symm) hsub (List.pairwise_map.1 (hpk k t ht hne)))
  · refine subperm_pairwise (fun r r' hrr hn he => ?_) hsub (hu k t ht u hmem)
    refine hrr (fun c hc => ?_) he.symm
    have := List.map_inj_left.1 he c hc
    rw [← this]
    exact hn c hc

/-- The hypotheses hold of the example of C07. -/
example {p : Plan} (h : planInternal exCfg exTables = .ok p) {S : Key → List Row}
    (hS : IsSample exEngine exTables exSrc p S) (hk : ∃ q, Planned p (str! "s", str! "o") q) :
    ((S (str! "s", str! "o")).map fun r => [str! "id"].map r.get).Nodup :=
  (c56_constraints_hold exCfg_input h exTables_pk hS hk (t := exTableO) rfl).1 (by decide)

/-- Users without a primary key, to which orders refer. -/
def kxTables : Tables :=
  [((str! "s", str! "u"), { schema := str! "s", name := str! "u", columns := [str! "id"], primaryKey := [] }),
   ((str! "s", str! "o"), exTableO)]
def kxSrc : Key → List Row := fun k =>
  if k = (str! "s", str! "u") then [[(str! "id", .int 1)], [(str! "id", .int 1)]] else exSrc k

/-- The count may be smaller even if everything is asked for: `UNION` drops one of two equal rows of a table without
a primary key, although `amount` asks for both and both are referred to. -/
theorem c56_equal_rows_dropped :
    planExec { targets := [(str! "s.o", { all := true }), (str! "s.u", { amount := some 2 })] }
      kxTables kxSrc [str! "s.u"] = .ok (.ok [((str! "s", str! "u"), [[(str! "id", .int 1)]])]) := by decide +kernel

end Subsetter.Props
