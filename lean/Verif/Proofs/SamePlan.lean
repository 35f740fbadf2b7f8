import Verif.Spec.PlanFile
import Verif.Spec.Run

/-
What depends only on the query of each table, not on the order of queries in a plan.
-/
namespace Subsetter
open Spec

variable {σ : Type} {C : RunConfig} {D : Setting σ} {p p' : Plan}

theorem Spec.SamePlan.symm (h : SamePlan p p') : SamePlan p' p := ⟨h.1.symm, h.2.symm⟩

theorem Spec.SamePlan.planned (h : SamePlan p p') {k : Key} {q : TableQuery} : Planned p k q ↔ Planned p' k q := by
  unfold Planned
  simp only [h.1.mem_iff]

theorem Spec.SamePlan.names (h : SamePlan p p') {n : Str} : n ∈ dkeys p.queries ↔ n ∈ dkeys p'.queries :=
  (h.1.map Prod.fst).mem_iff.symm

theorem Spec.SamePlan.nodup (h : SamePlan p p') (hn : (dkeys p.queries).Nodup) : (dkeys p'.queries).Nodup :=
  (h.1.map Prod.fst).nodup_iff.2 hn

theorem Spec.SamePlan.isSample (h : SamePlan p p') {E : Engine} {T : Tables} {src Smp : Key → List Row} :
    IsSample E T src p Smp ↔ IsSample E T src p' Smp := by
  unfold IsSample
  simp only [h.planned]

theorem Spec.SamePlan.acyclic (h : SamePlan p p') : Acyclic p ↔ Acyclic p' := by
  have : Needs p = Needs p' := by
    funext a b
    unfold Needs
    simp only [h.planned]
  unfold Acyclic
  rw [this]

theorem Spec.SamePlan.runOK (h : SamePlan p p') (hok : RunOK C D p) : RunOK C D p' :=
  ⟨hok.src, hok.dst, hok.closed, hok.srcColumns, hok.self, h.nodup hok.plan, hok.compactNames⟩

theorem Spec.SamePlan.runnable (h : SamePlan p p') (hr : Runnable C D p) : Runnable C D p' where
  source n hn := hr.source n (h.names.2 hn)
  refs k q hq x hx := by
    obtain ⟨q', hq'⟩ := hr.refs k q (h.planned.2 hq) x hx
    exact ⟨q', h.planned.1 hq'⟩
  acyclic := h.acyclic.1 hr.acyclic
  dest n hn := hr.dest n (h.names.2 hn)
  differ n hn n' hn' := hr.differ n (h.names.2 hn) n' (h.names.2 hn')
  circles := hr.circles
  keys hc n hn t ht hd fk hfk := by
    obtain ⟨h1, h2⟩ := hr.keys hc n (h.names.2 hn) t ht hd fk hfk
    exact ⟨h.names.1 h1, h2⟩
  srcCircles hc k := by
    simp only [← h.names]
    exact hr.srcCircles hc k

theorem Spec.SamePlan.reached (h : SamePlan p p') {k : Key} : Reached C D p k ↔ Reached C D p' k := by
  unfold Reached
  simp only [h.names]

theorem Spec.SamePlan.copied (h : SamePlan p p') {db : Dict Str TableMeta} {n : Str} {k kd : Key} {t td : TableMeta} :
    Copied C D p db n k kd t td ↔ Copied C D p' db n k kd t td :=
  ⟨fun c => ⟨h.names.1 c.planned, c.name, c.source, c.dest, h.reached.1 c.reached, c.schema⟩,
    fun c => ⟨h.names.2 c.planned, c.name, c.source, c.dest, h.reached.2 c.reached, c.schema⟩⟩

theorem Spec.SamePlan.begins (h : SamePlan p p') {S B : DbState} : Begins C D p S B ↔ Begins C D p' S B :=
  ⟨fun c => ⟨fun ht k hk => c.emptied ht k (h.reached.2 hk), fun k hk => c.kept k fun ht hr => hk ht (h.reached.1 hr)⟩,
    fun c => ⟨fun ht k hk => c.emptied ht k (h.reached.1 hk), fun k hk => c.kept k fun ht hr => hk ht (h.reached.2 hr)⟩⟩

theorem Spec.SamePlan.accepts (h : SamePlan p p') {db : Dict Str TableMeta} {B : DbState} {Smp : Key → List Row}
    (ha : Accepts C D p db B Smp) : Accepts C D p' db B Smp where
  dialect := ha.dialect
  columns n k kd t td hc := ha.columns n k kd t td (h.copied.2 hc)
  key n k kd t td hc := ha.key n k kd t td (h.copied.2 hc)
  generated n k kd t td hc := ha.generated n k kd t td (h.copied.2 hc)
  unique n k kd t td hc := ha.unique n k kd t td (h.copied.2 hc)
  auto hd n k kd t td hc := ha.auto hd n k kd t td (h.copied.2 hc)

/-- Batches are determined by their rows. -/
theorem batches_unique {α : Type} {m : Nat} : ∀ {bs bs' : List (List α)}, Batches m bs → Batches m bs' →
    bs.flatten = bs'.flatten → bs = bs'
  | [], [], _, _, _ => rfl
  | [], b :: bs, _, h, e => by
    obtain ⟨h1, -⟩ := h.1 b (by simp)
    simp only [List.flatten_nil, List.flatten_cons] at e
    exact absurd (List.append_eq_nil_iff.1 e.symm).1 h1
  | b :: bs, [], h, _, e => by
    obtain ⟨h1, -⟩ := h.1 b (by simp)
    simp only [List.flatten_nil, List.flatten_cons] at e
    exact absurd (List.append_eq_nil_iff.1 e).1 h1
  | b :: bs, b' :: bs', h, h', e => by
    have tail : ∀ {b : List α} {bs : List (List α)}, Batches m (b :: bs) → Batches m bs ∧ (bs = [] ∨ b.length = m) := by
      intro b bs h
      cases bs with
      | nil => exact ⟨⟨(fun _ h => nomatch h), (fun _ h => nomatch h)⟩, .inl rfl⟩
      | cons c bs => exact ⟨⟨fun x hx => h.1 x (by simp [hx]), fun x hx => h.2 x (by
          rw [List.dropLast_cons_cons]; exact List.mem_cons_of_mem _ hx)⟩, .inr (h.2 b (by simp))⟩
    have hl : b.length = b'.length := by
      have e2 := congrArg List.length e
      simp only [List.flatten_cons, List.length_append] at e2
      rcases (tail h).2 with h1 | h1 <;> rcases (tail h').2 with h2 | h2
      · subst h1; subst h2; simpa using e2
      · subst h1
        have := (h.1 b (by simp)).2
        simp only [List.flatten_nil, List.length_nil] at e2
        omega
      · subst h2
        have := (h'.1 b' (by simp)).2
        simp only [List.flatten_nil, List.length_nil] at e2
        omega
      · omega
    obtain ⟨e1, e2⟩ := List.append_inj (by simpa using e) hl
    rw [e1, batches_unique (tail h).1 (tail h').1 e2]

end Subsetter
