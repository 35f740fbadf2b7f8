import Verif.Props.Planner

/-
Property C53: joins marked half unique.
-/
namespace Subsetter.Props
open Subsetter Spec

theorem refers_get {l l' : List Str} (hlen : l.length = l'.length) {r r' m : Row}
    (h : Refers l l' r m) (h' : Refers l l' r' m) : ∀ c ∈ l, r.get c ≠ .null ∧ r.get c = r'.get c := by
  intro c hc
  obtain ⟨i, hi, rfl⟩ := List.mem_iff_getElem.1 hc
  have hm : (l[i], l'[i]'(hlen ▸ hi)) ∈ l.zip l' :=
    List.mem_iff_getElem.2 ⟨i, by simp [← hlen, hi], by simp⟩
  exact ⟨(h _ hm).1, (h _ hm).2.trans (h' _ hm).2.symm⟩

theorem refers_get_right {l l' : List Str} (hlen : l.length = l'.length) {r m m' : Row}
    (h : Refers l l' r m) (h' : Refers l l' r m') : ∀ c ∈ l', m.get c ≠ .null ∧ m.get c = m'.get c := by
  intro c hc
  obtain ⟨i, hi, rfl⟩ := List.mem_iff_getElem.1 hc
  have hm : (l[i]'(hlen ▸ hi), l'[i]) ∈ l.zip l' :=
    List.mem_iff_getElem.2 ⟨i, by simp [hlen, hi], by simp⟩
  refine ⟨?_, (h _ hm).2.symm.trans (h' _ hm).2⟩
  rw [← (h _ hm).2]; exact (h _ hm).1

theorem isDistinct_pairwise {T : Tables} {src : Key → List Row} (hpk : PkOK T src)
    (hu : UniqueOK T src) {k : Key} {t : TableMeta} (ht : dget T k = some t) (hne : t.primaryKey ≠ [])
    {cols : List Str} (h : isDistinct t cols = true) :
    (src k).Pairwise fun r r' => ¬ ∀ c ∈ cols, r.get c ≠ .null ∧ r.get c = r'.get c := by
  unfold isDistinct at h
  rw [List.any_eq_true] at h
  obtain ⟨u, hu', hall⟩ := h
  have hsub : ∀ c ∈ u, c ∈ cols := by
    intro c hc
    simpa using (List.all_eq_true.1 hall) c hc
  rcases List.mem_cons.1 hu' with rfl | hu'
  · have := hpk k t ht hne
    rw [List.Nodup, List.pairwise_map] at this
    refine this.imp fun h1 h2 => h1 (List.map_congr_left fun c hc => (h2 c (hsub c hc)).2)
  · refine (hu k t ht u hu').imp fun h1 h2 => h1 (fun c hc => (h2 c (hsub c hc)).1)
      (List.map_congr_left fun c hc => (h2 c (hsub c hc)).2)

/-- C53, when both tables have a primary key: a join marked half unique matches every row of one of
the two tables with at most one row of the other.  Missing: tables without primary key, see
`c53_no_primary_key`. -/
theorem c53_half_unique_partial {T : Tables} {src : Key → List Row} (hpk : PkOK T src)
    (hu : UniqueOK T src) {k : Key} {t d : TableMeta} (ht : dget T k = some t)
    (htk : t.primaryKey ≠ []) {fk : ForeignKey} (hlen : fk.columns.length = fk.dstColumns.length)
    (hd : dget T fk.dst = some d) (hdk : d.primaryKey ≠ []) {j : Join}
    (hj : fkJoin T t fk = .ok j) (hh : j.halfUnique = true) :
    ((src k).Pairwise fun r r' => ¬ ∃ m, Refers fk.columns fk.dstColumns r m ∧
      Refers fk.columns fk.dstColumns r' m) ∨
    ((src fk.dst).Pairwise fun m m' => ¬ ∃ r, Refers fk.columns fk.dstColumns r m ∧
      Refers fk.columns fk.dstColumns r m') := by
  unfold fkJoin at hj
  rw [hd] at hj
  cases hj
  rcases (Bool.or_eq_true_iff ..).1 hh with h | h
  · left
    refine (isDistinct_pairwise hpk hu ht htk h).imp fun h1 ⟨m, h2, h3⟩ => h1 (refers_get hlen h2 h3)
  · right
    refine (isDistinct_pairwise hpk hu hd hdk h).imp
      fun h1 ⟨m, h2, h3⟩ => h1 (refers_get_right hlen h2 h3)

/-- C53: a join between tables with a key is marked when the key is covered. -/
theorem c53_key_marked {T : Tables} {t d : TableMeta} {fk : ForeignKey} (hd : dget T fk.dst = some d)
    (h : (∀ c ∈ t.primaryKey, c ∈ fk.columns) ∨ (∀ c ∈ d.primaryKey, c ∈ fk.dstColumns) ∨
      (∃ u ∈ t.uniques, ∀ c ∈ u, c ∈ fk.columns) ∨ ∃ u ∈ d.uniques, ∀ c ∈ u, c ∈ fk.dstColumns) :
    ∃ j, fkJoin T t fk = .ok j ∧ j.halfUnique = true := by
  unfold fkJoin
  rw [hd]
  refine ⟨_, rfl, ?_⟩
  simp only [isDistinct, Bool.or_eq_true, List.any_eq_true, List.all_eq_true, decide_eq_true_eq,
    List.mem_cons, exists_eq_or_imp]
  rcases h with h | h | h | h
  · exact .inl (.inl h)
  · exact .inr (.inl h)
  · exact .inl (.inr h)
  · exact .inr (.inr h)

/-- Pages and page languages with composite key: a key of both columns is half unique, a key of one
of them is not. -/
def exPages : Tables := [
  ((str! "s", str! "page"), { schema := str! "s", name := str! "page", columns := [str! "id", str! "lang"], primaryKey := [str! "id", str! "lang"] }),
  ((str! "s", str! "link"), { schema := str! "s", name := str! "link", columns := [str! "n", str! "id", str! "lang"], primaryKey := [str! "n"] })]

example : (fkJoin exPages { schema := str! "s", name := str! "link", columns := [str! "n", str! "id", str! "lang"], primaryKey := [str! "n"] }
      ⟨[str! "id", str! "lang"], str! "s", str! "page", [str! "id", str! "lang"]⟩).toOption.map Join.halfUnique =
      some true ∧
    (fkJoin exPages { schema := str! "s", name := str! "link", columns := [str! "n", str! "id", str! "lang"], primaryKey := [str! "n"] }
      ⟨[str! "id"], str! "s", str! "page", [str! "id"]⟩).toOption.map Join.halfUnique = some false := by
  decide

/-- The hypotheses hold for two pages in two languages each. -/
example : ([[(str! "id", .int 1), (str! "lang", .int 1)], [(str! "id", .int 1), (str! "lang", .int 2)],
    [(str! "id", .int 2), (str! "lang", .int 1)], [(str! "id", .int 2), (str! "lang", .int 2)]] :
    List Row).Pairwise fun r r' => [str! "id", str! "lang"].map r.get ≠ [str! "id", str! "lang"].map r'.get := by
  decide

/-- C53 is false for a table without primary key: every join with it is marked half unique, though
rows on both sides may match any number of rows. -/
theorem c53_no_primary_key :
    ∃ (T : Tables) (t : TableMeta) (fk : ForeignKey) (j : Join) (src : Key → List Row),
      dget T (str! "s", str! "log") = some t ∧ PkOK T src ∧ UniqueOK T src ∧
      fkJoin T t fk = .ok j ∧ j.halfUnique = true ∧
      ¬ ((src (str! "s", str! "log")).Pairwise fun r r' => ¬ ∃ m, Refers fk.columns fk.dstColumns r m ∧
        Refers fk.columns fk.dstColumns r' m) ∧
      ¬ ((src fk.dst).Pairwise fun m m' => ¬ ∃ r, Refers fk.columns fk.dstColumns r m ∧
        Refers fk.columns fk.dstColumns r m') := by
  refine ⟨[((str! "s", str! "page"), { schema := str! "s", name := str! "page", columns := [str! "id", str! "lang"], primaryKey := [str! "id", str! "lang"] }),
      ((str! "s", str! "log"), { schema := str! "s", name := str! "log", columns := [str! "id"], primaryKey := [] })],
    { schema := str! "s", name := str! "log", columns := [str! "id"], primaryKey := [] },
    ⟨[str! "id"], str! "s", str! "page", [str! "id"]⟩, ⟨⟨str! "s", str! "page", true⟩, [str! "id"], [str! "id"], true⟩,
    fun k => if k = (str! "s", str! "log") then [[(str! "id", .int 1)], [(str! "id", .int 1)]]
      else if k = (str! "s", str! "page") then [[(str! "id", .int 1), (str! "lang", .int 1)], [(str! "id", .int 1), (str! "lang", .int 2)]]
      else [],
    by decide, ?_, ?_, by decide, rfl, ?_, ?_⟩
  · intro k t h hne
    have := dget_some_mem h
    simp only [List.mem_cons, Prod.mk.injEq, List.not_mem_nil, or_false] at this
    rcases this with ⟨rfl, rfl⟩ | ⟨rfl, rfl⟩
    · decide
    · exact absurd rfl hne
  · intro k t h u hu
    have := dget_some_mem h
    simp only [List.mem_cons, Prod.mk.injEq, List.not_mem_nil, or_false] at this
    rcases this with ⟨rfl, rfl⟩ | ⟨rfl, rfl⟩ <;> cases hu
  · intro h
    refine (List.rel_of_pairwise_cons h (List.mem_singleton.2 rfl)) ⟨[(str! "id", .int 1)], ?_⟩
    constructor <;> intro q hq <;> simp only [List.zip_cons_cons, List.zip_nil_right, List.mem_singleton] at hq <;>
      subst hq <;> decide
  · intro h
    refine (List.rel_of_pairwise_cons h (List.mem_singleton.2 rfl)) ⟨[(str! "id", .int 1)], ?_⟩
    constructor <;> intro q hq <;> simp only [List.zip_cons_cons, List.zip_nil_right, List.mem_singleton] at hq <;>
      subst hq <;> decide

end Subsetter.Props
