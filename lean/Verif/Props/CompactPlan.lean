import Verif.Props.Compact
import Verif.Props.Counts

/-
C24, C31 and C32 for plans made by the planner with compaction of primary or autoincrement keys.
-/
namespace Subsetter.Props
open Subsetter Spec

variable {le : List Val → List Val → Bool} {start : Int}

/-- What is known of the metadata the sampler loads for a plan: its tables are those of the plan, and no column is
listed twice. -/
structure SamplerMeta (Ts : Tables) (p : Plan) : Prop where
  keys_nodup : (Ts.map Prod.fst).Nodup
  planned : ∀ k, (dget Ts k).isSome ↔ ∃ q, Planned p k q
  columns : ∀ k t, dget Ts k = some t → t.columns.Nodup
  fk_columns : ∀ k t, dget Ts k = some t → ∀ fk ∈ t.foreignKeys, fk.columns.Nodup ∧ fk.dstColumns.Nodup

theorem keyColumn_of {Ts : Tables} {pass : List Str} {cfg : CompactConfig} (hnamed : cfg.columns = [])
    {cc : Dict Key (List Str)} (h : getCompactColumns Ts pass cfg = .ok cc) {k : Key} {c : Str}
    (hc : IsCompacted cc k c) : KeyColumn Ts pass cfg k c := by
  have := (c32_columns (by rw [hnamed]; exact List.nodup_nil) h).1 k c
  rcases this.1 hc with ⟨table, cols, h1, -⟩ | h1
  · rw [hnamed] at h1; cases h1
  · exact h1

theorem zip_snd_inj {α β : Type} : ∀ {l : List α} {l' : List β} {a a' : α} {b : β}, l'.Nodup → (a, b) ∈ l.zip l' →
    (a', b) ∈ l.zip l' → a = a'
  | [], _, _, _, _, _, h, _ => by simp at h
  | _ :: _, [], _, _, _, _, h, _ => by simp at h
  | x :: l, y :: l', a, a', b, hnd, h, h' => by
    rw [List.nodup_cons] at hnd
    rw [List.zip_cons_cons, List.mem_cons] at h h'
    rcases h with h | h <;> rcases h' with h' | h'
    · cases h; cases h'; rfl
    · cases h; exact absurd (List.of_mem_zip h').2 hnd.1
    · cases h'; exact absurd (List.of_mem_zip h).2 hnd.1
    · exact zip_snd_inj hnd.2 h h'

/-- C24 and C32 for a planned run.  A run that compacts primary or autoincrement keys and no other columns succeeds
on every database and writes one row for every sampled row: compacted keys hold the new identifiers, columns that
refer to them the identifier of the row they referred to, everything else is as it was. -/
theorem c32_planned_run_partial {cfg : PlannerConfig} {T : Tables} (hI : Input cfg T) {p : Plan}
    (h : planInternal cfg T = .ok p) {Ts : Tables} (hm : SamplerMeta Ts p) {ccfg : CompactConfig}
    (hnamed : ccfg.columns = []) {compact : Dict Key (List Str)}
    (hc : getCompactColumns Ts p.passthrough ccfg = .ok compact)
    (E : Engine) {src : Key → List Row} (hpk : PkOK Ts src) (reopen : Bool)
    {ks : List Key} (hks : ∀ k ∈ ks, ∃ q, Planned p k q) :
    ∃ S ids res, IsSample E Ts src p S ∧ (∀ k, (ids k).length = (S k).length ∧ FillsFrom start (ids k)) ∧
      execCompact E Ts le start compact src reopen p (ks.map Key.str) = .ok res ∧
      List.Forall₂ (fun k e => e.1 = k ∧ ∃ t, dget Ts k = some t ∧
        List.Forall₂ (fun x out => CompactedRow Ts compact S ids k t.columns x.2 x.1 out)
          ((ids k).zip (S k)) e.2) ks res := by
  obtain ⟨ign, pass, T₁, T₂, found, ord, hp⟩ := planning hI h
  have hget : ∀ {k t}, (k, t) ∈ Ts → dget Ts k = some t := fun hkt => dget_of_mem hm.keys_nodup hkt
  have hok : CompactOK Ts compact p := by
    refine ⟨hp.shape.planOK hp.ok fun k hk => (hm.planned k).2 (hp.planned_iff.2 hk), hp.shape.acyclic hp.ok, ?_,
      hm.columns⟩
    intro d c hdc
    obtain ⟨t, h1, -⟩ := keyColumn_of hnamed hc hdc
    exact (hm.planned d).1 (by rw [hget h1]; rfl)
  have hone : ∀ k, OneLookupEach Ts compact k := by
    intro k t ht fk hfk
    refine ⟨(hm.fk_columns k t ht fk hfk).1, ?_⟩
    rintro ⟨a, b⟩ he ⟨a', b'⟩ he' hb hb'
    obtain ⟨t1, h1, h2, -⟩ := keyColumn_of hnamed hc hb
    obtain ⟨t2, h3, h4, -⟩ := keyColumn_of hnamed hc hb'
    have := (hget h1).symm.trans (hget h3)
    cases this
    rw [h2] at h4
    cases h4
    rw [zip_snd_inj (hm.fk_columns k t ht fk hfk).2 he he']
  obtain ⟨S, ids, h1, h2, h3⟩ := c32_run_partial (le := le) (start := start) hok E src (reopen := reopen)
    fun _ k _ _ => hone k
  have hu : LookupsUnique Ts compact p S := by
    intro k q hq c d dc hpt _
    obtain ⟨t, fk, -, -, -, -, hdc⟩ := hpt
    obtain ⟨td, g1, g2, -⟩ := keyColumn_of hnamed hc hdc
    have hd := (hm.planned d).1 (by rw [hget g1]; rfl)
    have hnd := (c56_constraints_hold hI h hpk h1 hd (hget g1)).1 (by rw [g2]; simp)
    rw [g2] at hnd
    unfold UniqueIn
    refine (List.pairwise_map.1 hnd).imp ?_
    intro r r' hne _ he
    exact hne (by simp [he])
  obtain ⟨res, h4, h5⟩ := h3 hu ks fun k hk => ⟨hp.nodot (hp.planned_iff.1 (hks k hk)), hks k hk⟩
  exact ⟨S, ids, res, h1, h2, h4, h5⟩

/-- C32 for a planned run, reference by reference: if compaction treats both columns of each pair alike, rows of the
output refer to each other exactly as the sampled rows do, and a reference the sample keeps (C07) is kept. -/
theorem c32_planned_references_partial {Ts : Tables} {compact : Dict Key (List Str)} {S : Key → List Row}
    {ids : Key → List Int} {k d : Key} {t td : TableMeta} {ccols pcols : List Str}
    (hids : ∀ k, (ids k).length = (S k).length ∧ FillsFrom start (ids k))
    (hsafe : ∀ e ∈ ccols.zip pcols, e.1 ∈ t.columns ∧ e.2 ∈ td.columns ∧ PairSafe Ts compact k d e)
    {outs outs' : List Row}
    (ho : List.Forall₂ (fun x out => CompactedRow Ts compact S ids k t.columns x.2 x.1 out) ((ids k).zip (S k)) outs)
    (hd : List.Forall₂ (fun x out => CompactedRow Ts compact S ids d td.columns x.2 x.1 out) ((ids d).zip (S d)) outs')
    {src : Key → List Row} (hkept : ∀ r ∈ S k, (∃ m ∈ src d, Refers ccols pcols r m) → ∃ m ∈ S d, Refers ccols pcols r m) :
    ∀ (i : Nat) (r out : Row), ((S k).zip outs)[i]? = some (r, out) → (∃ m ∈ src d, Refers ccols pcols r m) →
      ∃ out' ∈ outs', Refers ccols pcols out out' := by
  intro i r out hi hr
  have hlen := ho.length_eq
  rw [List.length_zip, (hids k).1, Nat.min_self] at hlen
  rw [List.getElem?_zip_eq_some] at hi
  obtain ⟨h1, h2⟩ := hi
  obtain ⟨m, hm, hrm⟩ := hkept r (List.mem_of_getElem? h1) hr
  obtain ⟨j, hj⟩ := zip_snd_mem (hids d).1 hm
  obtain ⟨out', ho', hmo⟩ := forall₂_exists_left hd hj
  have hi' : i < (ids k).length := by rw [(hids k).1]; exact (List.getElem?_eq_some_iff.1 h1).1
  have h3 : ((ids k).zip (S k))[i]? = some ((ids k)[i], r) := by
    rw [List.getElem?_zip_eq_some]
    exact ⟨List.getElem?_eq_getElem hi', h1⟩
  have h4 := List.forall₂_iff_get.1 ho
  have hil : i < ((ids k).zip (S k)).length := (List.getElem?_eq_some_iff.1 h3).1
  have hol : i < outs.length := (List.getElem?_eq_some_iff.1 h2).1
  have h5 := h4.2 i hil hol
  rw [List.get_eq_getElem, List.get_eq_getElem, (List.getElem?_eq_some_iff.1 h3).2, (List.getElem?_eq_some_iff.1 h2).2] at h5
  exact ⟨out', ho', (c32_reference_kept_partial (hids d).2.1 (hids d).1 hsafe h5 hj hmo).2 hrm⟩

/-- Pick an order by its user; its keys are compacted. -/
def cxCfg : PlannerConfig where
  targets := [(str! "s.o", { in_ := [(str! "uid", [.int 9])] })]

/-- Plan, then execute with compaction. -/
def cxPlanned (reopen : Bool) : Option (Except ExecErr (List (Key × List Row))) :=
  match planInternal cxCfg cxTables with
  | .ok p => some (execCompact exEngine cxTables cxLe 1 cxCompact cxSrc reopen p [str! "s.u", str! "s.o"])
  | .error _ => none

example : ∀ reopen, cxPlanned reopen = some (.ok
    [(cxU, [[(str! "id", .int 1)]]), (cxO, [cxPair (str! "id") (str! "uid") (.int 1) (.int 1)])]) := by decide +kernel

def planNames : Except PlanErr Plan → List Str
  | .ok p => p.queries.map Prod.fst
  | .error _ => []

theorem cxNames : planNames (planInternal cxCfg cxTables) = [str! "s.o", str! "s.u"] := by decide +kernel

/-- The hypotheses of `c32_planned_run_partial` hold of the example. -/
example : ∃ p, planInternal cxCfg cxTables = .ok p ∧ Input cxCfg cxTables ∧ SamplerMeta cxTables p ∧
    getCompactColumns cxTables p.passthrough { primaryKeys := true } = .ok cxCompact ∧ PkOK cxTables cxSrc := by
  have hn := cxNames
  cases h : planInternal cxCfg cxTables with
  | error e => rw [h] at hn; cases hn
  | ok p =>
    rw [h] at hn
    refine ⟨p, rfl, ⟨⟨by decide, ?_, ?_, ?_, ?_⟩, (fun _ h => nomatch h), by decide⟩, ⟨by decide, ?_, ?_, ?_⟩, ?_, ?_⟩
    iterate 4
      · intro k t ht
        simp only [cxTables, cxTable, List.mem_cons, List.not_mem_nil, or_false] at ht
        rcases ht with ht | ht <;> cases ht <;> decide
    · intro k
      have hp : (∃ q, Planned p k q) ↔ ∃ n ∈ planNames (.ok p), parseTableName n = some k := by
        constructor
        · rintro ⟨q, n, h1, h2⟩
          exact ⟨n, List.mem_map.2 ⟨_, h1, rfl⟩, h2⟩
        · rintro ⟨n, h1, h2⟩
          obtain ⟨⟨n', q⟩, h3, rfl⟩ := List.mem_map.1 h1
          exact ⟨q, _, h3, h2⟩
      rw [hp, hn]
      constructor
      · intro hk
        obtain ⟨t, ht⟩ := Option.isSome_iff_exists.1 hk
        have ht := dget_some_mem ht
        simp only [cxTables, cxTable, List.mem_cons, List.not_mem_nil, or_false] at ht
        rcases ht with ht | ht
        · cases ht; exact ⟨str! "s.u", by simp, by decide⟩
        · cases ht; exact ⟨str! "s.o", by simp, by decide⟩
      · rintro ⟨n, h1, h2⟩
        simp only [List.mem_cons, List.not_mem_nil, or_false] at h1
        rcases h1 with rfl | rfl
        · have : (str! "s", str! "o") = k := Option.some.inj h2
          subst this; rfl
        · have : (str! "s", str! "u") = k := Option.some.inj h2
          subst this; rfl
    · intro k t ht
      have ht := dget_some_mem ht
      simp only [cxTables, cxTable, List.mem_cons, List.not_mem_nil, or_false] at ht
      rcases ht with ht | ht <;> cases ht <;> decide
    · intro k t ht
      have ht := dget_some_mem ht
      simp only [cxTables, cxTable, List.mem_cons, List.not_mem_nil, or_false] at ht
      rcases ht with ht | ht <;> cases ht <;> decide
    · have : p.passthrough = [] := by
        have h2 : (match planInternal cxCfg cxTables with | .ok p => p.passthrough | .error _ => []) = [] := by decide +kernel
        rw [h] at h2
        exact h2
      rw [this]
      decide
    · intro k t ht _
      have ht := dget_some_mem ht
      simp only [cxTables, cxTable, List.mem_cons, List.not_mem_nil, or_false] at ht
      rcases ht with ht | ht <;> cases ht <;> decide

end Subsetter.Props
