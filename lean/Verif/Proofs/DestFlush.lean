import Verif.Spec.Dest
import Verif.Props.Conflict

/- What writing a batch means for references. -/
namespace Subsetter
open Spec Props

variable {dialect : Dialect} {strategy : Strategy} {d : DestTable} {cols : List Str} {batch : List (List Val)}
  {T T' : List Row}

/-- Every row has exactly the columns of the table. -/
def Shaped (d : DestTable) (T : List Row) : Prop :=
  ∀ r ∈ T, dkeys r = d.columns.filter fun c => decide (c ∉ d.computed)

/-- Columns whose values never change or vanish. -/
def Stable (strategy : Strategy) (d : DestTable) (c : Str) : Prop :=
  strategy = .error ∨ d.pk = [] ∨ c ∈ d.pk

/-- Columns whose values come from an old row or a written row. -/
def Own (strategy : Strategy) (d : DestTable) (cols : List Str) (c : Str) : Prop :=
  strategy = .replace → d.pk = [] ∨ c ∈ cols

/-- What a batch does to a table. -/
structure FlushFacts (strategy : Strategy) (d : DestTable) (cols : List Str) (batch : List (List Val))
    (T T' : List Row) : Prop where
  uniq : d.pk ≠ [] → KeysUnique d.pk T'
  shape : Shaped d T'
  old : ∀ r ∈ T, ∃ r' ∈ T', ∀ c, Stable strategy d c → r'.get c = r.get c
  new : ∀ b ∈ batch, ∀ m, StoredAs d cols b m → ∃ r' ∈ T', ∀ c, Stable strategy d c → r'.get c = m.get c
  orig : ∀ r' ∈ T', (∃ r ∈ T, ∀ c, Own strategy d cols c → r'.get c = r.get c) ∨
    ∃ b ∈ batch, ∃ m, StoredAs d cols b m ∧ ∀ c, Own strategy d cols c → r'.get c = m.get c

theorem get_of_not_mem {r : Row} {c : Str} (h : c ∉ dkeys r) : r.get c = .null := by
  unfold Row.get
  rw [dget_none_iff.2 h]; rfl

theorem StoredAs.get_eq {b : List Val} {m m' : Row} (h : StoredAs d cols b m)
    (h' : StoredAs d cols b m') (c : Str) : m.get c = m'.get c := by
  by_cases hc : c ∈ cols
  · have h1 := h.2.1 c hc
    rw [h'.2.1 c hc] at h1
    exact (Option.some.inj h1).symm
  · by_cases hm : c ∈ d.columns ∧ c ∉ d.computed
    · rw [h.2.2 c hm.1 hm.2 hc, h'.2.2 c hm.1 hm.2 hc]
    · have : c ∉ d.columns.filter fun c => decide (c ∉ d.computed) := by
        simpa [List.mem_filter] using hm
      rw [get_of_not_mem (by rw [h.1]; exact this), get_of_not_mem (by rw [h'.1]; exact this)]

theorem StoredAs.pk_eq {b : List Val} {m : Row} (h : StoredAs d cols b m) (hsub : ∀ c ∈ d.pk, c ∈ cols) :
    d.pk.map m.get = keyOf cols d.pk b := by
  unfold keyOf
  refine List.map_congr_left fun c hc => ?_
  rw [h.2.1 c (hsub c hc)]; rfl

theorem facts_append (hf : Fitting d cols batch) {new : List Row}
    (hn : List.Forall₂ (StoredAs d cols) batch new) (hT : Shaped d T)
    (hu : d.pk ≠ [] → KeysUnique d.pk (T ++ new)) : FlushFacts strategy d cols batch T (T ++ new) := by
  have h1 : ∀ b ∈ batch, ∃ r ∈ new, StoredAs d cols b r := by
    clear hu
    intro b hb
    induction hn with
    | nil => cases hb
    | cons h _ ih =>
      rcases List.mem_cons.1 hb with rfl | hb
      · exact ⟨_, by simp, h⟩
      · obtain ⟨r, h2, h3⟩ := ih ⟨hf.1, hf.2.1, fun b hb => hf.2.2 b (by simp [hb])⟩ hb
        exact ⟨r, by simp [h2], h3⟩
  have h2 : ∀ r ∈ new, ∃ b ∈ batch, StoredAs d cols b r := by
    clear hu h1
    intro r hr
    induction hn with
    | nil => cases hr
    | cons h _ ih =>
      rcases List.mem_cons.1 hr with rfl | hr
      · exact ⟨_, by simp, h⟩
      · obtain ⟨b, h2, h3⟩ := ih ⟨hf.1, hf.2.1, fun b hb => hf.2.2 b (by simp [hb])⟩ hr
        exact ⟨b, by simp [h2], h3⟩
  refine ⟨hu, fun r hr => ?_, fun r hr => ⟨r, by simp [hr], fun _ _ => rfl⟩, fun b hb m hm => ?_, fun r hr => ?_⟩
  · rcases List.mem_append.1 hr with hr | hr
    · exact hT r hr
    · obtain ⟨b, -, h⟩ := h2 r hr
      exact h.1
  · obtain ⟨r, h3, h4⟩ := h1 b hb
    exact ⟨r, by simp [h3], fun c _ => StoredAs.get_eq h4 hm c⟩
  · rcases List.mem_append.1 hr with hr | hr
    · exact .inl ⟨r, hr, fun _ _ => rfl⟩
    · obtain ⟨b, h3, h4⟩ := h2 r hr
      exact .inr ⟨b, h3, r, h4, fun _ _ => rfl⟩

theorem get_of_keys {pk : List Str} {r m : Row} (h : pk.map r.get = pk.map m.get) {c : Str} (hc : c ∈ pk) :
    r.get c = m.get c := List.map_inj_left.1 h c hc

theorem flush_facts (hf : Fitting d cols batch) (hu : d.pk ≠ [] → KeysUnique d.pk T) (hT : Shaped d T)
    (h : flushBuffer dialect strategy d cols batch T = .ok T') : FlushFacts strategy d cols batch T T' := by
  by_cases hpk : d.pk = []
  · obtain ⟨new, h1, h2⟩ := c34_no_primary_key (dialect := dialect) (strategy := strategy) (T := T) hpk hf
    rw [h] at h1; cases h1
    exact facts_append hf h2 hT fun h => absurd hpk h
  have hu := hu hpk
  by_cases hsub : ∀ c ∈ d.pk, c ∈ cols
  swap
  · push Not at hsub
    obtain ⟨c, h1, h2⟩ := hsub
    rw [c34_key_column_omitted h1 h2] at h
    cases h
  cases strategy with
  | error =>
    have := c34_error (dialect := dialect) hpk hsub hf hu
    split at this
    · rename_i hc
      obtain ⟨new, h1, h2⟩ := this
      rw [h] at h1; cases h1
      refine facts_append hf h2 hT fun _ => ?_
      have hkeys : new.map (fun r => d.pk.map r.get) = batch.map (keyOf cols d.pk) := by
        clear hc h
        induction h2 with
        | nil => rfl
        | cons h _ ih =>
          rw [List.map_cons, List.map_cons, ih ⟨hf.1, hf.2.1, fun b hb => hf.2.2 b (by simp [hb])⟩,
            StoredAs.pk_eq h hsub]
      unfold KeysUnique
      rw [List.map_append, hkeys, List.nodup_append]
      refine ⟨hu, hc.1, fun k hk k' hk' e => ?_⟩
      subst e
      obtain ⟨r, hr, rfl⟩ := List.mem_map.1 hk
      obtain ⟨b, hb, e⟩ := List.mem_map.1 hk'
      have : r ∈ withKey d.pk T (keyOf cols d.pk b) := mem_withKey.2 ⟨hr, e.symm⟩
      rw [hc.2 b hb] at this
      cases this
    · rw [h] at this; cases this
  | skip =>
    by_cases hd : dialect = .generic
    · subst hd
      rw [c34_other_dialects (by decide) hpk hsub] at h
      cases h
    obtain ⟨new, h1, h2, h3, h4⟩ := c34_skip hd hpk hsub hf hu
    rw [h] at h1; cases h1
    refine ⟨fun _ => h2, fun r hr => ?_, fun r hr => ⟨r, by simp [hr], fun _ _ => rfl⟩, fun b hb m hm => ?_,
      fun r hr => ?_⟩
    · rcases List.mem_append.1 hr with hr | hr
      · exact hT r hr
      · obtain ⟨-, b, -, h⟩ := h3 r hr
        exact h.1
    · obtain ⟨r, hr⟩ := List.exists_mem_of_ne_nil _ (h4 b hb)
      obtain ⟨h5, h6⟩ := mem_withKey.1 hr
      refine ⟨r, h5, fun c hc => ?_⟩
      rcases hc with hc | hc | hc
      · cases hc
      · exact absurd hc hpk
      · exact get_of_keys (h6.trans (StoredAs.pk_eq hm hsub).symm) hc
    · rcases List.mem_append.1 hr with hr | hr
      · exact .inl ⟨r, hr, fun _ _ => rfl⟩
      · obtain ⟨-, b, h5, h6⟩ := h3 r hr
        exact .inr ⟨b, (List.mem_filter.1 (List.mem_of_head? h5)).1, r, h6, fun _ _ => rfl⟩
  | replace =>
    by_cases hd : dialect = .generic
    · subst hd
      rw [c34_other_dialects (by decide) hpk hsub] at h
      cases h
    by_cases hq : dialect = .sqlite → ∀ c ∈ d.columns, c ∉ d.computed
    · obtain ⟨T2, h1, h2, h3, h4⟩ := c34_replace hd hpk hsub hf hq hu hT
      rw [h] at h1; cases h1
      have hlast : ∀ k, (∃ b ∈ batch, keyOf cols d.pk b = k) →
          ∃ b, b ∈ batch ∧ keyOf cols d.pk b = k ∧
            (batch.filter fun b => decide (keyOf cols d.pk b = k)).getLast? = some b := by
        rintro k ⟨b, hb, hk⟩
        have hne : (batch.filter fun b => decide (keyOf cols d.pk b = k)) ≠ [] :=
          List.ne_nil_of_mem (List.mem_filter.2 ⟨hb, by simpa using hk⟩)
        have := List.getLast_mem hne
        rw [List.mem_filter] at this
        exact ⟨_, this.1, by simpa using this.2, List.getLast?_eq_some_getLast hne⟩
      have hkey : ∀ k, k ∈ T.map (fun r => d.pk.map r.get) ∨ (∃ b ∈ batch, keyOf cols d.pk b = k) →
          ∃ r ∈ T', d.pk.map r.get = k := by
        intro k hk
        by_cases hb : ∃ b ∈ batch, keyOf cols d.pk b = k
        · obtain ⟨b, -, -, h5⟩ := hlast k hb
          obtain ⟨r, h6, -⟩ := h4 k b h5
          have : r ∈ withKey d.pk T' k := by rw [h6]; simp
          exact ⟨r, (mem_withKey.1 this).1, (mem_withKey.1 this).2⟩
        · rcases hk with hk | hk
          · obtain ⟨r, hr, rfl⟩ := List.mem_map.1 hk
            have : r ∈ withKey d.pk T (d.pk.map r.get) := mem_withKey.2 ⟨hr, rfl⟩
            rw [← h3 _ fun b hb' e => hb ⟨b, hb', e⟩] at this
            exact ⟨r, (mem_withKey.1 this).1, rfl⟩
          · exact absurd hk hb
      refine ⟨fun _ => h2, fun r hr => ?_, fun r hr => ?_, fun b hb m hm => ?_, fun r hr => ?_⟩
      · have hmem : r ∈ withKey d.pk T' (d.pk.map r.get) := mem_withKey.2 ⟨hr, rfl⟩
        by_cases hb : ∃ b ∈ batch, keyOf cols d.pk b = d.pk.map r.get
        · obtain ⟨b, -, -, h5⟩ := hlast _ hb
          obtain ⟨r2, h6, h7, -⟩ := h4 _ b h5
          rw [h6] at hmem
          rw [List.mem_singleton.1 hmem]
          exact h7
        · rw [h3 _ fun b hb' e => hb ⟨b, hb', e⟩] at hmem
          exact hT r (mem_withKey.1 hmem).1
      · obtain ⟨r', h5, h6⟩ := hkey (d.pk.map r.get) (.inl (List.mem_map.2 ⟨r, hr, rfl⟩))
        refine ⟨r', h5, fun c hc => ?_⟩
        rcases hc with hc | hc | hc
        · cases hc
        · exact absurd hc hpk
        · exact get_of_keys h6 hc
      · obtain ⟨r', h5, h6⟩ := hkey (keyOf cols d.pk b) (.inr ⟨b, hb, rfl⟩)
        refine ⟨r', h5, fun c hc => ?_⟩
        rcases hc with hc | hc | hc
        · cases hc
        · exact absurd hc hpk
        · exact get_of_keys (h6.trans (StoredAs.pk_eq hm hsub).symm) hc
      · have hmem : r ∈ withKey d.pk T' (d.pk.map r.get) := mem_withKey.2 ⟨hr, rfl⟩
        by_cases hb : ∃ b ∈ batch, keyOf cols d.pk b = d.pk.map r.get
        · obtain ⟨b, hbm, -, h5⟩ := hlast _ hb
          obtain ⟨r2, h6, h7, h8, -⟩ := h4 _ b h5
          rw [h6] at hmem
          have := List.mem_singleton.1 hmem
          subst this
          have hst := fullRow_stored hf hbm
          refine .inr ⟨b, hbm, _, hst, fun c hc => ?_⟩
          rcases hc rfl with hc | hc
          · exact absurd hc hpk
          · have := h8 c hc
            rw [hst.2.1 c hc] at this
            exact (Option.some.inj this).symm
        · rw [h3 _ fun b hb' e => hb ⟨b, hb', e⟩] at hmem
          exact .inl ⟨r, (mem_withKey.1 hmem).1, fun _ _ => rfl⟩
    · push Not at hq
      obtain ⟨h1, c, h2, h3⟩ := hq
      subst h1
      unfold flushBuffer at h
      rw [conflictInit_ok hpk hsub] at h
      by_cases hn : ∀ c ∈ cols, c ∈ d.pk
      · -- only key columns are written: `skip`
        rw [if_pos ⟨rfl, hn⟩] at h
        have hs : flushBuffer .sqlite .skip d cols batch T = .ok T' := by
          unfold flushBuffer
          rw [conflictInit_ok hpk hsub, if_neg (by rintro ⟨h, -⟩; cases h)]
          exact h
        obtain ⟨new, g1, g2, g3, g4⟩ := c34_skip (dialect := .sqlite) (by decide) hpk hsub hf hu
        rw [hs] at g1; cases g1
        refine ⟨fun _ => g2, fun r hr => ?_, fun r hr => ⟨r, by simp [hr], fun _ _ => rfl⟩, fun b hb m hm => ?_,
          fun r hr => ?_⟩
        · rcases List.mem_append.1 hr with hr | hr
          · exact hT r hr
          · obtain ⟨-, b, -, h⟩ := g3 r hr
            exact h.1
        · obtain ⟨r, hr⟩ := List.exists_mem_of_ne_nil _ (g4 b hb)
          obtain ⟨h5, h6⟩ := mem_withKey.1 hr
          refine ⟨r, h5, fun c hc => ?_⟩
          rcases hc with hc | hc | hc
          · cases hc
          · exact absurd hc hpk
          · exact get_of_keys (h6.trans (StoredAs.pk_eq hm hsub).symm) hc
        · rcases List.mem_append.1 hr with hr | hr
          · exact .inl ⟨r, hr, fun _ _ => rfl⟩
          · obtain ⟨-, b, h5, h6⟩ := g3 r hr
            exact .inr ⟨b, (List.mem_filter.1 (List.mem_of_head? h5)).1, r, h6, fun _ _ => rfl⟩
      · rw [if_neg fun h => hn h.2] at h
        dsimp only at h
        rw [if_neg (by rintro ⟨h, -⟩; cases h), if_pos] at h
        · cases h
        · exact ⟨rfl, List.any_eq_true.2 ⟨c, h2, by simpa using h3⟩⟩

end Subsetter
