import Verif.Spec.Merge
import Verif.Proofs.Create

/- Lemmas about merge mode. -/
namespace Subsetter
open Spec

theorem colMax_aux (c : Str) : ∀ (rows : List Row) (acc : Option Int),
    (match (rows.foldl (fun acc r => maxStep acc (r.get c)) acc : Option Int) with
    | none => acc = none ∧ ∀ r ∈ rows, ∀ v, r.get c ≠ .int v
    | some m => (acc = some m ∨ ∃ r ∈ rows, r.get c = .int m) ∧ (∀ a, acc = some a → a ≤ m) ∧
        ∀ r ∈ rows, ∀ v, r.get c = .int v → v ≤ m)
  | [], acc => by
    cases acc <;> simp
  | r :: rows, acc => by
    rw [List.foldl_cons]
    have ih := colMax_aux c rows (maxStep acc (r.get c))
    split at ih
    · obtain ⟨h1, h2⟩ := ih
      cases hv : r.get c with
      | int v => rw [hv] at h1; cases acc <;> cases h1
      | null | str _ | other _ =>
        rw [hv] at h1
        cases acc with
        | some a => cases h1
        | none =>
          refine ⟨rfl, fun r' hr' w => ?_⟩
          rcases List.mem_cons.1 hr' with rfl | hr'
          · rw [hv]; simp
          · exact h2 r' hr' w
    · rename_i m h
      obtain ⟨h1, h2, h3⟩ := ih
      cases hv : r.get c with
      | int v =>
        rw [hv] at h1 h2
        cases acc with
        | none =>
          have hle := h2 v rfl
          refine ⟨.inr ?_, by simp, fun r' hr' w hw => ?_⟩
          · rcases h1 with h1 | ⟨r', h4, h5⟩
            · cases h1
              exact ⟨r, by simp, hv⟩
            · exact ⟨r', by simp [h4], h5⟩
          · rcases List.mem_cons.1 hr' with rfl | hr'
            · rw [hv] at hw; cases hw; exact hle
            · exact h3 r' hr' w hw
        | some a =>
          have hle := h2 (if a < v then v else a) rfl
          refine ⟨?_, ?_, fun r' hr' w hw => ?_⟩
          · rcases h1 with h1 | ⟨r', h4, h5⟩
            · by_cases hav : a < v
              · simp only [maxStep, if_pos hav] at h1
                cases h1
                exact .inr ⟨r, by simp, hv⟩
              · simp only [maxStep, if_neg hav] at h1
                exact .inl h1
            · exact .inr ⟨r', by simp [h4], h5⟩
          · intro a' e
            cases e
            split at hle <;> omega
          · rcases List.mem_cons.1 hr' with rfl | hr'
            · rw [hv] at hw; cases hw
              split at hle <;> omega
            · exact h3 r' hr' w hw
      | null | str _ | other _ =>
        rw [hv] at h1 h2
        refine ⟨?_, fun a e => h2 a e, fun r' hr' w hw => ?_⟩
        · rcases h1 with h1 | ⟨r', h4, h5⟩
          · exact .inl h1
          · exact .inr ⟨r', by simp [h4], h5⟩
        · rcases List.mem_cons.1 hr' with rfl | hr'
          · rw [hv] at hw; cases hw
          · exact h3 r' hr' w hw

theorem colMax_isMax (rows : List Row) (c : Str) : IsMax rows c (colMax rows c) := by
  have h := colMax_aux c rows none
  unfold colMax
  split at h
  · rename_i h1
    rw [h1]
    exact h.2
  · rename_i m h1
    rw [h1]
    obtain ⟨h2, -, h3⟩ := h
    rcases h2 with h2 | h2
    · cases h2
    · exact ⟨h2, h3⟩

theorem isMax_unique {rows : List Row} {c : Str} {m m' : Option Int} (h : IsMax rows c m) (h' : IsMax rows c m') :
    m = m' := by
  cases m with
  | none =>
    cases m' with
    | none => rfl
    | some b =>
      obtain ⟨⟨r, h1, h2⟩, -⟩ := h'
      exact absurd h2 (h r h1 b)
  | some a =>
    obtain ⟨⟨r, h1, h2⟩, h3⟩ := h
    cases m' with
    | none => exact absurd h2 (h' r h1 a)
    | some b =>
      obtain ⟨⟨r', h4, h5⟩, h6⟩ := h'
      have := h3 r' h4 b h5
      have := h6 r h1 a h2
      congr 1
      omega

theorem destOf_iff {remap : Str → Str} {n : Str} {k0 k : Key} (h : parseTableName n = some k0) :
    DestOf remap n k ↔ remapTable remap k0 = some k := by
  constructor
  · rintro ⟨s, t, h1, h2⟩
    rw [h] at h1
    cases h1
    exact h2
  · intro h1
    exact ⟨k0.1, k0.2, h, h1⟩

/-- What the first loop leaves for the tables processed. -/
theorem prepareMax_ok {remap : Str → Str} {T : Tables} {S : DbState} {pass : List Str} :
    ∀ {ns : List Str} {pm pm' : Dict Str (Option Int)} {off off' : Dict Key (Dict Str Int)},
    prepareMax remap T S pass ns pm off = .ok (pm', off') → ns.Nodup →
    (∀ n ∈ ns, ∀ n' ∈ ns, ∀ k, n ∉ pass → n' ∉ pass → DestOf remap n k → DestOf remap n' k → n = n') →
    (∀ n, (n ∉ ns ∨ n ∈ pass) → dget pm' n = dget pm n) ∧
    (∀ k, (∀ n ∈ ns, n ∉ pass → ¬ DestOf remap n k) → dget off' k = dget off k) ∧
    ∀ n ∈ ns, n ∉ pass → ∃ k t, DestOf remap n k ∧ dget T k = some t ∧
      ((∃ c, t.primaryKey = [c] ∧ c ∈ t.intColumns ∧ dget pm' n = some (colMax (S k) c) ∧
          dget off' k = some (match colMax (S k) c with | none => [] | some m => [(c, m + 1)])) ∨
       ((∀ c, t.primaryKey = [c] → c ∉ t.intColumns) ∧ dget pm' n = dget pm n ∧ dget off' k = some []))
  | [], pm, pm', off, off', h, _, _ => by
    cases h
    exact ⟨fun _ _ => rfl, fun _ _ => rfl, by simp⟩
  | n :: ns, pm, pm', off, off', h, hnd, hinj => by
    rw [List.nodup_cons] at hnd
    have hinj' : ∀ m ∈ ns, ∀ m' ∈ ns, ∀ k, m ∉ pass → m' ∉ pass → DestOf remap m k → DestOf remap m' k → m = m' :=
      fun m hm m' hm' => hinj m (by simp [hm]) m' (by simp [hm'])
    unfold prepareMax at h
    split at h
    · rename_i hp
      obtain ⟨h1, h2, h3⟩ := prepareMax_ok h hnd.2 hinj'
      refine ⟨fun m hm => h1 m ?_, fun k hk => h2 k fun m hm => hk m (by simp [hm]), fun m hm hmp => ?_⟩
      · rcases hm with hm | hm
        · exact .inl fun h => hm (by simp [h])
        · exact .inr hm
      · rcases List.mem_cons.1 hm with rfl | hm
        · exact absurd hp hmp
        · exact h3 m hm hmp
    · rename_i hp
      cases h4 : parseTableName n with
      | none => rw [h4] at h; cases h
      | some k0 =>
        rw [h4] at h; dsimp only at h
        cases h5 : remapTable remap k0 with
        | none => rw [h5] at h; cases h
        | some k =>
          rw [h5] at h; dsimp only at h
          have hd : DestOf remap n k := (destOf_iff h4).2 h5
          cases h6 : dget T k with
          | none => rw [h6] at h; cases h
          | some t =>
            rw [h6] at h; dsimp only at h
            -- the common part of the three cases
            have key : ∀ (pm1 : Dict Str (Option Int)) (e : Dict Str Int),
                prepareMax remap T S pass ns pm1 (dset off k e) = .ok (pm', off') →
                (∀ m, m ≠ n → dget pm1 m = dget pm m) →
                (∀ m, (m ∉ n :: ns ∨ m ∈ pass) → dget pm' m = dget pm m) ∧
                (∀ k', (∀ m ∈ n :: ns, m ∉ pass → ¬ DestOf remap m k') → dget off' k' = dget off k') ∧
                dget pm' n = dget pm1 n ∧ dget off' k = some e ∧
                ∀ m ∈ ns, m ∉ pass → ∃ k t, DestOf remap m k ∧ dget T k = some t ∧
                  ((∃ c, t.primaryKey = [c] ∧ c ∈ t.intColumns ∧ dget pm' m = some (colMax (S k) c) ∧
                      dget off' k = some (match colMax (S k) c with | none => [] | some m => [(c, m + 1)])) ∨
                   ((∀ c, t.primaryKey = [c] → c ∉ t.intColumns) ∧ dget pm' m = dget pm m ∧ dget off' k = some [])) := by
              intro pm1 e h hpm
              obtain ⟨h1, h2, h3⟩ := prepareMax_ok h hnd.2 hinj'
              refine ⟨fun m hm => ?_, fun k' hk' => ?_, h1 n (.inl hnd.1), ?_, fun m hm hmp => ?_⟩
              · have hne : m ≠ n := by
                  rintro rfl
                  rcases hm with hm | hm
                  · exact hm (by simp)
                  · exact hp hm
                rw [h1 m, hpm m hne]
                rcases hm with hm | hm
                · exact .inl fun h => hm (by simp [h])
                · exact .inr hm
              · rw [h2 k' fun m hm => hk' m (by simp [hm]), dget_dset_ne]
                rintro rfl
                exact hk' n (by simp) hp hd
              · rw [h2 k, dget_dset_self]
                intro m hm hmp hmd
                have := hinj m (by simp [hm]) n (by simp) k hmp hp hmd hd
                exact hnd.1 (this ▸ hm)
              · obtain ⟨k2, t2, g1, g2, g3⟩ := h3 m hm hmp
                refine ⟨k2, t2, g1, g2, ?_⟩
                rcases g3 with g3 | ⟨g3, g4, g5⟩
                · exact .inl g3
                · refine .inr ⟨g3, ?_, g5⟩
                  rw [g4, hpm]
                  rintro rfl
                  exact hnd.1 hm
            split at h
            · rename_i c hc
              split at h
              · rename_i hi
                cases hm : colMax (S k) c with
                | none =>
                  rw [hm] at h; dsimp only at h
                  obtain ⟨g1, g2, g3, g4, g5⟩ := key _ _ h fun m hm => dget_dset_ne _ _ (Ne.symm hm)
                  refine ⟨g1, g2, fun m hm' hmp => ?_⟩
                  rcases List.mem_cons.1 hm' with rfl | hm'
                  · exact ⟨k, t, hd, h6, .inl ⟨c, hc, hi, by rw [g3, dget_dset_self, hm], by rw [g4, hm]⟩⟩
                  · exact g5 m hm' hmp
                | some mx =>
                  rw [hm] at h; dsimp only at h
                  obtain ⟨g1, g2, g3, g4, g5⟩ := key _ _ h fun m hm => dget_dset_ne _ _ (Ne.symm hm)
                  refine ⟨g1, g2, fun m hm' hmp => ?_⟩
                  rcases List.mem_cons.1 hm' with rfl | hm'
                  · exact ⟨k, t, hd, h6, .inl ⟨c, hc, hi, by rw [g3, dget_dset_self, hm], by rw [g4, hm]⟩⟩
                  · exact g5 m hm' hmp
              · rename_i hi
                obtain ⟨g1, g2, g3, g4, g5⟩ := key _ _ h fun m _ => rfl
                refine ⟨g1, g2, fun m hm' hmp => ?_⟩
                rcases List.mem_cons.1 hm' with rfl | hm'
                · refine ⟨k, t, hd, h6, .inr ⟨fun c' hc' => ?_, g3, g4⟩⟩
                  rw [hc] at hc'
                  cases hc'
                  exact hi
                · exact g5 m hm' hmp
            · rename_i hc
              obtain ⟨g1, g2, g3, g4, g5⟩ := key _ _ h fun m _ => rfl
              refine ⟨g1, g2, fun m hm' hmp => ?_⟩
              rcases List.mem_cons.1 hm' with rfl | hm'
              · exact ⟨k, t, hd, h6, .inr ⟨fun c' hc' => absurd hc' (hc c'), g3, g4⟩⟩
              · exact g5 m hm' hmp

/-- A foreign key that sets an offset. -/
def Hit (src : Tables) (pm : Dict Str (Option Int)) (fk : ForeignKey) (c : Str) (m : Int) : Prop :=
  fk.columns = [c] ∧ (∃ p, dget src fk.dst = some p ∧ fk.dstColumns = p.primaryKey) ∧
    dget pm fk.dst.str = some (some m)

theorem fkOffsets_ok {src : Tables} {pm : Dict Str (Option Int)} : ∀ {fks : List ForeignKey} {d d' : Dict Str Int},
    fkOffsets src pm fks d = .ok d' → ∀ c,
    (∃ fk ∈ fks, ∃ m, Hit src pm fk c m ∧ dget d' c = some (m + 1)) ∨
    ((∀ fk ∈ fks, ∀ m, ¬ Hit src pm fk c m) ∧ dget d' c = dget d c)
  | [], d, d', h, c => by
    cases h
    exact .inr ⟨by simp, rfl⟩
  | fk :: fks, d, d', h, c => by
    unfold fkOffsets at h
    have rest : ∀ {d1 : Dict Str Int}, fkOffsets src pm fks d1 = .ok d' → dget d1 c = dget d c →
        (∀ m, ¬ Hit src pm fk c m) →
        (∃ fk' ∈ fk :: fks, ∃ m, Hit src pm fk' c m ∧ dget d' c = some (m + 1)) ∨
        ((∀ fk' ∈ fk :: fks, ∀ m, ¬ Hit src pm fk' c m) ∧ dget d' c = dget d c) := by
      intro d1 h1 hd hn
      rcases fkOffsets_ok h1 c with ⟨fk', g1, g2⟩ | ⟨g1, g2⟩
      · exact .inl ⟨fk', by simp [g1], g2⟩
      · refine .inr ⟨fun fk' hfk' m => ?_, by rw [g2, hd]⟩
        rcases List.mem_cons.1 hfk' with rfl | hfk'
        · exact hn m
        · exact g1 fk' hfk' m
    split at h
    · rename_i c0 hc0
      cases h1 : dget src fk.dst with
      | none => rw [h1] at h; cases h
      | some p =>
        rw [h1] at h; dsimp only at h
        split at h
        · rename_i hne
          refine rest h rfl fun m hm => ?_
          obtain ⟨p', e1, e2⟩ := hm.2.1
          rw [h1] at e1
          cases e1
          exact hne e2
        · rename_i heq
          rw [not_not] at heq
          split at h
          · rename_i m hm
            by_cases hcc : c0 = c
            · subst hcc
              rcases fkOffsets_ok h c0 with ⟨fk', g1, g2⟩ | ⟨g1, g2⟩
              · exact .inl ⟨fk', by simp [g1], g2⟩
              · exact .inl ⟨fk, by simp, m, ⟨hc0, ⟨p, h1, heq⟩, hm⟩, by rw [g2, dget_dset_self]⟩
            · refine rest h (dget_dset_ne _ _ hcc) fun m' hm' => ?_
              rw [hm'.1] at hc0
              cases hc0
              exact hcc rfl
          · rename_i hm
            refine rest h rfl fun m' hm' => ?_
            exact hm m' hm'.2.2
    · rename_i hc0
      refine rest h rfl fun m' hm' => ?_
      exact hc0 c hm'.1

theorem prepareFks_ok {remap : Str → Str} {src : Tables} {pm : Dict Str (Option Int)} {pass : List Str} :
    ∀ {ns : List Str} {off off' : Dict Key (Dict Str Int)},
    prepareFks remap src pm pass ns off = .ok off' → ns.Nodup →
    (∀ n ∈ ns, ∀ n' ∈ ns, ∀ k, n ∉ pass → n' ∉ pass → DestOf remap n k → DestOf remap n' k → n = n') →
    (∀ k, (∀ n ∈ ns, n ∉ pass → ¬ DestOf remap n k) → dget off' k = dget off k) ∧
    ∀ n ∈ ns, n ∉ pass → ∃ k0 k t d, parseTableName n = some k0 ∧ DestOf remap n k ∧ dget src k0 = some t ∧
      fkOffsets src pm t.foreignKeys ((dget off k).getD []) = .ok d ∧ dget off' k = some d
  | [], off, off', h, _, _ => by
    cases h
    exact ⟨fun _ _ => rfl, by simp⟩
  | n :: ns, off, off', h, hnd, hinj => by
    rw [List.nodup_cons] at hnd
    have hinj' : ∀ m ∈ ns, ∀ m' ∈ ns, ∀ k, m ∉ pass → m' ∉ pass → DestOf remap m k → DestOf remap m' k → m = m' :=
      fun m hm m' hm' => hinj m (by simp [hm]) m' (by simp [hm'])
    unfold prepareFks at h
    split at h
    · rename_i hp
      obtain ⟨h1, h2⟩ := prepareFks_ok h hnd.2 hinj'
      refine ⟨fun k hk => h1 k fun m hm => hk m (by simp [hm]), fun m hm hmp => ?_⟩
      rcases List.mem_cons.1 hm with rfl | hm
      · exact absurd hp hmp
      · exact h2 m hm hmp
    · rename_i hp
      cases h4 : parseTableName n with
      | none => rw [h4] at h; cases h
      | some k0 =>
        rw [h4] at h; dsimp only at h
        cases h5 : dget src k0 with
        | none => rw [h5] at h; cases h
        | some t =>
          rw [h5] at h; dsimp only at h
          cases h6 : remapTable remap k0 with
          | none => rw [h6] at h; cases h
          | some k =>
            rw [h6] at h; dsimp only at h
            have hd : DestOf remap n k := (destOf_iff h4).2 h6
            cases h7 : fkOffsets src pm t.foreignKeys ((dget off k).getD []) with
            | error e => rw [h7] at h; cases h
            | ok d =>
              rw [h7] at h; dsimp only at h
              obtain ⟨h1, h2⟩ := prepareFks_ok h hnd.2 hinj'
              have hne : ∀ m ∈ ns, m ∉ pass → ¬ DestOf remap m k := fun m hm hmp hmd => by
                have := hinj m (by simp [hm]) n (by simp) k hmp hp hmd hd
                exact hnd.1 (this ▸ hm)
              refine ⟨fun k' hk' => ?_, fun m hm hmp => ?_⟩
              · rw [h1 k' fun m hm => hk' m (by simp [hm]), dget_dset_ne]
                rintro rfl
                exact hk' n (by simp) hp hd
              · rcases List.mem_cons.1 hm with rfl | hm
                · exact ⟨k0, k, t, d, h4, hd, h5, h7, by rw [h1 k hne, dget_dset_self]⟩
                · obtain ⟨k1, k2, t2, d2, g1, g2, g3, g4, g5⟩ := h2 m hm hmp
                  refine ⟨k1, k2, t2, d2, g1, g2, g3, ?_, g5⟩
                  rw [dget_dset_ne] at g4
                  · exact g4
                  · rintro rfl
                    exact hne m hm hmp g2

/-- What `prepare` computes. -/
theorem prepare_ok {M : MergeCtx} (hT : (M.dest.map Prod.fst).Nodup) (hS : (M.src.map Prod.fst).Nodup)
    (hnd : M.planned.Nodup) (hinj : ∀ n ∈ M.planned, ∀ n' ∈ M.planned, ∀ k, DestOf M.remap n k → DestOf M.remap n' k → n = n')
    {offs : Dict Key (Dict Str Int)} (h : prepare M.remap M.src M.dest M.contents M.pass M.planned = .ok offs) :
    (∀ k, (∀ n, ¬ Merged M n k) → offsetsOf offs k = []) ∧
    ∀ n k, Merged M n k → ∀ c,
      (∃ n' d m, KeyRef M n c n' ∧ Shifted M n' d (some m) ∧ dget (offsetsOf offs k) c = some (m + 1)) ∨
      ((∀ n' d m, KeyRef M n c n' → ¬ Shifted M n' d (some m)) ∧
        ((∃ m, Shifted M n c m ∧ dget (offsetsOf offs k) c = m.map (· + 1)) ∨
         ((∀ m, ¬ Shifted M n c m) ∧ dget (offsetsOf offs k) c = none))) := by
  unfold prepare at h
  cases h1 : prepareMax M.remap M.dest M.contents M.pass M.planned [] [] with
  | error e => rw [h1] at h; cases h
  | ok q =>
    obtain ⟨pm, off⟩ := q
    rw [h1] at h; dsimp only at h
    have hinj' : ∀ n ∈ M.planned, ∀ n' ∈ M.planned, ∀ k, n ∉ M.pass → n' ∉ M.pass → DestOf M.remap n k →
        DestOf M.remap n' k → n = n' :=
      fun n hn n' hn' k _ _ hd hd' => hinj n hn n' hn' k hd hd'
    obtain ⟨a1, a2, a3⟩ := prepareMax_ok h1 hnd hinj'
    obtain ⟨b1, b2⟩ := prepareFks_ok h hnd hinj'
    -- the largest values
    have hpm : ∀ n m, dget pm n = some m ↔ ∃ c, Shifted M n c m := by
      intro n m
      constructor
      · intro hg
        by_cases hn : n ∈ M.planned ∧ n ∉ M.pass
        · obtain ⟨k, t, g1, g2, g3⟩ := a3 n hn.1 hn.2
          rcases g3 with ⟨c, g4, g5, g6, -⟩ | ⟨-, g5, -⟩
          · rw [g6] at hg
            cases hg
            exact ⟨c, k, t, ⟨hn.1, hn.2, g1⟩, dget_some_mem g2, g4, g5, colMax_isMax _ _⟩
          · rw [g5] at hg; cases hg
        · rw [a1 n (by tauto)] at hg
          cases hg
      · rintro ⟨c, k, t, ⟨g1, g2, g3⟩, g4, g5, g6, g7⟩
        obtain ⟨k', t', e1, e2, e3⟩ := a3 n g1 g2
        have hk := destOf_unique e1 g3
        subst hk
        rw [dget_of_mem hT g4] at e2
        cases e2
        rcases e3 with ⟨c', e4, e5, e6, -⟩ | ⟨e4, -, -⟩
        · rw [g5] at e4
          cases e4
          rw [e6, isMax_unique (colMax_isMax _ _) g7]
        · exact absurd g6 (e4 c g5)
    have hhit : ∀ n k0 t, parseTableName n = some k0 → dget M.src k0 = some t → ∀ fk ∈ t.foreignKeys, ∀ c m,
        Hit M.src pm fk c m → ∃ n' d, KeyRef M n c n' ∧ Shifted M n' d (some m) := by
      rintro n k0 t g1 g2 fk hfk c m ⟨g3, ⟨p, g4, g5⟩, g6⟩
      obtain ⟨d, hd⟩ := (hpm _ _).1 g6
      exact ⟨_, d, ⟨k0, t, fk, p, g1, dget_some_mem g2, hfk, g3, dget_some_mem g4, g5, rfl⟩, hd⟩
    refine ⟨fun k hk => ?_, fun n k hm c => ?_⟩
    · unfold offsetsOf
      rw [b1 k fun n hn hp hd => hk n ⟨hn, hp, hd⟩, a2 k fun n hn hp hd => hk n ⟨hn, hp, hd⟩]
      rfl
    · obtain ⟨g1, g2, g3⟩ := hm
      obtain ⟨k0, k', t, d, e1, e2, e3, e4, e5⟩ := b2 n g1 g2
      have hk := destOf_unique e2 g3
      subst hk
      have hoff : offsetsOf offs k' = d := by unfold offsetsOf; rw [e5]; rfl
      rw [hoff]
      rcases fkOffsets_ok e4 c with ⟨fk, f1, m, f2, f3⟩ | ⟨f1, f2⟩
      · obtain ⟨n', dd, f4, f5⟩ := hhit n k0 t e1 e3 fk f1 c m f2
        exact .inl ⟨n', dd, m, f4, f5, f3⟩
      · refine .inr ⟨?_, ?_⟩
        · rintro n' dd m ⟨k1, t1, fk, p, i1, i2, i3, i4, i5, i6, rfl⟩ hs
          rw [e1] at i1
          cases i1
          rw [dget_of_mem hS i2] at e3
          cases e3
          exact f1 fk i3 m ⟨i4, ⟨p, dget_of_mem hS i5, i6⟩, (hpm _ _).2 ⟨dd, hs⟩⟩
        · rw [f2]
          obtain ⟨k2, t2, j1, j2, j3⟩ := a3 n g1 g2
          have hk2 := destOf_unique j1 g3
          subst hk2
          rcases j3 with ⟨c', j4, j5, j6, j7⟩ | ⟨j4, -, j7⟩
          · rw [j7]
            by_cases hc : c = c'
            · subst hc
              refine .inl ⟨colMax (M.contents k2) c, ⟨k2, t2, ⟨g1, g2, g3⟩, dget_some_mem j2, j4, j5, colMax_isMax _ _⟩, ?_⟩
              cases colMax (M.contents k2) c with
              | none => rfl
              | some m => simp [dget]
            · refine .inr ⟨?_, ?_⟩
              · rintro m ⟨k3, t3, ⟨-, -, i1⟩, i2, i3, -⟩
                rw [destOf_unique i1 g3] at i2
                rw [dget_of_mem hT i2] at j2
                cases j2
                rw [i3] at j4
                cases j4
                exact hc rfl
              · cases colMax (M.contents k2) c' with
                | none => rfl
                | some m => simp [dget, Ne.symm hc]
          · refine .inr ⟨?_, by rw [j7]; rfl⟩
            rintro m ⟨k3, t3, ⟨-, -, i1⟩, i2, i3, i4, -⟩
            rw [destOf_unique i1 g3] at i2
            rw [dget_of_mem hT i2] at j2
            cases j2
            exact j4 c i3 i4

end Subsetter
