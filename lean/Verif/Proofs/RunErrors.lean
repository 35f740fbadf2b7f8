import Verif.Proofs.RunWritten

/- Errors of a run. -/
namespace Subsetter
open Spec Props

variable {σ : Type} {C : RunConfig} {D : Setting σ} {p : Plan} {S : DbState} {s : σ}

theorem copyAll_error {W : Outside σ Val} {dialect : Dialect} {read : Str → Except RunErr (Option TableJob)} :
    ∀ {names : List Str} {hist hist' : List DbState} {s : σ} {writes : Writes} {e : RunErr},
    copyAll W dialect read names hist s = (hist', writes, some e) →
    (∃ n ∈ names, read n = .error e) ∨ ∃ e', e = .dest (.output e')
  | [], hist, hist', s, writes, e, h => by cases h
  | n :: ns, hist, hist', s, writes, e, h => by
    unfold copyAll at h
    cases h1 : read n with
    | error e => rw [h1] at h; cases h; exact .inl ⟨n, by simp, h1⟩
    | ok o =>
      rw [h1] at h
      cases o with
      | none =>
        exact (copyAll_error h).imp (fun ⟨m, hm, he⟩ => ⟨m, by simp [hm], he⟩) id
      | some j =>
        dsimp only at h
        cases h2 : outPlan j.input with
        | error e => rw [h2] at h; cases h; exact .inr ⟨_, rfl⟩
        | ok o =>
          rw [h2] at h; dsimp only at h
          cases h3 : writeAll W (flushTo dialect j.strategy j.key j.input.dest o.colsOut) o j.rows hist s with
          | error q =>
            obtain ⟨st, e⟩ := q
            rw [h3] at h; cases h; exact .inr ⟨_, rfl⟩
          | ok st =>
            rw [h3] at h; dsimp only at h
            cases h4 : copyAll W dialect read ns st.dest st.world with
            | mk hist2 q =>
              obtain ⟨writes2, err2⟩ := q
              rw [h4] at h
              cases h
              exact (copyAll_error h4).imp (fun ⟨m, hm, he⟩ => ⟨m, by simp [hm], he⟩) id

theorem validateFilters_ok {W : Outside σ Val} {T : Tables} : ∀ {fs : List (Str × List (FilterCfg Val))},
    validateFilters W T fs = .ok () → ∀ n f, (n, f) ∈ fs → ∀ k t, parseTableName n = some k → dget T k = some t →
    ∃ ch, constructFilter W t.columns f = .ok ch
  | [], _, n, f, h, _, _, _, _ => by cases h
  | (n0, f0) :: fs, hv, n, f, h, k, t, hk, ht => by
    unfold validateFilters at hv
    split at hv
    · rename_i he
      rcases List.mem_cons.1 h with h | h
      · cases h
        rw [List.isEmpty_iff] at he
        subst he
        exact ⟨_, rfl⟩
      · exact validateFilters_ok hv n f h k t hk ht
    · cases h1 : parseTableName n0 with
      | none => rw [h1] at hv; cases hv
      | some k0 =>
        rw [h1] at hv; dsimp only at hv
        cases h2 : dget T k0 with
        | none =>
          rw [h2] at hv
          rcases List.mem_cons.1 h with h | h
          · cases h
            rw [hk] at h1; cases h1
            rw [ht] at h2; cases h2
          · exact validateFilters_ok hv n f h k t hk ht
        | some t0 =>
          rw [h2] at hv; dsimp only at hv
          cases h3 : constructFilter W t0.columns f0 with
          | error e => rw [h3] at hv; cases hv
          | ok ch =>
            rw [h3] at hv
            rcases List.mem_cons.1 h with h | h
            · cases h
              rw [hk] at h1; cases h1
              rw [ht] at h2; cases h2
              exact ⟨ch, h3⟩
            · exact validateFilters_ok hv n f h k t hk ht

/-- Filters do not fail to be built while copying. -/
theorem filter_built (h : startRun C D p = .ok r) {n : Str} {k : Key} {t : TableMeta} (hk : parseTableName n = some k)
    (ht : dget r.tables k = some t) :
    ∃ ch, constructFilter D.world t.columns ((dget C.filters n).getD []) = .ok ch := by
  obtain ⟨-, -, -, -, hv, -⟩ := startRun_ok h
  cases h1 : dget C.filters n with
  | none => exact ⟨_, rfl⟩
  | some f => exact validateFilters_ok hv n f (dget_some_mem h1) k t hk ht

theorem prepareMax_error {remap : Str → Str} {T : Tables} {S : DbState} {pass : List Str} : ∀ {ns : List Str}
    {pm : Dict Str (Option Int)} {off : Dict Key (Dict Str Int)} {e : DestErr},
    prepareMax remap T S pass ns pm off = .error e → (∀ n ∈ ns, ∃ k, DestOf remap n k) →
    e = .keyError ∧ ∃ n ∈ ns, n ∉ pass ∧ ∃ k, DestOf remap n k ∧ dget T k = none
  | [], pm, off, e, h, _ => by cases h
  | n :: ns, pm, off, e, h, hd => by
    unfold prepareMax at h
    have hd' : ∀ n ∈ ns, ∃ k, DestOf remap n k := fun m hm => hd m (by simp [hm])
    have lift : (e = .keyError ∧ ∃ n ∈ ns, n ∉ pass ∧ ∃ k, DestOf remap n k ∧ dget T k = none) →
        e = .keyError ∧ ∃ m ∈ n :: ns, m ∉ pass ∧ ∃ k, DestOf remap m k ∧ dget T k = none :=
      fun ⟨a, m, hm, b⟩ => ⟨a, m, by simp [hm], b⟩
    split at h
    · exact lift (prepareMax_error h hd')
    · rename_i hp
      obtain ⟨k, a, b, h1, h2⟩ := hd n (by simp)
      rw [h1] at h; dsimp only at h
      rw [show remapTable remap (a, b) = some k from h2] at h; dsimp only at h
      cases h3 : dget T k with
      | none =>
        rw [h3] at h; cases h
        exact ⟨rfl, n, by simp, hp, k, ⟨a, b, h1, h2⟩, h3⟩
      | some t =>
        rw [h3] at h; dsimp only at h
        split at h
        · split at h
          · split at h
            · exact lift (prepareMax_error h hd')
            · exact lift (prepareMax_error h hd')
          · exact lift (prepareMax_error h hd')
        · exact lift (prepareMax_error h hd')

theorem fkOffsets_error {src : Tables} {pm : Dict Str (Option Int)} : ∀ {fks : List ForeignKey} {d : Dict Str Int}
    {e : DestErr}, fkOffsets src pm fks d = .error e →
    e = .keyError ∧ ∃ fk ∈ fks, dget src (fk.dstSchema, fk.dstTable) = none
  | [], d, e, h => by cases h
  | fk :: fks, d, e, h => by
    unfold fkOffsets at h
    have lift : (e = .keyError ∧ ∃ fk ∈ fks, dget src (fk.dstSchema, fk.dstTable) = none) →
        e = .keyError ∧ ∃ fk' ∈ fk :: fks, dget src (fk'.dstSchema, fk'.dstTable) = none :=
      fun ⟨a, m, hm, b⟩ => ⟨a, m, by simp [hm], b⟩
    split at h
    · cases h1 : dget src fk.dst with
      | none => rw [h1] at h; cases h; exact ⟨rfl, fk, by simp, h1⟩
      | some t =>
        rw [h1] at h; dsimp only at h
        split at h
        · exact lift (fkOffsets_error h)
        · split at h
          · exact lift (fkOffsets_error h)
          · exact lift (fkOffsets_error h)
    · exact lift (fkOffsets_error h)

theorem prepareFks_error {remap : Str → Str} {src : Tables} {pm : Dict Str (Option Int)} {pass : List Str} :
    ∀ {ns : List Str} {off : Dict Key (Dict Str Int)} {e : DestErr},
    prepareFks remap src pm pass ns off = .error e → (∀ n ∈ ns, ∃ k, DestOf remap n k) →
    e = .keyError ∧ ∃ n ∈ ns, n ∉ pass ∧ ∃ k, parseTableName n = some k ∧ (dget src k = none ∨
      ∃ t, dget src k = some t ∧ ∃ fk ∈ t.foreignKeys, dget src (fk.dstSchema, fk.dstTable) = none)
  | [], off, e, h, _ => by cases h
  | n :: ns, off, e, h, hd => by
    unfold prepareFks at h
    have hd' : ∀ n ∈ ns, ∃ k, DestOf remap n k := fun m hm => hd m (by simp [hm])
    have lift : (e = .keyError ∧ ∃ n ∈ ns, n ∉ pass ∧ ∃ k, parseTableName n = some k ∧ (dget src k = none ∨
        ∃ t, dget src k = some t ∧ ∃ fk ∈ t.foreignKeys, dget src (fk.dstSchema, fk.dstTable) = none)) →
        e = .keyError ∧ ∃ m ∈ n :: ns, m ∉ pass ∧ ∃ k, parseTableName m = some k ∧ (dget src k = none ∨
      ∃ t, dget src k = some t ∧ ∃ fk ∈ t.foreignKeys, dget src (fk.dstSchema, fk.dstTable) = none) :=
      fun ⟨a, m, hm, b⟩ => ⟨a, m, by simp [hm], b⟩
    split at h
    · exact lift (prepareFks_error h hd')
    · rename_i hp
      obtain ⟨k, a, b, h1, h2⟩ := hd n (by simp)
      rw [h1] at h; dsimp only at h
      cases h3 : dget src (a, b) with
      | none => rw [h3] at h; cases h; exact ⟨rfl, n, by simp, hp, _, h1, .inl h3⟩
      | some t =>
        rw [h3] at h; dsimp only at h
        rw [show remapTable remap (a, b) = some k from h2] at h; dsimp only at h
        cases h4 : fkOffsets src pm t.foreignKeys ((dget off k).getD []) with
        | error e =>
          rw [h4] at h; cases h
          obtain ⟨g1, g2⟩ := fkOffsets_error h4
          exact ⟨g1, n, by simp, hp, _, h1, .inr ⟨t, h3, g2⟩⟩
        | ok d =>
          rw [h4] at h
          exact lift (prepareFks_error h hd')

theorem prepare_error {remap : Str → Str} {src T : Tables} {S : DbState} {pass planned : List Str} {e : DestErr}
    (h : prepare remap src T S pass planned = .error e) (hd : ∀ n ∈ planned, ∃ k, DestOf remap n k) :
    e = .keyError ∧ ∃ n ∈ planned, n ∉ pass ∧ ((∃ k, DestOf remap n k ∧ dget T k = none) ∨
      ∃ k, parseTableName n = some k ∧ (dget src k = none ∨
        ∃ t, dget src k = some t ∧ ∃ fk ∈ t.foreignKeys, dget src (fk.dstSchema, fk.dstTable) = none)) := by
  unfold prepare at h
  cases h1 : prepareMax remap T S pass planned [] [] with
  | error e' =>
    rw [h1] at h; cases h
    obtain ⟨g1, n, g2, g3, g4⟩ := prepareMax_error h1 hd
    exact ⟨g1, n, g2, g3, .inl g4⟩
  | ok q =>
    obtain ⟨pm, off⟩ := q
    rw [h1] at h
    obtain ⟨g1, n, g2, g3, g4⟩ := prepareFks_error h hd
    exact ⟨g1, n, g2, g3, .inr g4⟩

theorem planned_dest {r : Started} (h : startRun C D p = .ok r) : ∀ n ∈ dkeys p.queries, ∃ k, DestOf C.remap n k := by
  obtain ⟨-, -, -, -, -, -, h1⟩ := startRun_ok h
  intro n hn
  obtain ⟨k, hk, -⟩ := (remapped_facts (destInit_ok h1).1).2.1 n hn
  exact ⟨k, hk⟩

/-- Errors while tables are read. -/
theorem readTable_error {r : Started} {x : DestMeta} {offs : Dict Key (Dict Str Int)} {compact : Dict Key (List Str)}
    {temps : Temps} (h : startRun C D p = .ok r) {n : Str} {e : RunErr}
    (he : readTable C D r x offs compact p temps n = .error e) :
    (∃ e', e = .exec e') ∨ (e = .dest .keyError ∧ ∃ k, DestOf C.remap n k ∧ dget x.tables k = none) := by
  unfold readTable at he
  cases h1 : parseTableName n with
  | none => rw [h1] at he; cases he; exact .inl ⟨_, rfl⟩
  | some k =>
    rw [h1] at he; dsimp only at he
    cases h2 : dget p.queries n with
    | none => rw [h2] at he; cases he
    | some q =>
      rw [h2] at he; dsimp only at he
      cases h3 : copyRows D.engine r.tables D.le C.compact.startKey compact D.src D.reopen temps k q with
      | error e => rw [h3] at he; cases he; exact .inl ⟨_, rfl⟩
      | ok rows =>
        rw [h3] at he; dsimp only at he
        cases h4 : dget r.tables k with
        | none => rw [h4] at he; cases he; exact .inl ⟨_, rfl⟩
        | some t =>
          rw [h4] at he; dsimp only at he
          obtain ⟨ch, hch⟩ := filter_built h h1 h4
          obtain ⟨kd, a, b, h5, h6⟩ := planned_dest h n (dget_isSome_iff.1 (by rw [h2]; rfl))
          have hk : k = (a, b) := by rw [h1] at h5; cases h5; rfl
          unfold tableJob at he
          rw [hch] at he; dsimp only at he
          rw [show remapTable C.remap k = some kd by rw [hk]; exact h6] at he; dsimp only at he
          cases h7 : dget x.tables kd with
          | none =>
            rw [h7] at he; cases he
            exact .inr ⟨rfl, kd, ⟨a, b, h5, h6⟩, h7⟩
          | some td => rw [h7] at he; cases he

end Subsetter
