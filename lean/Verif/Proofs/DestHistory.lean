import Verif.Proofs.DestFlush
import Verif.Proofs.Dest
import Verif.Props.Output

/- Foreign keys while tables are written. -/
namespace Subsetter
open Spec Props

variable {σ : Type} {W : Outside σ Val} {dialect : Dialect}

abbrev Writes := List (Key × List (List (List Val)))

theorem Run.all {p : OutPlan} {P : List Val → Prop} {xs : List (List Val × Nat)} {s s' : σ} {os : List (List Val)}
    (h : Run W p xs s os s')
    (hp : ∀ x ∈ xs, ∀ s o s', outRow W p x s = .ok (o, s') → P o) : ∀ o ∈ os, P o := by
  induction h with
  | nil => simp
  | cons h _ ih =>
    intro o ho
    rcases List.mem_cons.1 ho with rfl | ho
    · exact hp _ (by simp) _ _ _ h
    · exact ih (fun x hx => hp x (by simp [hx])) o ho

/-- Batches made by a run can be written. -/
theorem run_fitting {j : TableJob} (hj : JobOK W j) {p : OutPlan} (hp : outPlan j.input = .ok p)
    {pre : List (List Val × Nat)} (hpre : pre <+: copies p.multiplier j.rows) {s s' : σ}
    {outs : List (List Val)} (h : Run W p pre s outs s') {written : List (List (List Val))}
    (hw : written.flatten <+: outs) : ∀ b ∈ written, Fitting j.input.dest p.colsOut b := by
  obtain ⟨cols, fs, hc, hnd, hr⟩ := hj
  obtain ⟨h0, h1, h2, -⟩ := outPlan_ok hp
  obtain ⟨-, hl⟩ := constructFilter_ok hc
  have hnd1 : j.input.chain.colsOut.Nodup := by rw [loop_colsOut hl]; exact hnd.filter _
  have hlen : ∀ o ∈ outs, o.length = p.colsOut.length := by
    refine Run.all h fun x hx s o s' ho => ?_
    have hx' := hpre.subset hx
    unfold copies at hx'
    obtain ⟨r, h3, h4⟩ := List.mem_flatMap.1 hx'
    obtain ⟨i, -, rfl⟩ := List.mem_map.1 h4
    obtain ⟨f, -, h5, -⟩ := plan_isCopy hc hnd hp (hr r h3) ho
    rw [h5, h1]
  intro b hb
  refine ⟨by rw [h1]; exact hnd1.filter _, fun c hc => ?_, fun x hx => ?_⟩
  · rw [h1] at hc
    obtain ⟨h3, h4⟩ := List.mem_filter.1 hc
    exact ⟨h0 c h3, by simpa using h4⟩
  · exact hlen x (hw.subset (List.mem_flatten.2 ⟨b, hb, hx⟩))

theorem WrittenTo.mono {jobs : List TableJob} {w w' : Writes} {k : Key} {r : Row}
    (h : WrittenTo jobs w k r) (hw : ∀ bs, (k, bs) ∈ w → ∃ bs', (k, bs') ∈ w' ∧ ∀ b ∈ bs, b ∈ bs') :
    WrittenTo jobs w' k r := by
  obtain ⟨j, h1, h2, bs, h3, batch, h4, b, h5, h6⟩ := h
  obtain ⟨bs', h7, h8⟩ := hw bs h3
  exact ⟨j, h1, h2, bs', h7, batch, h8 _ h4, b, h5, h6⟩

section
variable (db : Dict Str TableMeta) (jobs : List TableJob) (S0 : DbState)

/-- What holds between batches; `w` is what has been written. -/
structure WInv (S : DbState) (w : Writes) : Prop where
  holds : ∀ j ∈ jobs, TableHolds j.input.dest (S j.key)
  orig : ∀ a fk b, DbFk db a fk b → ∀ r ∈ S a,
    ∃ r0, (r0 ∈ S0 a ∨ WrittenTo jobs w a r0) ∧ ∀ c ∈ fk.columns, r.get c = r0.get c
  kept : ∀ a fk b, DbFk db a fk b → ∀ m, (m ∈ S0 b ∨ WrittenTo jobs w b m) →
    ∃ m' ∈ S b, ∀ c ∈ fk.dstColumns, m'.get c = m.get c

variable {db jobs S0}

theorem nodup_key_eq {j j' : TableJob} (hk : (jobs.map TableJob.key).Nodup) (h : j ∈ jobs) (h' : j' ∈ jobs)
    (e : j.key = j'.key) : j = j' := List.inj_on_of_nodup_map hk h h' e

theorem set_self {S : DbState} {k : Key} {rows : List Row} : S.set k rows k = rows := by
  unfold DbState.set; rw [if_pos rfl]

theorem set_ne {S : DbState} {k k' : Key} {rows : List Row} (h : k' ≠ k) : S.set k rows k' = S k' := by
  unfold DbState.set; rw [if_neg h]

/-- One batch. -/
theorem WInv.flush (hk : (jobs.map TableJob.key).Nodup) (hkept : KeysKept db jobs) {S : DbState}
    {done : Writes} {j : TableJob} (hj : j ∈ jobs) {bs : List (List (List Val))} {batch : List (List Val)}
    (h : WInv db jobs S0 S (done ++ [(j.key, bs)])) {cols : List Str}
    (hcols : cols = writtenColumns j.input.chain j.input.dest) (hf : Fitting j.input.dest cols batch)
    {rows : List Row} (hfl : flushBuffer dialect j.strategy j.input.dest cols batch (S j.key) = .ok rows) :
    WInv db jobs S0 (S.set j.key rows) (done ++ [(j.key, bs ++ [batch])]) := by
  subst hcols
  obtain ⟨f1, f2, f3, f4, f5⟩ := flush_facts hf (h.holds j hj).1 (h.holds j hj).2 hfl
  have hmono : ∀ k r, WrittenTo jobs (done ++ [(j.key, bs)]) k r →
      WrittenTo jobs (done ++ [(j.key, bs ++ [batch])]) k r := by
    intro k r hw
    refine WrittenTo.mono hw fun bs' hb => ?_
    rcases List.mem_append.1 hb with hb | hb
    · exact ⟨bs', by simp [hb], fun _ h => h⟩
    · have := List.mem_singleton.1 hb
      simp only [Prod.mk.injEq] at this
      obtain ⟨rfl, rfl⟩ := this
      exact ⟨bs' ++ [batch], by simp, fun b hb => by simp [hb]⟩
  have hsplit : ∀ k r, WrittenTo jobs (done ++ [(j.key, bs ++ [batch])]) k r →
      WrittenTo jobs (done ++ [(j.key, bs)]) k r ∨ (k = j.key ∧ ∃ b ∈ batch,
        StoredAs j.input.dest (writtenColumns j.input.chain j.input.dest) b r) := by
    rintro k r ⟨j', h1, h2, bs', h3, batch', h4, b, h5, h6⟩
    rcases List.mem_append.1 h3 with h3 | h3
    · exact .inl ⟨j', h1, h2, bs', by simp [h3], batch', h4, b, h5, h6⟩
    · have := List.mem_singleton.1 h3
      simp only [Prod.mk.injEq] at this
      obtain ⟨rfl, rfl⟩ := this
      rcases List.mem_append.1 h4 with h4 | h4
      · exact .inl ⟨j', h1, h2, bs, by simp, batch', h4, b, h5, h6⟩
      · have := List.mem_singleton.1 h4
        subst this
        have := nodup_key_eq hk h1 hj h2
        subst this
        exact .inr ⟨rfl, b, h5, h6⟩
  refine ⟨fun j' hj' => ?_, fun a fk b hfk r hr => ?_, fun a fk b hfk m hm => ?_⟩
  · by_cases e : j'.key = j.key
    · have := nodup_key_eq hk hj' hj e
      subst this
      rw [set_self]
      exact ⟨f1, f2⟩
    · rw [set_ne e]; exact h.holds j' hj'
  · by_cases e : a = j.key
    · subst e
      rw [set_self] at hr
      have hown : ∀ c ∈ fk.columns, Own j.strategy j.input.dest
          (writtenColumns j.input.chain j.input.dest) c := fun c hc hs =>
        .inr ((hkept _ fk b hfk).2 j hj rfl hs c hc)
      rcases f5 r hr with ⟨r1, h1, h2⟩ | ⟨x, h1, m, h2, h3⟩
      · obtain ⟨r0, h3, h4⟩ := h.orig _ fk b hfk r1 h1
        exact ⟨r0, h3.imp id (hmono _ _), fun c hc => by rw [h2 c (hown c hc), h4 c hc]⟩
      · exact ⟨m, .inr ⟨j, hj, rfl, bs ++ [batch], by simp, batch, by simp, x, h1, h2⟩,
          fun c hc => h3 c (hown c hc)⟩
    · rw [set_ne e] at hr
      obtain ⟨r0, h3, h4⟩ := h.orig a fk b hfk r hr
      exact ⟨r0, h3.imp id (hmono _ _), h4⟩
  · have hst : b = j.key → ∀ c ∈ fk.dstColumns, Stable j.strategy j.input.dest c := by
      intro e c hc
      rcases (hkept a fk b hfk).1 j hj e.symm with h1 | h1
      · exact .inl h1
      · exact .inr (.inr (h1 c hc))
    have hold : (m ∈ S0 b ∨ WrittenTo jobs (done ++ [(j.key, bs)]) b m) ∨ (b = j.key ∧ ∃ x ∈ batch,
        StoredAs j.input.dest (writtenColumns j.input.chain j.input.dest) x m) := by
      rcases hm with hm | hm
      · exact .inl (.inl hm)
      · rcases hsplit b m hm with h1 | h1
        · exact .inl (.inr h1)
        · exact .inr h1
    rcases hold with hold | ⟨rfl, x, h1, h2⟩
    · obtain ⟨m', h1, h2⟩ := h.kept a fk b hfk m hold
      by_cases e : b = j.key
      · subst e
        rw [set_self]
        obtain ⟨m2, h3, h4⟩ := f3 m' h1
        exact ⟨m2, h3, fun c hc => by rw [h4 c (hst rfl c hc), h2 c hc]⟩
      · rw [set_ne e]
        exact ⟨m', h1, h2⟩
    · rw [set_self]
      obtain ⟨m2, h3, h4⟩ := f4 x h1 m h2
      exact ⟨m2, h3, fun c hc => h4 c (hst rfl c hc)⟩

/-- The batches of one table. -/
theorem WInv.commits (hk : (jobs.map TableJob.key).Nodup) (hkept : KeysKept db jobs)
    {done : Writes} {j : TableJob} (hj : j ∈ jobs) {cols : List Str}
    (hcols : cols = writtenColumns j.input.chain j.input.dest) {bs : List (List (List Val))} :
    ∀ {S : DbState} {hist hist' : List DbState} {bs0 : List (List (List Val))},
    WInv db jobs S0 S (done ++ [(j.key, bs0)]) →
    (∀ b ∈ bs, Fitting j.input.dest cols b) →
    Commits (flushTo dialect j.strategy j.key j.input.dest cols) (S :: hist) bs hist' →
    ∃ S' rest, hist' = S' :: rest ∧ WInv db jobs S0 S' (done ++ [(j.key, bs0 ++ bs)]) ∧
      ∀ X ∈ hist', X ∈ S :: hist ∨ ∃ bs1, bs1 <+: bs ∧ WInv db jobs S0 X (done ++ [(j.key, bs0 ++ bs1)]) := by
  induction bs with
  | nil =>
    intro S hist hist' bs0 hI hf h
    cases h
    exact ⟨S, hist, rfl, by simpa using hI, fun X hX => .inl hX⟩
  | cons b bs ih =>
    intro S hist hist' bs0 hI hf h
    cases h with
    | cons h1 h2 =>
      unfold flushTo at h1
      dsimp only at h1
      cases h3 : flushBuffer dialect j.strategy j.input.dest cols b (S j.key) with
      | error e => rw [h3] at h1; cases h1
      | ok rows =>
        rw [h3] at h1; cases h1
        have hI' := hI.flush hk hkept hj hcols (hf b (by simp)) h3
        obtain ⟨S', rest, g1, g2, g3⟩ := ih hI' (fun b hb => hf b (by simp [hb])) h2
        refine ⟨S', rest, g1, by simpa using g2, fun X hX => ?_⟩
        rcases g3 X hX with h | ⟨bs1, h4, h5⟩
        · rcases List.mem_cons.1 h with rfl | h
          · exact .inr ⟨[b], by simp, hI'⟩
          · exact .inl h
        · exact .inr ⟨b :: bs1, by simpa using h4, by simpa using h5⟩

theorem winv_start {S : DbState} {w : Writes} {k : Key} (h : WInv db jobs S0 S w) :
    WInv db jobs S0 S (w ++ [(k, [])]) := by
  have hiff : ∀ a r, WrittenTo jobs (w ++ [(k, [])]) a r ↔ WrittenTo jobs w a r := by
    intro a r
    constructor
    · rintro ⟨j', h1, h2, bs', h3, batch', h4, b, h5, h6⟩
      rcases List.mem_append.1 h3 with h3 | h3
      · exact ⟨j', h1, h2, bs', h3, batch', h4, b, h5, h6⟩
      · have := List.mem_singleton.1 h3
        simp only [Prod.mk.injEq] at this
        rw [this.2] at h4
        cases h4
    · intro hw
      exact WrittenTo.mono hw fun bs hb => ⟨bs, by simp [hb], fun _ h => h⟩
  exact ⟨h.holds, fun a fk b hfk r hr => by simpa only [hiff] using h.orig a fk b hfk r hr,
    fun a fk b hfk m hm => h.kept a fk b hfk m (by simpa only [hiff] using hm)⟩

/-- All tables. -/
theorem copyTables_inv (hk : (jobs.map TableJob.key).Nodup) (hkept : KeysKept db jobs)
    (hok : ∀ j ∈ jobs, JobOK W j) : ∀ {js : List TableJob} {S : DbState} {hist hist' : List DbState}
    {s : σ} {done writes : Writes} {err : Option DestErr}, (∀ j ∈ js, j ∈ jobs) →
    WInv db jobs S0 S done → copyTables W dialect js (S :: hist) s = (hist', writes, err) →
    writes.map Prod.fst <+: js.map TableJob.key ∧
    ∀ X ∈ hist', X ∈ S :: hist ∨ ∃ done1 k bs' bs rest, writes = done1 ++ (k, bs) :: rest ∧ bs' <+: bs ∧
      WInv db jobs S0 X (done ++ done1 ++ [(k, bs')]) := by
  intro js
  induction js with
  | nil =>
    intro S hist hist' s done writes err _ hI h
    cases h
    exact ⟨by simp, fun X hX => .inl hX⟩
  | cons j js ih =>
    intro S hist hist' s done writes err hjs hI h
    unfold copyTables at h
    have hj := hjs j (by simp)
    cases hp : outPlan j.input with
    | error e =>
      rw [hp] at h; cases h
      exact ⟨by simp, fun X hX => .inl hX⟩
    | ok p =>
      rw [hp] at h; dsimp only at h
      have hcols : p.colsOut = writtenColumns j.input.chain j.input.dest := (outPlan_ok hp).2.1
      cases hw : writeAll W (flushTo dialect j.strategy j.key j.input.dest p.colsOut) p j.rows (S :: hist) s with
      | error q =>
        obtain ⟨st, e⟩ := q
        rw [hw] at h; cases h
        obtain ⟨pre, outs, h1, h2, h3, -, h5⟩ := writeAll_error hw
        obtain ⟨S', rest, -, -, g3⟩ := WInv.commits hk hkept hj hcols (winv_start (k := j.key) hI)
          (run_fitting (hok j hj) hp h1 h2 h3) h5
        refine ⟨by simp, fun X hX => ?_⟩
        rcases g3 X hX with h | ⟨bs1, h6, h7⟩
        · exact .inl h
        · exact .inr ⟨[], j.key, bs1, st.written, [], rfl, h6, by simpa using h7⟩
      | ok st =>
        rw [hw] at h; dsimp only at h
        obtain ⟨outs, h1, h2, -, h4, -⟩ := writeAll_ok hw
        obtain ⟨S', rest, g1, g2, g3⟩ := WInv.commits hk hkept hj hcols (winv_start (k := j.key) hI)
          (run_fitting (hok j hj) hp List.prefix_rfl h1 (by rw [h2]; exact List.prefix_rfl)) h4
        cases hr : copyTables W dialect js st.dest st.world with
        | mk hist2 q =>
          obtain ⟨writes2, err2⟩ := q
          rw [hr] at h; cases h
          rw [g1] at hr
          obtain ⟨a1, a2⟩ := ih (fun j hj => hjs j (by simp [hj])) g2 hr
          refine ⟨by simpa using a1, fun X hX => ?_⟩
          rcases a2 X hX with h | ⟨done1, k, bs', bs, rest', h5, h6, h7⟩
          · rw [← g1] at h
            rcases g3 X h with h | ⟨bs1, h6, h7⟩
            · exact .inl h
            · exact .inr ⟨[], j.key, bs1, st.written, writes2, rfl, h6, by simpa using h7⟩
          · exact .inr ⟨(j.key, st.written) :: done1, k, bs', bs, rest', by rw [h5]; rfl, h6, by
              simpa using h7⟩

theorem winv_init (h : ∀ j ∈ jobs, TableHolds j.input.dest (S0 j.key)) : WInv db jobs S0 S0 [] :=
  ⟨h, fun _ _ _ _ r hr => ⟨r, .inl hr, fun _ _ => rfl⟩, fun _ _ _ _ m hm => by
    rcases hm with hm | ⟨_, _, _, _, h, _⟩
    · exact ⟨m, hm, fun _ _ => rfl⟩
    · cases h⟩

theorem refers_congr {fk : ForeignKey} {r r' m m' : Row} (h : Refers fk.columns fk.dstColumns r m)
    (hr : ∀ c ∈ fk.columns, r'.get c = r.get c) (hm : ∀ c ∈ fk.dstColumns, m'.get c = m.get c) :
    Refers fk.columns fk.dstColumns r' m' := by
  intro q hq
  have := List.of_mem_zip hq
  rw [hr _ this.1, hm _ this.2]
  exact h q hq

/-- Between batches all references resolve. -/
theorem WInv.intact (hk : (jobs.map TableJob.key).Nodup)
    (hord : ∀ a fk b, DbFk db a fk b → a ∈ jobs.map TableJob.key → b ∈ jobs.map TableJob.key →
      Before (jobs.map TableJob.key) b a)
    (h0 : Intact db S0) {total : Writes} (htot : total.map Prod.fst <+: jobs.map TableJob.key)
    (hcl : ∀ a r, WrittenTo jobs total a r → ∀ fk b, DbFk db a fk b →
      (∀ c ∈ fk.columns, r.get c ≠ .null) →
      ∃ m, (m ∈ S0 b ∨ WrittenTo jobs total b m) ∧ Refers fk.columns fk.dstColumns r m)
    {X : DbState} {done1 rest : Writes} {k : Key} {bs' bs : List (List (List Val))}
    (he : total = done1 ++ (k, bs) :: rest) (hpre : bs' <+: bs) (hI : WInv db jobs S0 X (done1 ++ [(k, bs')])) :
    Intact db X := by
  intro a fk b hfk r hr hnn
  obtain ⟨r0, h1, h2⟩ := hI.orig a fk b hfk r hr
  have hnn0 : ∀ c ∈ fk.columns, r0.get c ≠ .null := fun c hc => by rw [← h2 c hc]; exact hnn c hc
  have hm : ∃ m, (m ∈ S0 b ∨ WrittenTo jobs (done1 ++ [(k, bs')]) b m) ∧
      Refers fk.columns fk.dstColumns r0 m := by
    rcases h1 with h1 | h1
    · obtain ⟨m, h3, h4⟩ := h0 a fk b hfk r0 h1 hnn0
      exact ⟨m, .inl h3, h4⟩
    · have hw : WrittenTo jobs total a r0 := by
        refine WrittenTo.mono h1 fun bs2 hb => ?_
        rcases List.mem_append.1 hb with hb | hb
        · exact ⟨bs2, by rw [he]; simp [hb], fun _ h => h⟩
        · have := List.mem_singleton.1 hb
          simp only [Prod.mk.injEq] at this
          obtain ⟨rfl, rfl⟩ := this
          exact ⟨bs, by rw [he]; simp, fun b hb => hpre.subset hb⟩
      obtain ⟨m, h3, h4⟩ := hcl a r0 hw fk b hfk hnn0
      refine ⟨m, h3.imp id fun h5 => ?_, h4⟩
      -- the referenced table comes before, so it is complete
      obtain ⟨ja, e1, e2, bsa, e3, -⟩ := h1
      obtain ⟨jb, f1, f2, bsb, f3, f4⟩ := h5
      have ha : a ∈ jobs.map TableJob.key := List.mem_map.2 ⟨ja, e1, e2⟩
      have hb : b ∈ jobs.map TableJob.key := List.mem_map.2 ⟨jb, f1, f2⟩
      have hbef := hord a fk b hfk ha hb
      obtain ⟨suf, hsuf⟩ := htot
      rw [he] at hsuf f3
      have hdone : (b, bsb) ∈ done1 := by
        by_contra hnot
        have hbr : (b, bsb) ∈ (k, bs) :: rest := (List.mem_append.1 f3).resolve_left hnot
        have hak : a ∈ (done1 ++ [(k, bs')]).map Prod.fst := List.mem_map.2 ⟨_, e3, rfl⟩
        rw [← hsuf] at hk hbef
        simp only [List.map_append, List.map_cons, List.map_nil] at hk hbef hak
        have hbk : b ∈ k :: (rest.map Prod.fst ++ suf) := by
          have : b ∈ ((k, bs) :: rest).map Prod.fst := List.mem_map.2 ⟨_, hbr, rfl⟩
          simp only [List.map_cons, List.mem_cons, List.mem_append] at this ⊢
          tauto
        have hl : done1.map Prod.fst ++ k :: (rest.map Prod.fst ++ suf) =
            (done1.map Prod.fst ++ k :: rest.map Prod.fst) ++ suf := by simp
        rw [← hl] at hk hbef
        rcases List.mem_append.1 hak with hak | hak
        · exact before_asymm hk hbef (before_append_mem hak hbk)
        · have := List.mem_singleton.1 hak
          subst this
          rcases List.mem_cons.1 hbk with rfl | hbk
          · exact before_irrefl hk hbef
          · refine before_asymm hk hbef (before_append_right ?_)
            obtain ⟨l1, l2, e⟩ := List.append_of_mem hbk
            exact ⟨[], l1, l2, by rw [e]; simp⟩
      exact ⟨jb, f1, f2, bsb, by simp [hdone], f4⟩
  obtain ⟨m, h3, h4⟩ := hm
  obtain ⟨m', h5, h6⟩ := hI.kept a fk b hfk m h3
  exact ⟨m', h5, refers_congr h4 (fun c hc => h2 c hc) h6⟩

end
end Subsetter
