import Verif.Proofs.Random
import Verif.Spec.RunRefs
import Verif.Props.Run

/-
Property C69: the values generated by filters.
-/
namespace Subsetter.Props
open Subsetter Spec

variable {σ : Type} {W : Outside σ Val} {R : Rng σ} {cols : List Str} {ch : Chain Val}

/-- Columns after some filters. -/
theorem loop_split {pre post : List (FilterCfg Val)} {vs : List (View Val)} {out : List Str} {W : Outside σ Val}
    (h : constructLoop W cols (pre ++ post) = .ok (vs, out)) :
    ∃ vs₁ vs₂ mid, vs = vs₁ ++ vs₂ ∧ constructLoop W cols pre = .ok (vs₁, mid) ∧ constructLoop W mid post = .ok (vs₂, out) := by
  induction pre generalizing cols vs with
  | nil => exact ⟨[], vs, cols, rfl, rfl, h⟩
  | cons f pre ih =>
    obtain ⟨v, vs', rfl, h1, h2⟩ := construct_loop_cons h
    obtain ⟨a, b, mid, rfl, h3, h4⟩ := ih h2
    refine ⟨v :: a, b, mid, rfl, ?_, h4⟩
    unfold constructLoop
    rw [h1]
    dsimp only
    rw [h3]

theorem runViews_split {W : Outside σ Val} {a b : List (View Val)} {r : List Val} {s : σ} :
    runViews W (a ++ b) r s =
      match runViews W a r s with
      | .error e => .error e
      | .ok (r', s') => runViews W b r' s' := by
  induction a generalizing r s with
  | nil => rfl
  | cons v a ih =>
    rw [List.cons_append, runViews_cons, runViews_cons]
    cases v.run W r s with
    | error e => rfl
    | ok p => exact ih

/-- C69. If a filter names a column and no later filter does, then the value of that column is one that filter may
write. -/
theorem c69_values (hW : W.none = .null) {pre post : List (FilterCfg Val)} {g : SimpleCfg Val}
    (h : constructFilter (withRandom W R) cols (pre ++ .simple g :: post) = .ok ch) (hnd : cols.Nodup) {c : Str}
    (hc : c ∈ SimpleCfg.columns g) (ho : ¬ SimpleCfg.IsOmit g) (hpost : ∀ f ∈ post, c ∉ FilterCfg.writes f)
    {r out : List Val} (hl : r.length = cols.length) {s s' : σ} (hr : ch.run (withRandom W R) r s = .ok (out, s')) :
    ∃ x, valueOf ch.colsOut out c = some x ∧ Produces c g x := by
  obtain ⟨-, h1⟩ := constructFilter_ok h
  have hout : ch.colsOut.Nodup := by rw [loop_colsOut h1]; exact hnd.filter _
  obtain ⟨vs₁, vs₂, mid, hvs, h2, h3⟩ := loop_split h1
  obtain ⟨v, vs₃, rfl, h4, h5⟩ := construct_loop_cons h3
  unfold Chain.run at hr
  rw [hvs, runViews_split] at hr
  cases h6 : runViews (withRandom W R) vs₁ r s with
  | error e => rw [h6] at hr; cases hr
  | ok q =>
    obtain ⟨r₁, s₁⟩ := q
    rw [h6] at hr
    dsimp only at hr
    have hmid : mid.Nodup := by rw [loop_colsOut h2]; exact hnd.filter _
    have hl₁ := (chain_run h2 hnd hl h6).1
    unfold runViews at hr
    cases h7 : v.run (withRandom W R) r₁ s₁ with
    | error e => rw [h7] at hr; cases hr
    | ok q =>
      obtain ⟨r₂, s₂⟩ := q
      rw [h7] at hr
      dsimp only at hr
      rcases constructView_ok h4 with ⟨g', w, e, rfl, h8⟩ | ⟨_, _, _, _, e, -⟩
      · cases e
        have hcols : w.colsOut = mid := by
          rw [colsOut_eq h8]
          cases g <;> first | exact absurd trivial ho | simp [omitted]
        obtain ⟨k, x, h9, h10, h11⟩ := produces_simple hW h8 hc ho hl₁ h7
        have hl₂ := (view_run h4 hmid hl₁ h7).1
        have hmid2 : (View.simple w).colsOut = mid := hcols
        rw [hmid2] at h5 hl₂
        obtain ⟨h12, h13⟩ := chain_run h5 hmid hl₂ hr
        obtain ⟨j, h14, h15⟩ := h13 c k hpost h9
        exact ⟨x, by rw [valueOf_eq hout h12 h14, h15, h10], h11⟩
      · cases e

/-- C69, in part: chains of filters that cannot fail do not.  Missing: that every accepted filter gets every row through,
which is false (`c69_empty_range`). -/
theorem c69_never_fails_partial {gs : List (SimpleCfg Val)} (hg : ∀ g ∈ gs, Harmless g)
    (h : constructFilter (withRandom W R) cols (gs.map .simple) = .ok ch) (hnd : cols.Nodup) {r : List Val}
    (hl : r.length = cols.length) (s : σ) : ∃ out s', ch.run (withRandom W R) r s = .ok (out, s') := by
  obtain ⟨-, h1⟩ := constructFilter_ok h
  unfold Chain.run
  generalize ch.views = vs at h1
  generalize ch.colsOut = out at h1
  clear h
  induction gs generalizing cols vs r s with
  | nil => cases h1; exact ⟨r, s, rfl⟩
  | cons g gs ih =>
    obtain ⟨v, vs', rfl, h2, h3⟩ := construct_loop_cons h1
    rcases constructView_ok h2 with ⟨g', w, e, rfl, h4⟩ | ⟨_, _, _, _, e, -⟩
    · cases e
      obtain ⟨⟨r', s'⟩, h5⟩ := harmless_run (hg g (.head _)) h4 hl s
      have h6 := (view_run h2 hnd hl h5).1
      have hnd' : (View.simple w).colsOut.Nodup := by rw [view_colsOut h2]; exact hnd.filter _
      obtain ⟨o, s'', h7⟩ := ih (fun g hg' => hg g (.tail _ hg')) hnd' h6 s' _ h3
      exact ⟨o, s'', by unfold runViews; rw [show (View.simple w).run (withRandom W R) r s = _ from h5]; exact h7⟩
    · cases e

/-- C69 is false in one respect: an empty range is accepted, and then no row gets through. -/
theorem c69_empty_range {pre post : List (FilterCfg Val)} {cs : List Str} {low high : Int} (hlt : high < low)
    (h : constructFilter (withRandom W R) cols (pre ++ .simple (.randomInt cs low high) :: post) = .ok ch)
    (hnd : cols.Nodup) {r : List Val} (hl : r.length = cols.length) (s : σ) : ∃ e, ch.run (withRandom W R) r s = .error e := by
  obtain ⟨-, h1⟩ := constructFilter_ok h
  obtain ⟨vs₁, vs₂, mid, hvs, h2, h3⟩ := loop_split h1
  obtain ⟨v, vs₃, rfl, h4, h5⟩ := construct_loop_cons h3
  unfold Chain.run
  rw [hvs, runViews_split]
  cases h6 : runViews (withRandom W R) vs₁ r s with
  | error e => exact ⟨e, rfl⟩
  | ok q =>
    obtain ⟨r₁, s₁⟩ := q
    dsimp only
    have hl₁ := (chain_run h2 hnd hl h6).1
    rcases constructView_ok h4 with ⟨g', w, e, rfl, h8⟩ | ⟨_, _, _, _, e, -⟩
    · cases e
      obtain ⟨hne, -, is, h9, rfl⟩ := mkColumns_ok (show mkColumns mid cs _ = .ok w from h8)
      obtain ⟨old, h10, h11⟩ := pick_spec (vals := r₁) (fun i hi => by rw [hl₁]; exact h9.lt i hi)
      have hold : old.length ≠ 0 := by
        rw [← h11.length_eq, ← h9.length_eq]
        exact fun e => hne (List.length_eq_zero_iff.1 e)
      obtain ⟨m, hm⟩ := Nat.exists_eq_succ_of_ne_zero hold
      refine ⟨emptyRange, ?_⟩
      unfold runViews
      simp only [View.run, SimpleView.run]
      rw [h10]
      dsimp only
      simp only [Act.run]
      rw [hm]
      unfold draws
      simp only [withRandom]
      rw [randint_empty hlt]
    · cases e

/-! ### In the destination -/

variable {C : RunConfig} {D : Setting σ} {p : Plan} {S : DbState} {s : σ}

theorem flush_all {dialect : Dialect} {st : Strategy} {d : DestTable} {cols : List Str} {P : Val → Prop} {c : Str} (hc : c ∈ cols)
    {b : List (List Val)} (hf : Fitting d cols b) (hnew : ∀ x ∈ b, ∀ v, valueOf cols x c = some v → P v) {old new : List Row}
    (hold : ∀ r ∈ old, P (r.get c)) (h : flushBuffer dialect st d cols b old = .ok new) : ∀ r ∈ new, P (r.get c) := by
  have many : ∀ {st : Strategy} {upd : List Str} {rows : List Row} {T T' : List Row}, (∀ r ∈ rows, P ((fullRow d r).get c)) →
      (∀ r ∈ T, P (r.get c)) → insertMany st d upd rows T = .ok T' → ∀ r ∈ T', P (r.get c) := by
    intro st upd rows
    induction rows with
    | nil => intro T T' _ h1 h2; cases h2; exact h1
    | cons x rows ih =>
      intro T T' h0 h1 h2
      unfold insertMany at h2
      cases h3 : insertOne st d upd (fullRow d x) T with
      | error e => rw [h3] at h2; cases h2
      | ok T₁ =>
        rw [h3] at h2
        refine ih (fun r hr => h0 r (.tail _ hr)) ?_ h2
        unfold insertOne at h3
        split at h3
        · cases st with
          | error => cases h3
          | skip => cases h3; exact h1
          | replace =>
            cases h3
            intro r hr
            obtain ⟨r', h4, rfl⟩ := List.mem_map.1 hr
            split
            · rw [updateRow_get]
              split
              · exact h0 x (.head _)
              · exact h1 r' h4
            · exact h1 r' h4
        · cases h3
          intro r hr
          rcases List.mem_append.1 hr with hr | hr
          · exact h1 r hr
          · rw [List.mem_singleton] at hr
            subst hr
            exact h0 x (.head _)
  unfold flushBuffer at h
  cases h1 : conflictInit st d.pk cols with
  | error e => rw [h1] at h; cases h
  | ok q =>
    obtain ⟨st', nonPk⟩ := q
    rw [h1] at h
    dsimp only at h
    split at h
    · cases h
    · split at h
      · cases h
      · refine many (fun r hr => ?_) hold h
        obtain ⟨x, hx, rfl⟩ := List.mem_map.1 hr
        obtain ⟨v, hv⟩ := valueOf_isSome (hf.2.2 x hx) hc
        rw [fullRow_get (hf.2.1 c hc).1 (hf.2.1 c hc).2, dget_zip, hv]
        exact hnew x hx v hv

theorem commits_all {dialect : Dialect} {st : Strategy} {d : DestTable} {cols : List Str} {P : Val → Prop} {c : Str} (hc : c ∈ cols)
    {bs : List (List (List Val))} {old new : List Row} (h : Commits (flushBuffer dialect st d cols) old bs new)
    (hf : Fitting d cols bs.flatten) (hnew : ∀ x ∈ bs.flatten, ∀ v, valueOf cols x c = some v → P v)
    (hold : ∀ r ∈ old, P (r.get c)) : ∀ r ∈ new, P (r.get c) := by
  induction h with
  | nil d => exact hold
  | @cons d₀ d₁ d₂ b bs h1 _ ih =>
    rw [List.flatten_cons] at hf hnew
    exact ih ⟨hf.1, hf.2.1, fun x hx => hf.2.2 x (List.mem_append_right _ hx)⟩ (fun x hx => hnew x (List.mem_append_right _ hx))
      (flush_all hc ⟨hf.1, hf.2.1, fun x hx => hf.2.2 x (List.mem_append_left _ hx)⟩
        (fun x hx => hnew x (List.mem_append_left _ hx)) hold h1)

/-- Names of tables of the destination differ. -/
theorem schema_names (hok : RunOK C D p) : ((sample C D p S s).schema.map Prod.fst).Nodup := by
  rcases sample_cases C D p S s with ⟨-, -, -, g⟩ | ⟨r, db, x, order, states, h1, h2, -, -, h5, -⟩ |
    ⟨r, db, x, order, states, offs, compact, mat, temps, hst, h1, -⟩
  · rcases g with g | ⟨r, x, g1, g2⟩
    · rw [g]; exact hok.dst.names_nodup
    · exact (prepared_run hok g1 g2).names
  · rw [h5]; exact (prepared_run hok h1 h2).names
  · rw [h1]; exact (prepared_run hok hst.start hst.create).names

/-- Columns that are neither keys nor listed are written as they leave the filters. -/
theorem asFiltered_out (hok : RunOK C D p) {schema : Dict Str TableMeta} (hsn : (schema.map Prod.fst).Nodup) {B : DbState}
    {T : Tables} {mult : Dict Str (List Str)} {compact : Dict Key (List Str)} {offs : Dict Key (Dict Str Int)}
    (hder : Derived C D p schema B T mult compact offs) {n : Str} {k kd : Key} {t td : TableMeta}
    (hc : Copied C D p schema n k kd t td) {c : Str} (h : AsFiltered C n t td c) :
    c ∉ (dget mult n).getD [] ∧ dget ((dget offs kd).getD []) c = none := by
  have htab : C.infer = .none → ∀ {t'}, dget T k = some t' → t' = t := by
    intro hi t' ht'
    obtain ⟨t0, h1, -, h2⟩ := hder.source k t' ht'
    rw [h2 hi]
    rw [show k.1 ++ '.' :: k.2 = n from parse_str hc.name] at h1
    have := dget_of_mem hok.src.names_nodup h1
    rw [dget_of_mem hok.src.names_nodup hc.source] at this
    cases this; rfl
  constructor
  · intro hcm
    obtain ⟨h1, h2⟩ := (hder.mult n c).1 hcm
    obtain ⟨hi, g1, g2, g3⟩ := h.mult h1
    have hof : ∀ {t'}, TableOf T n t' → t' = t := by
      rintro t' ⟨k', e1, e2⟩
      rw [hc.name] at e1; cases e1
      exact htab hi e2
    cases h2 with
    | extra _ _ e1 e2 => exact g3 _ e1 e2
    | pk _ _ e1 e2 _ => rw [hof e1] at e2; exact g1 e2
    | fk _ _ e1 e2 e3 _ => rw [hof e1] at e2; exact g2 _ e2 e3
  · cases hm : C.merge with
    | false => rw [hder.unmerged hm kd]; rfl
    | true =>
      obtain ⟨hi, g1, g2⟩ := h.merge hm
      obtain ⟨dest, h1, h2, h3⟩ := hder.merged hm
      by_cases hmg : Merged ⟨C.remap, T, dest, B, p.passthrough, dkeys p.queries⟩ n kd
      · have href : ∀ n', ¬ KeyRef ⟨C.remap, T, dest, B, p.passthrough, dkeys p.queries⟩ n c n' := by
          rintro n' ⟨k', t', fk, q, e1, e2, e3, e4, -⟩
          rw [hc.name] at e1; cases e1
          rw [htab hi (dget_of_mem hder.tables e2)] at e3
          exact g2 fk e3 (by rw [e4]; exact List.mem_singleton_self c)
        have hsh : ∀ m, ¬ Shifted ⟨C.remap, T, dest, B, p.passthrough, dkeys p.queries⟩ n c m := by
          rintro m ⟨k', t', e1, e2, e3, -⟩
          cases destOf_unique e1.2.2 hc.dest
          have := dget_of_mem hsn ((h1 _ _).1 e2).2
          rw [dget_of_mem hsn hc.schema] at this
          cases this
          exact g1 e3
        rcases h3 n kd hmg c with ⟨n', _, _, e, -⟩ | ⟨-, ⟨m, e, -⟩ | ⟨-, e⟩⟩
        · exact absurd e (href n')
        · exact absurd e (hsh m)
        · exact e
      · rw [h2 kd fun n' hn' => hmg ?_]; · rfl
        have := hder.differ n' hn'.1 n hc.planned kd hn'.2.2 hc.dest
        subst this
        exact hn'

/-- The values written to a column whose last filter is `g`. -/
theorem sent_values (hok : RunOK C D p) (hw : D.world = withRandom W R) (hW : W.none = .null)
    {schema : Dict Str TableMeta} (hsn : (schema.map Prod.fst).Nodup) {B : DbState}
    {Smp : Key → List Row} {ids : Key → List Int} {T : Tables} {mult : Dict Str (List Str)}
    {compact : Dict Key (List Str)} {offs : Dict Key (Dict Str Int)}
    (hder : Derived C D p schema B T mult compact offs) {n : Str} {k kd : Key} {t td : TableMeta}
    (hc : Copied C D p schema n k kd t td) {ch : Chain Val} {rows : List Row} {outs : List (List Val)}
    (h : Sent C D p T mult compact offs Smp ids n k kd t td ch rows outs)
    {pre post : List (FilterCfg Val)} {g : SimpleCfg Val} (hf : dget C.filters n = some (pre ++ .simple g :: post)) {c : Str}
    (hkeep : (∀ i, ¬ Produces c g (.int i)) ∨ AsFiltered C n t td c)
    (hcg : c ∈ SimpleCfg.columns g) (ho : ¬ SimpleCfg.IsOmit g) (hpost : ∀ f ∈ post, c ∉ FilterCfg.writes f)
    {x : List Val} (hx : x ∈ outs) {v : Val} (hv : valueOf (writtenColumns ch (target D kd td)) x c = some v) :
    Produces c g v := by
  have hnd := hok.srcColumns n t hc.source
  have hch := h.filter
  rw [hf, hw] at hch
  dsimp only [Option.getD_some] at hch
  obtain ⟨s₀, hlen, ss, -, hwr⟩ := h.written
  obtain ⟨idx, hi, rfl⟩ := List.mem_iff_getElem.1 hx
  generalize hm : timesWritten C p n = m at hwr hlen
  have hm0 : 0 < m := by
    rcases Nat.eq_zero_or_pos m with rfl | h0
    · rw [Nat.mul_zero] at hlen; omega
    · exact h0
  have hi1 : idx / m < rows.length := by
    rw [List.length_map] at hlen
    exact Nat.div_lt_of_lt_mul (by rw [Nat.mul_comm]; omega)
  obtain ⟨f, h1, h2, h3⟩ := hwr (idx / m) (idx % m) (t.columns.map (rows[idx / m]).get) outs[idx]
    (by rw [List.getElem?_map, List.getElem?_eq_getElem hi1]; rfl) (Nat.mod_lt _ hm0)
    (by rw [Nat.div_add_mod']; exact List.getElem?_eq_getElem hi)
  have hcw : c ∈ writtenColumns ch (target D kd td) := by
    unfold valueOf at hv
    rw [Option.map_eq_some_iff] at hv
    obtain ⟨⟨y, w⟩, h4, -⟩ := hv
    have h5 := List.find?_some h4
    have h6 := (List.of_mem_zip (List.mem_of_find?_eq_some h4)).1
    simp only [beq_iff_eq] at h5
    exact h5 ▸ h6
  obtain ⟨w, h4, h5⟩ := h3 c hcw
  rw [hw] at h1
  obtain ⟨y, h6, h7⟩ := c69_values hW hch hnd hcg ho hpost (by simp) h1
  rw [h6] at h4
  cases h4
  rw [hv] at h5
  have : v = w := by
    rw [Option.some.inj h5]
    unfold outVal
    rcases hkeep with hk | hk
    · cases w with
      | int i => exact absurd h7 (hk i)
      | _ => split <;> rfl
    · obtain ⟨e1, e2⟩ := asFiltered_out hok hsn hder hc hk
      rw [if_neg e1, e2]
      cases w <;> simp [shiftVal]
  rw [this]
  exact h7

theorem sent_column (hw : D.world = withRandom W R) {Smp : Key → List Row} {ids : Key → List Int} {T : Tables}
    {mult : Dict Str (List Str)} {compact : Dict Key (List Str)} {offs : Dict Key (Dict Str Int)} {n : Str} {k kd : Key}
    {t td : TableMeta} {ch : Chain Val} {rows : List Row} {outs : List (List Val)}
    (h : Sent C D p T mult compact offs Smp ids n k kd t td ch rows outs)
    {pre post : List (FilterCfg Val)} {g : SimpleCfg Val} (hf : dget C.filters n = some (pre ++ .simple g :: post)) {c : Str}
    (hcg : c ∈ SimpleCfg.columns g) (ho : ¬ SimpleCfg.IsOmit g) (hpost : ∀ f ∈ post, c ∉ FilterCfg.writes f)
    (hcomp : c ∉ (target D kd td).computed) : c ∈ writtenColumns ch (target D kd td) := by
  have hch := h.filter
  rw [hf, hw] at hch
  dsimp only [Option.getD_some] at hch
  refine List.mem_filter.2 ⟨?_, by simpa using hcomp⟩
  obtain ⟨-, h1⟩ := constructFilter_ok hch
  obtain ⟨vs₁, vs₂, mid, hvs, h2, h3⟩ := loop_split h1
  obtain ⟨v, vs₃, rfl, h4, h5⟩ := construct_loop_cons h3
  rcases constructView_ok h4 with ⟨g', w, e, rfl, h8⟩ | ⟨_, _, _, _, e, -⟩
  · cases e
    rw [loop_colsOut h5, List.mem_filter]
    have h9 : c ∈ (View.simple w).colsOut := by
      show c ∈ w.colsOut
      rw [colsOut_eq h8]
      rcases constructSimple_ok h8 with ⟨cs, rfl, -⟩ | ⟨-, h9, -⟩
      · exact absurd trivial ho
      · refine List.mem_filter.2 ⟨h9.2.2 c hcg, ?_⟩
        cases g <;> first | exact absurd trivial ho | simp [omitted]
    refine ⟨h9, ?_⟩
    have : c ∉ omitted post := by
      clear h5 h1 hch hf h3
      induction post with
      | nil => simp [omitted]
      | cons f post ih =>
        have h10 := ih fun f hf => hpost f (.tail _ hf)
        have h11 := hpost f (.head _)
        cases f with
        | multiplex a b => simpa [omitted] using h10
        | simple g =>
          cases g with
          | «omit» cs => simp only [omitted, List.mem_append, not_or]; exact ⟨h11, h10⟩
          | _ => simpa [omitted] using h10
    simpa using this
  · cases e

/-- C69. After a run without error a column that a filter names, and no later filter does, holds only values that filter
may write, if it did so before or the table was emptied; with any conflict strategy.  Multiplying and merging, which change
identifiers after filtering, matter only if the filter writes integers into a column that is a key or listed. -/
theorem c69_destination (hok : RunOK C D p) (hw : D.world = withRandom W R) (hW : W.none = .null)
    (h : (sample C D p S s).err = none) {n : Str} {k kd : Key} {t td : TableMeta}
    (hc : Copied C D p (sample C D p S s).schema n k kd t td)
    {pre post : List (FilterCfg Val)} {g : SimpleCfg Val} (hf : dget C.filters n = some (pre ++ .simple g :: post)) {c : Str}
    (hcg : c ∈ SimpleCfg.columns g) (ho : ¬ SimpleCfg.IsOmit g) (hpost : ∀ f ∈ post, c ∉ FilterCfg.writes f)
    (hcomp : c ∉ (target D kd td).computed) (hkeep : (∀ i, ¬ Produces c g (.int i)) ∨ AsFiltered C n t td c)
    (hS : C.truncate = true ∨ ∀ r ∈ S kd, Produces c g (r.get c)) :
    ∀ r ∈ (sample C D p S s).final kd, Produces c g (r.get c) := by
  obtain ⟨order, B, Smp, ids, T, mult, compact, offs, h1, h2, -⟩ := c61_run hok h
  obtain ⟨ch, rows, bs, g1, -, -, g2⟩ := h2 n k kd t td hc
  refine commits_all (P := Produces c g) (sent_column hw g1 hf hcg ho hpost hcomp) g2 g1.fitting
    (fun x hx v hv => sent_values hok hw hW (schema_names hok) h1.derived hc g1 hf hkeep hcg ho hpost hx hv) fun r hr => ?_
  by_cases ht : C.truncate = true
  · rw [h1.begins.emptied ht kd hc.reached] at hr; cases hr
  · rw [h1.begins.kept kd fun h => absurd h ht] at hr
    exact hS.resolve_left ht r hr

/-- C69. And so it does at any time of any run, failed or not, if it did so before. -/
theorem c69_any_time (hok : RunOK C D p) (hw : D.world = withRandom W R) (hW : W.none = .null)
    {n : Str} {k kd : Key} {t td : TableMeta}
    (hc : Copied C D p (sample C D p S s).schema n k kd t td)
    {pre post : List (FilterCfg Val)} {g : SimpleCfg Val} (hf : dget C.filters n = some (pre ++ .simple g :: post)) {c : Str}
    (hcg : c ∈ SimpleCfg.columns g) (ho : ¬ SimpleCfg.IsOmit g) (hpost : ∀ f ∈ post, c ∉ FilterCfg.writes f)
    (hcomp : c ∉ (target D kd td).computed) (hkeep : (∀ i, ¬ Produces c g (.int i)) ∨ AsFiltered C n t td c)
    (hS : ∀ r ∈ S kd, Produces c g (r.get c)) :
    ∀ X ∈ (sample C D p S s).hist, ∀ r ∈ X kd, Produces c g (r.get c) := by
  have hclean : ∀ {X : DbState}, (X kd = S kd ∨ (C.truncate = true ∧ Reached C D p kd ∧ X kd = [])) →
      ∀ r ∈ X kd, Produces c g (r.get c) := by
    intro X hX r hr
    rcases hX with hX | ⟨-, -, hX⟩
    · rw [hX] at hr; exact hS r hr
    · rw [hX] at hr; cases hr
  intro X hX
  rcases c62_any_time (S := S) (s := s) hok with h1 | ⟨order, B, Smp, ids, T, mult, compact, offs, h1, h2⟩
  · exact hclean (h1 X hX kd)
  · rcases h2 X hX with h3 | ⟨done, todo, h3⟩
    · exact hclean (h3 kd)
    · have hB : ∀ r ∈ B kd, Produces c g (r.get c) := by
        intro r hr
        by_cases ht : C.truncate = true
        · rw [h1.begins.emptied ht kd hc.reached] at hr; cases hr
        · rw [h1.begins.kept kd fun h => absurd h ht] at hr
          exact hS r hr
      have key : ∀ {ch : Chain Val} {rows : List Row} {bs : List (List (List Val))}
          (g1 : Sent C D p T mult compact offs Smp ids n k kd t td ch rows bs.flatten),
          Commits (flushBuffer D.dialect (strategyFor C p n) (target D kd td) (writtenColumns ch (target D kd td))) (B kd) bs (X kd) →
          ∀ r ∈ X kd, Produces c g (r.get c) := by
        intro ch rows bs g1 g2
        exact commits_all (P := Produces c g) (sent_column hw g1 hf hcg ho hpost hcomp) g2 g1.fitting
          (fun x hx v hv => sent_values hok hw hW (schema_names hok) h1.derived hc g1 hf hkeep hcg ho hpost hx hv) hB
      have hmem : n ∈ done ++ todo := by rw [← h3.order_eq]; exact (h1.all n).2 ⟨k, kd, t, td, hc⟩
      rcases List.mem_append.1 hmem with hd | hd
      · obtain ⟨ch, rows, bs, g1, -, -, g2⟩ := h3.full n k kd t td hc hd
        exact key g1 g2
      · cases todo with
        | nil => cases hd
        | cons m rest =>
          rcases List.mem_cons.1 hd with rfl | hd
          · rcases h3.part n k kd t td hc rfl with g1 | ⟨ch, rows, bs, g1, -, g2⟩
            · rw [g1]; exact hB
            · exact key g1 g2
          · rw [h3.untouched n k kd t td hc hd]; exact hB

/-! ### Examples -/

/-- A generator that counts. -/
def qxRng : Rng Int where
  below n s := (s.toNat % n, s + 1)
  below_lt _ _ h := Nat.mod_lt _ h

/-- The database of an example with this generator. -/
def qxSetting : Setting Int := { rxSetting rxDst with world := withRandom (rxSetting rxDst).world qxRng }

theorem qx_ok {C : RunConfig} (hC : C.compact.columns = []) : RunOK C qxSetting exPlan :=
  ⟨(rx_ok hC).src, (rx_ok hC).dst, (rx_ok hC).closed, (rx_ok hC).srcColumns, (rx_ok hC).self, (rx_ok hC).plan, (rx_ok hC).compactNames⟩

/-- Set the column `uid` to a number, then to another one; the second filter decides. -/
def qxCfg (low high : Int) : RunConfig :=
  { remap := dxRemap, truncate := true, filters := [(str! "s.o", [.simple (.null [str! "uid"]), .simple (.randomInt [str! "uid"] low high)])] }

theorem qx_run : rxShow (sample (qxCfg 20 30) qxSetting exPlan rxBefore 0) =
    (none, [[[(str! "id", .int 1)]], [[(str! "id", .int 7), (str! "uid", .int 20)]], []]) := by decide +kernel

/-- With an empty range the run fails when the tables have been emptied. -/
theorem qx_late : (sample (qxCfg 30 20) qxSetting exPlan rxBefore 0).err ≠ none ∧
    (sample (qxCfg 30 20) qxSetting exPlan rxBefore 0).final (str! "m", str! "o") = [] := by decide +kernel

/-- The theorem applies to this run. -/
example : ∀ r ∈ (sample (qxCfg 20 30) qxSetting exPlan rxBefore 0).final (str! "m", str! "o"),
    Produces (str! "uid") (.randomInt [str! "uid"] 20 30) (r.get (str! "uid")) := by
  refine c69_destination (pre := [.simple (.null [str! "uid"])]) (post := []) (R := qxRng) (W := (rxSetting rxDst).world) (qx_ok rfl) rfl rfl
    (by decide +kernel) (n := str! "s.o") (k := (str! "s", str! "o")) (t := rxO (str! "s")) (td := rxO (str! "m")) ?_ rfl
    (by decide) (fun h => h) (fun _ h => (nomatch h)) (by decide) (.inr ⟨fun h => absurd h (by decide), fun h => nomatch h⟩) (.inl rfl)
  rw [show (sample (qxCfg 20 30) qxSetting exPlan rxBefore 0).schema = rxDst by decide +kernel]
  obtain ⟨h1, h2, h3, h4, h5, h6⟩ := rx_copied (C := qxCfg 20 30) rfl
  exact ⟨h1, h2, h3, h4, h5, h6⟩

end Subsetter.Props
