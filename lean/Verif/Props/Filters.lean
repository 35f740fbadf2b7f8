import Verif.Proofs.Filters

/-
Properties C40-C43 and C54: filters.
-/
namespace Subsetter.Props
open Subsetter Spec

variable {σ V : Type} {W : Outside σ V} {cols : List Str} {fs : List (FilterCfg V)} {ch : Chain V}

theorem constructFilter_ok (h : constructFilter W cols fs = .ok ch) :
    ch.colsIn = cols ∧ constructLoop W cols fs = .ok (ch.views, ch.colsOut) := by
  unfold constructFilter at h
  cases h1 : constructLoop W cols fs with
  | error e => rw [h1] at h; cases h
  | ok p => obtain ⟨vs, out⟩ := p; rw [h1] at h; cases h; exact ⟨rfl, rfl⟩

/-- An outside world for examples: generators count, plugin 0 returns what it got, plugin 1 returns
nothing, condition `n` is "equals `n`", values from 100 on cannot be zeroed. -/
def exWorld : Outside Nat Nat where
  gen _ s := .ok (s, s + 1)
  pluginOk p := p < 2
  plugin p vs s := .ok (if p = 0 then vs else [], s)
  none := 999
  zero v := if v < 100 then some 0 else Option.none
  holds n v := .ok (n == v)

/-- The output of a chain with its columns. -/
def exRun (cols : List Str) (fs : List (FilterCfg Nat)) (r : List Nat) :
    Except FilterErr (List Str × List Nat) :=
  match constructFilter exWorld cols fs with
  | .error e => .error e
  | .ok ch =>
    match ch.run exWorld r 7 with
    | .error e => .error e
    | .ok (out, _) => .ok (ch.colsOut, out)

/-! ### C40 -/

/-- C40: rows have as many values as there are output columns, the output columns are the input columns
that are not omitted, in order, and columns not named by a filter keep their value. -/
theorem c40_unnamed_columns_kept (h : constructFilter W cols fs = .ok ch) (hnd : cols.Nodup) {r : List V}
    (hl : r.length = cols.length) {s s' : σ} {out : List V} (hr : ch.run W r s = .ok (out, s')) :
    out.length = ch.colsOut.length ∧
    (∀ c ∈ cols, (∀ f ∈ fs, c ∉ FilterCfg.writes f) →
      c ∈ ch.colsOut ∧ valueOf ch.colsOut out c = valueOf cols r c) := by
  obtain ⟨-, h1⟩ := constructFilter_ok h
  obtain ⟨h2, h3⟩ := chain_run h1 hnd hl hr
  have hnd' : ch.colsOut.Nodup := by rw [loop_colsOut h1]; exact hnd.filter _
  refine ⟨h2, fun c hc hw => ?_⟩
  obtain ⟨i, hi, hi'⟩ := List.mem_iff_getElem.1 hc
  have hi'' : cols[i]? = some c := by rw [List.getElem?_eq_getElem hi, hi']
  obtain ⟨j, h4, h5⟩ := h3 c i hw hi''
  exact ⟨List.mem_of_getElem? h4, by rw [valueOf_eq hnd' h2 h4, valueOf_eq hnd hl hi'', h5]⟩

theorem c40_columns_out (h : constructFilter W cols fs = .ok ch) :
    ch.colsOut = cols.filter fun c => decide (c ∉ omitted fs) := loop_colsOut (constructFilter_ok h).2

example : exRun [str! "id", str! "name", str! "mail", str! "age"]
    [.simple (.null [str! "mail"]), .simple (.omit [str! "name"]), .simple (.uuid [str! "mail"]),
      .multiplex (str! "age") [(5, .zero [str! "mail"]), (6, .constant [str! "age"] [1])]]
    [1, 2, 3, 6] = .ok ([str! "id", str! "mail", str! "age"], [1, 7, 1]) := by decide

/-! ### C41 -/

/-- The columns after a list of filters. -/
theorem c41_step {pre post : List (FilterCfg V)} {f : FilterCfg V} {vs : List (View V)} {out : List Str}
    (h : constructLoop W cols (pre ++ f :: post) = .ok (vs, out)) :
    ∃ v, constructView W (cols.filter fun c => decide (c ∉ omitted pre)) f = .ok v := by
  induction pre generalizing cols vs with
  | nil =>
    obtain ⟨v, vs', rfl, h1, -⟩ := construct_loop_cons h
    exact ⟨v, by simpa [omitted] using h1⟩
  | cons g pre ih =>
    obtain ⟨v, vs', rfl, h1, h2⟩ := construct_loop_cons h
    obtain ⟨w, h3⟩ := ih h2
    rw [view_colsOut h1, filter_omitted] at h3
    exact ⟨w, h3⟩

/-- C41, for all filters but `omit`: an accepted filter names at least one column, none twice, and only
columns that exist at its place in the chain; the column of a multiplexer exists.  Missing: `omit`
filters, see `c41_omit_unchecked`. -/
theorem c41_rejected_partial (h : constructFilter W cols fs = .ok ch) {pre post : List (FilterCfg V)}
    {f : FilterCfg V} (hfs : fs = pre ++ f :: post) :
    (∀ g, f = .simple g → ¬ SimpleCfg.IsOmit g →
      SimpleCfg.Fits (cols.filter fun c => decide (c ∉ omitted pre)) g) ∧
    (∀ column conds, f = .multiplex column conds →
      column ∈ cols.filter (fun c => decide (c ∉ omitted pre)) ∧
      ∀ p ∈ conds, ¬ SimpleCfg.IsOmit p.2 →
        SimpleCfg.Fits (cols.filter fun c => decide (c ∉ omitted pre)) p.2) := by
  subst hfs
  obtain ⟨v, hv⟩ := c41_step (constructFilter_ok h).2
  have key : ∀ {cols : List Str} {g : SimpleCfg V} {w : SimpleView V}, constructSimple W cols g = .ok w →
      ¬ SimpleCfg.IsOmit g → SimpleCfg.Fits cols g := by
    intro cols g w h1 h2
    rcases constructSimple_ok h1 with ⟨cs, rfl, -⟩ | ⟨-, h3, -⟩
    · exact absurd trivial h2
    · exact h3
  constructor
  · rintro g rfl h1
    rcases constructView_ok hv with ⟨g', w, h2, -, h3⟩ | ⟨_, _, _, _, h2, -⟩
    · cases h2; exact key h3 h1
    · cases h2
  · rintro column conds rfl
    rcases constructView_ok hv with ⟨g', w, h2, -⟩ | ⟨_, _, i, vs, h2, -, h3, h4, -⟩
    · cases h2
    · cases h2
      refine ⟨List.mem_of_getElem? (firstIndex_some h3), fun p hp h5 => ?_⟩
      have : ∀ {conds : List (Nat × SimpleCfg V)} {vs : List (Nat × SimpleView V)} {cols : List Str},
          List.Forall₂ (fun c v => c.1 = v.1 ∧ constructSimple W cols c.2 = .ok v.2) conds vs →
          ∀ p ∈ conds, ∃ w, constructSimple W cols p.2 = .ok w := by
        intro conds vs cols hf
        induction hf with
        | nil => simp
        | cons h _ ih =>
          intro p hp
          rcases List.mem_cons.1 hp with rfl | hp
          · exact ⟨_, h.2⟩
          · exact ih p hp
      obtain ⟨w, hw⟩ := this h4 p hp
      exact key hw h5

/-- Conversely a chain of simple filters whose columns fit and whose options are valid is accepted. -/
theorem c41_accepted (cols : List Str) (gs : List (SimpleCfg V))
    (h : ∀ pre g post, gs = pre ++ g :: post →
      (SimpleCfg.IsOmit g ∨ SimpleCfg.Fits (cols.filter fun c => decide (c ∉ omitted (pre.map .simple))) g) ∧
      SimpleCfg.OptionsOK W.pluginOk g) :
    ∃ ch, constructFilter W cols (gs.map .simple) = .ok ch := by
  suffices ∃ p, constructLoop W cols (gs.map .simple) = .ok p by
    obtain ⟨⟨vs, out⟩, hp⟩ := this
    exact ⟨_, by unfold constructFilter; rw [hp]⟩
  induction gs generalizing cols with
  | nil => exact ⟨_, rfl⟩
  | cons g gs ih =>
    obtain ⟨h1, h2⟩ := h [] g gs rfl
    have h1' : SimpleCfg.IsOmit g ∨ SimpleCfg.Fits cols g := by simpa [omitted] using h1
    obtain ⟨v, hv⟩ := constructSimple_complete h1' h2
    have hv' : constructView W cols (.simple g) = .ok (.simple v) := by
      simp only [constructView, hv]
    obtain ⟨⟨vs, out⟩, hp⟩ := ih v.colsOut (by
      intro pre g' post e
      obtain ⟨h3, h4⟩ := h (g :: pre) g' post (by rw [e]; rfl)
      refine ⟨?_, h4⟩
      have h5 := filter_omitted (.simple g) (pre.map .simple) cols
      rw [← view_colsOut hv'] at h5
      change (v.colsOut.filter _) = _ at h5
      rw [h5]
      exact h3)
    refine ⟨(.simple v :: vs, out), ?_⟩
    rw [List.map_cons]
    unfold constructLoop
    rw [hv']
    dsimp only [View.colsOut]
    rw [hp]

example : (constructFilter exWorld [str! "a", str! "b"] [.simple (.null [str! "a", str! "a"])]).toOption.isSome = false ∧
    (constructFilter exWorld [str! "a", str! "b"] [.simple (.null [])]).toOption.isSome = false ∧
    (constructFilter exWorld [str! "a", str! "b"] [.simple (.omit [str! "a"]), .simple (.uuid [str! "a"])]).toOption.isSome = false ∧
    (constructFilter exWorld [str! "a", str! "b"] [.simple (.uuid [str! "a"]), .simple (.omit [str! "a"])]).toOption.isSome = true := by
  decide

/-- C41 is false for `omit`: a misspelt column, a repeated column and no column at all are accepted, and
the column that should have been removed is written. -/
theorem c41_omit_unchecked :
    exRun [str! "id", str! "password"] [.simple (.omit [str! "pasword", str! "pasword"])] [1, 2] =
      .ok ([str! "id", str! "password"], [1, 2]) ∧
    exRun [str! "id", str! "password"] [.simple (.omit [])] [1, 2] =
      .ok ([str! "id", str! "password"], [1, 2]) := by decide

/-! ### C42 -/

/-- C42: if a column is removed or replaced by a filter that does not look at it, and no earlier filter
looks at it, then nothing about its value can be seen: the output, the errors and the state of the
outside world are the same for all values. -/
theorem c42_scrubbed (h : constructFilter W cols fs = .ok ch) (hnd : cols.Nodup)
    {pre post : List (FilterCfg V)} {f : FilterCfg V} {c : Str} (hfs : fs = pre ++ f :: post)
    (hpre : ∀ g ∈ pre, c ∉ FilterCfg.reads g) (hf : FilterCfg.Scrubs f c) {r r' : List V}
    (hl : r.length = cols.length) (hs : SameBut cols c r r') (s : σ) :
    ch.run W r s = ch.run W r' s := by
  subst hfs
  exact chain_same (constructFilter_ok h).2 hnd hpre hf hl hs s

/-- The filters with this effect. -/
theorem c42_scrubbing (c : Str) (cs : List Str) (hc : c ∈ cs) :
    FilterCfg.Scrubs (.simple (.null cs) : FilterCfg V) c ∧
    FilterCfg.Scrubs (.simple (.omit cs) : FilterCfg V) c ∧
    FilterCfg.Scrubs (.simple (.uuid cs) : FilterCfg V) c ∧
    (∀ vs, FilterCfg.Scrubs (.simple (.constant cs vs) : FilterCfg V) c) ∧
    (∀ l u, FilterCfg.Scrubs (.simple (.randomInt cs l u) : FilterCfg V) c) ∧
    (∀ l u, FilterCfg.Scrubs (.simple (.randomFloat cs l u) : FilterCfg V) c) ∧
    (∀ n a x, FilterCfg.Scrubs (.simple (.randomString cs n a x) : FilterCfg V) c) ∧
    ∀ w u, FilterCfg.Scrubs (.simple (.fake cs w u) : FilterCfg V) c :=
  ⟨⟨_, rfl, hc, List.not_mem_nil⟩, ⟨_, rfl, hc, List.not_mem_nil⟩, ⟨_, rfl, hc, List.not_mem_nil⟩,
    fun _ => ⟨_, rfl, hc, List.not_mem_nil⟩, fun _ _ => ⟨_, rfl, hc, List.not_mem_nil⟩,
    fun _ _ => ⟨_, rfl, hc, List.not_mem_nil⟩, fun _ _ _ => ⟨_, rfl, hc, List.not_mem_nil⟩,
    fun _ _ => ⟨_, rfl, hc, List.not_mem_nil⟩⟩

/-- Two rows that differ in the mail address only. -/
example : SameBut [str! "id", str! "mail"] (str! "mail") [1, 2] [1, 3] := by
  refine ⟨rfl, fun i hi => ?_⟩
  match i with
  | 0 => rfl
  | 1 => exact absurd rfl hi
  | i + 2 => rfl

/-- The conditions are needed: a multiplexer looking at the column beforehand, `zero` and plugins let
something through; a plugin that returns too few values even the value itself. -/
theorem c42_readers_leak :
    exRun [str! "id", str! "mail"] [.multiplex (str! "mail") [(2, .null [str! "id"])],
      .simple (.null [str! "mail"])] [1, 2] ≠
    exRun [str! "id", str! "mail"] [.multiplex (str! "mail") [(2, .null [str! "id"])],
      .simple (.null [str! "mail"])] [1, 3] ∧
    exRun [str! "id", str! "mail"] [.simple (.zero [str! "mail"])] [1, 2] ≠
    exRun [str! "id", str! "mail"] [.simple (.zero [str! "mail"])] [1, 200] ∧
    exRun [str! "id", str! "mail"] [.simple (.plugin [str! "mail"] 1)] [1, 2] =
      .ok ([str! "id", str! "mail"], [1, 2]) := by decide

/-! ### C43 -/

/-- C43: the first condition that holds decides which filter is applied, and that filter does what it
would do on its own; if no condition holds the row is unchanged; the column list never changes. -/
theorem c43_first_match {column : Str} {conds : List (Nat × SimpleCfg V)} {v : View V}
    (h : constructView W cols (.multiplex column conds) = .ok v) (hnd : cols.Nodup) {r : List V}
    (hl : r.length = cols.length) (s : σ) :
    v.colsOut = cols ∧ ∃ x, valueOf cols r column = some x ∧
    ((∀ p ∈ conds, W.holds p.1 x = .ok false) → v.run W r s = .ok (r, s)) ∧
    (∀ before n g after, conds = before ++ (n, g) :: after → (∀ p ∈ before, W.holds p.1 x = .ok false) →
      W.holds n x = .ok true →
      ∃ w, constructView W cols (.simple g) = .ok w ∧ w.colsOut = cols ∧ v.run W r s = w.run W r s) := by
  rcases constructView_ok h with ⟨g', w, h2, -⟩ | ⟨_, _, i, vs, h2, rfl, h3, h4, h5⟩
  · cases h2
  · cases h2
    have hi := firstIndex_some h3
    have hlt : i < r.length := by rw [hl]; exact (List.getElem?_eq_some_iff.1 hi).1
    refine ⟨rfl, r[i], by rw [valueOf_eq hnd hl hi, List.getElem?_eq_getElem hlt], ?_, ?_⟩
    · intro hall
      simp only [View.run, List.getElem?_eq_getElem hlt]
      clear h3 h5 h
      induction h4 with
      | nil => rfl
      | @cons p q _ _ hpq _ ih =>
        obtain ⟨n, w⟩ := q
        have := hall p (.head _)
        rw [hpq.1] at this
        simp only [runConds, this]
        exact ih fun p hp => hall p (.tail _ hp)
    · intro before n g after e hbefore hn
      subst e
      simp only [View.run, List.getElem?_eq_getElem hlt]
      clear h3 h
      induction before generalizing vs with
      | nil =>
        cases h4 with
        | @cons _ q _ _ hpq _ =>
          obtain ⟨m, w⟩ := q
          have hm : n = m := hpq.1
          subst hm
          refine ⟨.simple w, ?_, h5 (n, w) (.head _), ?_⟩
          · have := hpq.2
            dsimp only at this
            simp only [constructView, this]
          · simp only [runConds, hn]
      | cons p before ih =>
        cases h4 with
        | @cons _ q _ l' hpq hrest =>
          obtain ⟨m, w⟩ := q
          have := hbefore p (.head _)
          rw [hpq.1] at this
          obtain ⟨w', h6, h7, h8⟩ := ih (vs := l') (fun w hw => h5 w (.tail _ hw))
            (fun p hp => hbefore p (.tail _ hp)) hrest
          refine ⟨w', h6, h7, ?_⟩
          simp only [runConds, this]
          exact h8

/-- A filter that removes a column is not accepted inside a multiplexer. -/
theorem c43_no_omit {column : Str} {conds : List (Nat × SimpleCfg V)} {n : Nat} {cs : List Str}
    (hm : (n, .omit cs) ∈ conds) {c : Str} (hc : c ∈ cs) (hcols : c ∈ cols) :
    ∀ v, constructView W cols (.multiplex column conds) ≠ .ok v := by
  intro v h
  rcases constructView_ok h with ⟨g', w, h2, -⟩ | ⟨_, _, i, vs, h2, rfl, h3, h4, h5⟩
  · cases h2
  · cases h2
    have : ∃ w ∈ vs, constructSimple W cols (.omit cs) = .ok w.2 := by
      clear h3 h5 h
      induction h4 with
      | nil => cases hm
      | @cons p q _ _ hpq _ ih =>
        rcases List.mem_cons.1 hm with e | hm
        · subst e
          exact ⟨q, .head _, hpq.2⟩
        · obtain ⟨w, h6, h7⟩ := ih hm
          exact ⟨w, .tail _ h6, h7⟩
    obtain ⟨w, h6, h7⟩ := this
    have h8 := colsOut_eq h7
    rw [h5 w h6] at h8
    have := h8 ▸ hcols
    rw [List.mem_filter] at this
    simp only [omitted, List.append_nil, decide_eq_true_eq] at this
    exact this.2 hc

example : exRun [str! "kind", str! "x"] [.multiplex (str! "kind") [(1, .null [str! "x"]), (2, .uuid [str! "x"]),
      (2, .zero [str! "x"])]] [2, 5] = .ok ([str! "kind", str! "x"], [2, 7]) ∧
    exRun [str! "kind", str! "x"] [.multiplex (str! "kind") [(1, .null [str! "x"]), (2, .uuid [str! "x"])]] [3, 5] =
      .ok ([str! "kind", str! "x"], [3, 5]) := by decide

/-! ### C54 -/

/-- Kinds of values. -/
inductive Kind where
  | null | str | bool | int | float | time (tz : Option Nat) | other
  deriving DecidableEq

/-- The kind of a value. -/
def kindOf : PyVal → Kind
  | .none => .null
  | .str _ => .str
  | .bool _ => .bool
  | .int _ => .int
  | .float _ => .float
  | .datetime _ tz => .time tz
  | .other _ => .other

/-- C54, but for booleans: zeroing keeps the kind, values of one kind all become the same value, zeroing
twice is zeroing once, NULL stays NULL, and only values of unknown kind are refused.  Missing:
booleans, see `c54_boolean_becomes_int`. -/
theorem c54_zero_partial (v : PyVal) :
    (zeroValue v = none ↔ kindOf v = .other) ∧ (zeroValue v = some .none ↔ v = .none) ∧
    ∀ z, zeroValue v = some z → (kindOf v ≠ .bool → kindOf z = kindOf v) ∧ zeroValue z = some z ∧
      ∀ w, kindOf w = kindOf v → zeroValue w = some z := by
  refine ⟨by cases v <;> simp [zeroValue, kindOf], by cases v <;> simp [zeroValue], ?_⟩
  intro z h
  cases v <;> simp only [zeroValue, Option.some.injEq, reduceCtorEq] at h <;> subst h <;>
    refine ⟨?_, rfl, fun w hw => ?_⟩ <;> first
    | (intro _; rfl)
    | (intro h; exact absurd rfl h)
    | (cases w <;> simp_all [kindOf, zeroValue])

/-- C54 is false for booleans: the result is the integer 0. -/
theorem c54_boolean_becomes_int : zeroValue (.bool true) = some (.int 0) := rfl

example : zeroValue (.datetime 123 (some 2)) = some (.datetime 0 (some 2)) ∧ zeroValue (.str (str! "x")) = some (.str []) :=
  ⟨rfl, rfl⟩

end Subsetter.Props
