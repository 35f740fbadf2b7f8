import Verif.Proofs.Output
import Verif.Props.Filters

/-
Properties C33 and C50: what is written for a result set.
-/
namespace Subsetter.Props
open Subsetter Spec

variable {σ : Type} {W : Outside σ Val}

theorem plan_isCopy {x : OutInput} {p : OutPlan} {cols : List Str} {fs : List (FilterCfg Val)}
    (hc : constructFilter W cols fs = .ok x.chain) (hnd : cols.Nodup) (hp : outPlan x = .ok p)
    {r : List Val} (hr : r.length = cols.length) {i : Nat} {s s' : σ} {o : List Val}
    (h : outRow W p (r, i) s = .ok (o, s')) :
    IsCopy W x.chain (writtenColumns x.chain x.dest) x.mult x.multiplier x.offsets r i s o s' := by
  obtain ⟨-, hl⟩ := constructFilter_ok hc
  have hnd1 : x.chain.colsOut.Nodup := by rw [loop_colsOut hl]; exact hnd.filter _
  obtain ⟨-, h1, h2, h3, h4, -, h5⟩ := outPlan_ok hp
  have hnd2 : p.colsOut.Nodup := by rw [h1]; exact hnd1.filter _
  obtain ⟨f, g1, g2, g3⟩ := outRow_values h3 h4 hnd2 h
  rw [← h1, ← h2]
  rcases h5 with ⟨h5, h6⟩ | ⟨comp, h5, h6, h7⟩
  · rw [h5] at g1
    have g4 := (chain_run hl hnd hr g1).1
    rw [← h6] at g4
    exact ⟨f, g1, g2.trans g4, fun c hc => h6 ▸ g3 g4 c hc⟩
  · rw [h5] at g1
    obtain ⟨f0, s1, g5, g6⟩ := runViews_append g1
    have g7 := (chain_run hl hnd hr g5).1
    simp only [runViews, View.run] at g6
    cases g8 : (mkOmit x.chain.colsOut comp : SimpleView Val).run W f0 s1 with
    | error e => rw [g8] at g6; cases g6
    | ok q =>
      obtain ⟨f', s2⟩ := q
      rw [g8] at g6; cases g6
      have hcs : constructSimple W x.chain.colsOut (.omit comp) = .ok (mkOmit x.chain.colsOut comp) := rfl
      obtain ⟨g9, g10⟩ := simple_run hcs hnd1 g7 g8
      have hs : s1 = s' := by
        unfold mkOmit at g8
        simp only [SimpleView.run] at g8
        split at g8 <;> cases g8
        rfl
      subst hs
      rw [← h6] at g9
      refine ⟨f0, g5, g2.trans g9, fun c hc => ?_⟩
      obtain ⟨v, g11, g12⟩ := g3 g9 c hc
      have hc1 : c ∈ x.chain.colsOut := by
        rw [h1] at hc; exact List.mem_of_mem_filter hc
      have hc2 : c ∉ comp := by
        rw [h1] at hc
        intro h8
        have := (List.mem_filter.1 hc).2
        simp [h7 c h8] at this
      obtain ⟨k, hk, hk'⟩ := List.mem_iff_getElem.1 hc1
      have hk'' : x.chain.colsOut[k]? = some c := by rw [List.getElem?_eq_getElem hk, hk']
      obtain ⟨j, g13, g14⟩ := g10 c k hc2 hk''
      rw [← h6] at g13
      refine ⟨v, ?_, g12⟩
      rw [valueOf_eq hnd1 g7 hk'', ← g14, ← valueOf_eq hnd2 g9 g13, g11]

/-! ### C33 -/

/-- C33: if a result set is written without error, the batches committed, concatenated, are the copies
`0 .. m - 1` of the first row, then those of the second row and so on, each with the filtered,
multiplied and shifted values in the columns that are not generated; all batches but the last have `x.buffer + 1`
rows (1025 in the program) and the last is not empty; the table is what results from inserting them. -/
theorem c33_written_once_in_order {dialect : Dialect} {strategy : Strategy} {x : OutInput} {cols : List Str}
    {fs : List (FilterCfg Val)} (hc : constructFilter W cols fs = .ok x.chain) (hnd : cols.Nodup)
    {rows : List (List Val)} (hr : ∀ r ∈ rows, r.length = cols.length) {T : List Row} {s : σ}
    {st : WState σ (List Row)} (h : outputResultSet W dialect strategy x rows T s = .ok st) :
    st.written.flatten.length = rows.length * x.multiplier ∧
    FirstCopies (IsCopy W x.chain (writtenColumns x.chain x.dest) x.mult x.multiplier x.offsets)
      x.multiplier rows s st.written.flatten ∧
    Batches (x.buffer + 1) st.written ∧
    Commits (flushBuffer dialect strategy x.dest (writtenColumns x.chain x.dest)) T st.written st.dest := by
  unfold outputResultSet at h
  cases h0 : outPlan x with
  | error e => rw [h0] at h; cases h
  | ok p =>
    rw [h0] at h
    obtain ⟨outs, h1, h2, h3, h4, h5⟩ := writeAll_ok h
    rw [outPlan_buffer h0] at h3
    obtain ⟨-, e1, e2, -⟩ := outPlan_ok h0
    rw [e2] at h1
    rw [e1] at h4
    refine ⟨by rw [h2, h1.length, copies_length], ?_, h3, h4⟩
    rw [h2]
    obtain ⟨a1, ss, a2, a3⟩ := h1.firstCopies List.prefix_rfl
    refine ⟨a1, ss, a2, fun k i r o hk hi ho => ?_⟩
    obtain ⟨hm, b⟩ := a3 k i r o hk hi ho
    exact plan_isCopy hc hnd h0 (hr r hm) b

/-- C33: if writing fails, the batches committed before (of `x.buffer + 1` rows each) are the first copies, in order, and the table is
what results from inserting them. -/
theorem c33_failure_keeps_prefix {dialect : Dialect} {strategy : Strategy} {x : OutInput} {cols : List Str}
    {fs : List (FilterCfg Val)} (hc : constructFilter W cols fs = .ok x.chain) (hnd : cols.Nodup)
    {rows : List (List Val)} (hr : ∀ r ∈ rows, r.length = cols.length) {T : List Row} {s : σ}
    {st : WState σ (List Row)} {e : OutErr}
    (h : outputResultSet W dialect strategy x rows T s = .error (st, e)) :
    FirstCopies (IsCopy W x.chain (writtenColumns x.chain x.dest) x.mult x.multiplier x.offsets)
      x.multiplier rows s st.written.flatten ∧
    (∀ b ∈ st.written, b.length = x.buffer + 1) ∧
    Commits (flushBuffer dialect strategy x.dest (writtenColumns x.chain x.dest)) T st.written st.dest := by
  unfold outputResultSet at h
  cases h0 : outPlan x with
  | error e =>
    rw [h0] at h; cases h
    exact ⟨⟨by simp, fun _ => s, rfl, fun k i r o _ _ ho => by simp at ho⟩, by simp, .nil _⟩
  | ok p =>
    rw [h0] at h
    obtain ⟨pre, outs, h1, h2, h3, h4, h5⟩ := writeAll_error h
    dsimp only at h3 h4 h5
    rw [outPlan_buffer h0] at h4
    obtain ⟨-, e1, e2, -⟩ := outPlan_ok h0
    rw [e2] at h1
    rw [e1] at h5
    refine ⟨?_, h4, h5⟩
    obtain ⟨a1, ss, a2, a3⟩ := h2.firstCopies h1
    refine ⟨Nat.le_trans h3.length_le a1, ss, a2, fun k i r o hk hi ho => ?_⟩
    obtain ⟨t, ht⟩ := h3
    have hlt : k * x.multiplier + i < st.written.flatten.length := by
      rcases Nat.lt_or_ge (k * x.multiplier + i) st.written.flatten.length with h | h
      · exact h
      · rw [List.getElem?_eq_none h] at ho; cases ho
    obtain ⟨hm, b⟩ := a3 k i r o hk hi (by rw [← ht, List.getElem?_append_left hlt]; exact ho)
    exact plan_isCopy hc hnd h0 (hr r hm) b

/-- An outside world for examples: generators count, other things do not exist. -/
def exWorldV : Outside Int Val where
  gen _ s := .ok (.int s, s + 1)
  pluginOk _ := false
  plugin _ _ _ := .error (.outside 0)
  none := .null
  zero v := some v
  holds _ _ := .ok false

/-- A chain that keeps `id`, `a`, `b`, with a generated value for `a`, and drops `c`. -/
def exChain : Except FilterErr (Chain Val) :=
  constructFilter exWorldV [str! "id", str! "a", str! "b", str! "c"]
    [.simple (.randomInt [str! "a"] 0 9), .simple (.omit [str! "c"])]

/-- An input: `b` is generated in the destination, `id` is multiplied and shifted. -/
def exInput (ch : Chain Val) : OutInput :=
  ⟨ch, ⟨[str! "id", str! "a", str! "b", str! "z"], [str! "b"], fun _ => .int 5, [str! "id"]⟩,
    [(str! "id", 100)], 2, [str! "id"], none, bufferSize⟩

/-- The batches and the table after a run. -/
def exOut (strategy : Strategy) (rows : List (List Val)) (T : List Row) :
    Option (List (List (List Val)) × List Row) :=
  match exChain with
  | .error _ => none
  | .ok ch =>
    match outputResultSet exWorldV .postgresql strategy (exInput ch) rows T 7 with
    | .error _ => none
    | .ok st => some (st.written, st.dest)

example : exOut .error [[.int 3, .int 0, .int 0, .int 0], [.int 4, .null, .null, .null]] [] =
    some ([[[.int 106, .int 7], [.int 107, .int 8], [.int 108, .int 9], [.int 109, .int 10]]],
      [[(str! "id", .int 106), (str! "a", .int 7), (str! "z", .int 5)],
        [(str! "id", .int 107), (str! "a", .int 8), (str! "z", .int 5)],
        [(str! "id", .int 108), (str! "a", .int 9), (str! "z", .int 5)],
        [(str! "id", .int 109), (str! "a", .int 10), (str! "z", .int 5)]]) := by decide

/-- Batch lengths when `n` rows are written through a buffer for `size` rows to a table without primary key. -/
def exLengths (size n : Nat) : Option (List Nat) :=
  match outputResultSet exWorldV .sqlite .error
      ⟨⟨[str! "v"], [str! "v"], []⟩, ⟨[str! "v"], [], fun _ => .null, []⟩, [], 1, [], none, size⟩
      ((List.range n).map fun i => [.int i]) [] 0 with
  | .error _ => none
  | .ok st => some (st.written.map List.length)

example : exLengths bufferSize 0 = some [] ∧ exLengths bufferSize 5 = some [5] ∧ exLengths 1 5 = some [2, 2, 1] := by decide

/-! ### C50 -/

theorem directoryLoop_run {p : OutPlan} : ∀ {xs : List (List Val × Nat)} {s : σ} {lines : List Row}
    {s' : σ} {err : Option OutErr}, directoryLoop W p xs s = (lines, s', err) →
    ∃ pre outs, pre <+: xs ∧ Run W p pre s outs s' ∧ lines = outs.map (fun o => p.colsOut.zip o) ∧
      (err = none → pre = xs)
  | [], s, lines, s', err, h => by
    cases h
    exact ⟨[], [], by simp, .nil _, rfl, fun _ => rfl⟩
  | x :: xs, s, lines, s', err, h => by
    unfold directoryLoop at h
    cases h1 : outRow W p x s with
    | error e =>
      rw [h1] at h; cases h
      exact ⟨[], [], by simp, .nil _, rfl, fun h => by cases h⟩
    | ok q =>
      obtain ⟨row, s1⟩ := q
      rw [h1] at h
      dsimp only at h
      cases h
      obtain ⟨pre, outs, h2, h3, h4, h5⟩ :=
        directoryLoop_run (p := p) (xs := xs) (s := s1) (lines := (directoryLoop W p xs s1).1)
          (s' := (directoryLoop W p xs s1).2.1) (err := (directoryLoop W p xs s1).2.2) rfl
      exact ⟨x :: pre, row :: outs, by simpa using h2, .cons h1 h3, by rw [h4]; rfl,
        fun h => by rw [h5 h]⟩

/-- C50: the file of a table has one line for every copy of every row, in order, or, if writing fails,
the first of these; a line maps every output column to its filtered and multiplied value. -/
theorem c50_one_line_per_copy {ch : Chain Val} {cols : List Str} {fs : List (FilterCfg Val)}
    (hc : constructFilter W cols fs = .ok ch) (hnd : cols.Nodup) {rows : List (List Val)}
    (hr : ∀ r ∈ rows, r.length = cols.length) {m : Nat} {mult : List Str} {s s' : σ} {lines : List Row}
    {err : Option OutErr} (h : directoryOutput W ch m mult rows s = (lines, s', err)) :
    (err = none → lines.length = rows.length * m) ∧
    FirstCopies (fun r i s (line : Row) s' => ∃ out, IsCopy W ch ch.colsOut mult m [] r i s out s' ∧
      line.map Prod.fst = ch.colsOut ∧ line.map Prod.snd = out) m rows s lines := by
  unfold directoryOutput at h
  obtain ⟨pre, outs, h1, h2, h3, h4⟩ := directoryLoop_run h
  dsimp only at h1 h3
  obtain ⟨-, hl⟩ := constructFilter_ok hc
  have hnd1 : ch.colsOut.Nodup := by rw [loop_colsOut hl]; exact hnd.filter _
  refine ⟨fun he => by rw [h3, List.length_map, h2.length, h4 he, copies_length], ?_⟩
  obtain ⟨a1, ss, a2, a3⟩ := h2.firstCopies h1
  refine ⟨by rw [h3, List.length_map]; exact a1, ss, a2, fun k i r line hk hi ho => ?_⟩
  rw [h3, List.getElem?_map, Option.map_eq_some_iff] at ho
  obtain ⟨o, ho, rfl⟩ := ho
  obtain ⟨hm, b⟩ := a3 k i r o hk hi ho
  obtain ⟨f, b1, b2, b3⟩ := outRow_values (cols := ch.colsOut) (mult := mult) (offsets := []) rfl
    (by simp [offsetIndexes, dget]) hnd1 b
  have b4 := (chain_run hl hnd (hr r hm) b1).1
  have b5 := b2.trans b4
  exact ⟨o, ⟨f, b1, b5, b3 b4⟩, List.map_fst_zip (by omega), List.map_snd_zip (by omega)⟩

example : (match exChain with
    | .error _ => none
    | .ok ch => some (directoryOutput exWorldV ch 2 [str! "id"] [[.int 3, .int 0, .int 1, .int 2],
        [.str (str! "x"), .int 0, .int 1, .int 2]] 7)) =
    some ([[(str! "id", .int 6), (str! "a", .int 7), (str! "b", .int 1)],
      [(str! "id", .int 7), (str! "a", .int 8), (str! "b", .int 1)]], 9, some .typeError) := by decide

end Subsetter.Props
