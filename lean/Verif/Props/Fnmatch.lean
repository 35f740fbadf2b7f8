import Verif.Proofs.Fnmatch
import Verif.Props.RunDirectory

/-
Property C67: patterns, and names of tables used as patterns.
-/
namespace Subsetter.Props
open Subsetter Spec

/-- C67. A pattern made of characters, `?`, `*` and sets matches the strings it stands for.  A `[` that is not closed
stands for itself. -/
theorem c67_unclosed {ps qs : List Piece} (h : ∀ p ∈ ps, p.OK) (hq : ∀ q ∈ qs, q.Open)
    (hn : NoSet (qs.flatMap Piece.text)) (s : Str) :
    fnmatch s ((ps ++ qs).flatMap Piece.text) = true ↔ Means (ps ++ qs) s := by
  unfold fnmatch
  rw [toks_text h hq hn (le_refl _)]
  refine matchToks_means (fun p hp => ?_) s
  rcases List.mem_append.1 hp with hp | hp
  · exact .inl (h p hp)
  · exact .inr (hq p hp)

/-- C67. The same for patterns whose brackets are all closed. -/
theorem c67_language {ps : List Piece} (h : ∀ p ∈ ps, p.OK) (s : Str) :
    fnmatch s (ps.flatMap Piece.text) = true ↔ Means ps s := by
  have := c67_unclosed (qs := []) h (by simp) (by intro a b e; simp at e) s
  rwa [List.append_nil] at this

/-- C67. A pattern without `*`, `?` and `[` matches itself and nothing else: a table selected by its name is the only
one selected. -/
theorem c67_literal {pat : Str} (h : '*' ∉ pat ∧ '?' ∉ pat ∧ '[' ∉ pat) (s : Str) : fnmatch s pat = true ↔ s = pat := by
  have hok : ∀ p ∈ pat.map Piece.char, p.OK := by
    intro p hp
    obtain ⟨c, hc, rfl⟩ := List.mem_map.1 hp
    exact ⟨fun e => h.1 (e ▸ hc), fun e => h.2.1 (e ▸ hc), fun e => h.2.2 (e ▸ hc)⟩
  have htext : (pat.map Piece.char).flatMap Piece.text = pat := by
    induction pat with
    | nil => rfl
    | cons c pat ih =>
      rw [List.map_cons, List.flatMap_cons, ih ⟨fun e => h.1 (by simp [e]), fun e => h.2.1 (by simp [e]),
        fun e => h.2.2 (by simp [e])⟩ fun p hp => hok p (by simp at hp ⊢; exact .inr hp)]
      rfl
  have := c67_language hok s
  rw [htext] at this
  rw [this]
  clear this hok htext h
  induction pat generalizing s with
  | nil =>
    constructor
    · rintro ⟨⟩; rfl
    · rintro rfl; exact .nil
  | cons c pat ih =>
    constructor
    · intro h
      generalize hq : (c :: pat).map Piece.char = q at h
      cases h with
      | nil => cases hq
      | @cons p ps a b h1 h2 =>
        cases hq
        have e : a = [c] := h1
        rw [e, (ih b).1 h2]
        rfl
    · rintro rfl
      exact .cons (p := .char c) (s := [c]) rfl ((ih pat).2 rfl)

/-- C67. A name in which no `[` is closed matches itself. -/
theorem c67_self {n : Str} (h : NoSet n) : fnmatch n n = true := toks_self h (le_refl _)

/-- C67. A name with brackets and without `*` does not match itself. -/
theorem c67_brackets {a b c : Str} (h1 : '*' ∉ a ++ '[' :: b ++ ']' :: c) (h2 : '[' ∉ a) (h3 : b ≠ []) (h4 : b ≠ ['!']) :
    fnmatch (a ++ '[' :: b ++ ']' :: c) (a ++ '[' :: b ++ ']' :: c) = false := by
  cases h : fnmatch (a ++ '[' :: b ++ ']' :: c) (a ++ '[' :: b ++ ']' :: c) with
  | false => rfl
  | true =>
    have g1 := toks_short (fuel := (a ++ '[' :: b ++ ']' :: c).length) h1 h2 h3 h4
    have g2 := matchToks_length (toks_length h1).2 h
    omega

example : fnmatch (str! "s.orders") (str! "s.[a-o]*[!x]") = true ∧ fnmatch (str! "s.users") (str! "s.[a-o]*[!x]") = false ∧
    fnmatch (str! "s.users") (str! "s.?sers") = true := by decide +kernel

/-- `s.[a-o]*[!x]` -/
def nxPieces : List Piece := [.char 's', .char '.', .oneOf [.range 'a' 'o'], .star, .noneOf [.one 'x']]

example : nxPieces.flatMap Piece.text = str! "s.[a-o]*[!x]" ∧ ∀ p ∈ nxPieces, p.OK := by
  refine ⟨by decide +kernel, ?_⟩
  simp [nxPieces, Piece.OK, Member.OK, Plainly]

example : Means nxPieces (str! "s.orders") :=
  (c67_language (by simp [nxPieces, Piece.OK, Member.OK, Plainly]) _).1 (by decide +kernel)

/-- `s.[ab]*[c?` -/
def nxOpen : List Piece := [.char '[', .char 'c', .any]

example : Means ([.char 's', .char '.', .oneOf [.one 'a', .one 'b'], .star] ++ nxOpen) (str! "s.bx[cd") ∧
    ¬ Means ([.char 's', .char '.', .oneOf [.one 'a', .one 'b'], .star] ++ nxOpen) (str! "s.bx[c") := by
  have hn : NoSet (nxOpen.flatMap Piece.text) := by
    intro a b e hb
    have : ']' ∈ nxOpen.flatMap Piece.text := by rw [e]; simp [hb]
    revert this
    decide +kernel
  have := c67_unclosed (ps := [.char 's', .char '.', .oneOf [.one 'a', .one 'b'], .star]) (qs := nxOpen)
    (by simp [Piece.OK, Member.OK, Plainly]) (by simp [nxOpen, Piece.Open]) hn
  constructor
  · rw [← this]; decide +kernel
  · rw [← this]; decide +kernel

/-! ### Planned tables that are not found -/

variable {σ : Type} {C : RunConfig} {D : Setting σ} {p : Plan} {S : DbState} {F : Files} {s : σ}

theorem loaded_matches (hsrc : DbOK D.srcDb) {l : Loaded}
    (hl : fromEngine D.fnmatch D.srcDb (dkeys p.queries) false false = some (some l)) {n : Str} {k : Key}
    (hk : parseTableName n = some k) (h : (dget l.tables k).isSome) :
    n ∈ dkeys D.srcDb ∧ ∃ n' ∈ dkeys p.queries, D.fnmatch n n' = true := by
  rcases fromEngine_spec (fnmatch := D.fnmatch) hsrc (dkeys p.queries) false false with ⟨l', g1, -, -, -, g5⟩ | ⟨g1, -⟩
  · rw [hl] at g1; cases g1
    obtain ⟨s, ⟨m, t, e1, e2, n', e3, e4⟩, e5⟩ := (g5 k).1 (dget_isSome_iff.1 h)
    have hs : s = k := by
      rcases Relation.ReflTransGen.cases_head e5 with h | ⟨c, h, -⟩
      · exact h
      · rcases h with ⟨h, -⟩ | ⟨h, -⟩ <;> cases h
    have hm : m = n := by
      rw [hsrc.name_eq m t e1, ← parse_str hk, ← hs, ← e2]
      rfl
    subst hm
    exact ⟨List.mem_map_of_mem (f := Prod.fst) e1, n', e3, e4⟩
  · rw [hl] at g1; cases g1

/-- C67. A run of a plan with a table whose name matches no planned name fails, whatever the output is. -/
theorem c67_not_found (hok : RunOK C D p) {n : Str} (hn : n ∈ dkeys p.queries)
    (h : ∀ n' ∈ dkeys p.queries, D.fnmatch n n' = false) :
    (sample C D p S s).err ≠ none ∧ (sampleDirectory C D p F s).2 ≠ none := by
  have hok' : ReadOK C D p := ⟨hok.src, hok.srcColumns, hok.plan, hok.compactNames⟩
  have key : ∀ {l : Loaded} {T : Tables}, fromEngine D.fnmatch D.srcDb (dkeys p.queries) false false = some (some l) →
      T.map Prod.fst = l.tables.map Prod.fst → ¬ PlanOK T p := by
    intro l T hl hT hp
    obtain ⟨⟨n, q⟩, g1, rfl⟩ := List.mem_map.1 hn
    obtain ⟨k, g2, g3⟩ := hp.known n q g1
    obtain ⟨-, n', g4, g5⟩ := loaded_matches hok.src hl g2
      (dget_isSome_iff.2 (by rw [← hT]; exact dget_isSome_iff.1 g3))
    rw [h n' g4] at g5
    cases g5
  constructor
  · intro he
    rcases sample_cases (C := C) (D := D) (p := p) (S := S) (s := s) with
      ⟨-, -, ⟨e, h1⟩, -⟩ | ⟨-, -, -, -, -, -, -, -, -, -, -, -, e, h1, -⟩ | ⟨r, db, x, order, states, offs, compact, mat, temps, hst, -⟩
    · rw [he] at h1; cases h1
    · rw [he] at h1; cases h1
    · obtain ⟨l, g1, g2, g3, -⟩ := startRun_ok hst.start
      exact key g1 (by rw [g3]; exact (inferStep_sameBut _ _).keys) (hst.plan hok).1
  · intro he
    rcases sampleDirectory_cases (C := C) (D := D) (p := p) (F := F) (s := s) with
      ⟨e, h1⟩ | ⟨l, T, mult, compact, mat, temps, hst, -⟩
    · rw [h1] at he; cases he
    · exact key hst.load (by rw [hst.infer]; exact (inferStep_sameBut _ _).keys) (hst.plan hok').1

/-- C67. With the patterns of `fnmatch` every plan of the planner can be sampled, if no name of a table has a
bracket that is closed. -/
theorem c67_planned (hf : D.fnmatch = fnmatch) (hok : ReadOK C D p) (hpl : Plain C) {cfg : PlannerConfig}
    (hex : ∀ x ∈ cfg.extraFks, x.Valid) (htg : [] ∉ dkeys cfg.targets) (hplan : plan fnmatch D.srcDb cfg = .ok p)
    (hnames : ∀ n ∈ dkeys D.srcDb, NoSet n) : (sampleDirectory C D p F s).2 = none := by
  rw [← hf] at hplan
  obtain ⟨T, hI, hpi, hT⟩ := planned_from hok.src hex htg hplan
  obtain ⟨ign, pass, T₁, T₂, found, ord, hp⟩ := planning hI hpi
  obtain ⟨F', -, h1, -⟩ := c66_planned (F := F) (s := s) hok hpl hex htg hplan fun n hn => by
    rw [hf]
    apply c67_self
    apply hnames
    rw [show dkeys p.queries = _ from hp.shape.keys, List.mem_map] at hn
    obtain ⟨k, h1, rfl⟩ := hn
    obtain ⟨t, ht⟩ := Option.isSome_iff_exists.1 (hp.isSome_iff.1 (hp.shape.inT hp.ok h1))
    exact List.mem_map_of_mem (f := Prod.fst) (hT k t (dget_some_mem ht))
  rw [h1]

/-! ### An example -/

def nxA : TableMeta := { schema := str! "s", name := str! "a[b]", columns := [str! "id"], primaryKey := [str! "id"], intColumns := [str! "id"] }

/-- Source and destination with tables `u` and `a[b]`. -/
def nxSetting : Setting Int where
  fnmatch := fnmatch
  srcDb := [(str! "s.u", rxU (str! "s")), (str! "s.a[b]", nxA)]
  src := exSrc
  engine := exEngine
  reopen := true
  le := fun _ _ => true
  world := exWorldV
  dstDb := [(str! "s.u", rxU (str! "s")), (str! "s.a[b]", nxA)]
  dialect := .sqlite
  computed := fun _ => []
  default := fun _ _ => .null
  setOrder := id
  setOrder_perm := fun l => .refl l

def nxCfg : PlannerConfig := { exCfg with select := [str! "s.*"], targets := [(str! "s.u", { all := true }), (str! "s.a[b]", { all := true })] }

/-- Names planned, the error of a run with `truncate`, and users left in the destination. -/
def nxShow : List Str × Option RunErr × List Row :=
  match plan fnmatch nxSetting.srcDb nxCfg with
  | .error _ => ([], none, [])
  | .ok p =>
    let R := sample { remap := id, truncate := true } nxSetting p exSrc 0
    (dkeys p.queries, R.err, R.final (str! "s", str! "u"))

/-- C67 fails for a table with brackets in its name: it is planned, but sampling raises `KeyError`, after the tables of
the destination were emptied. -/
theorem c67_brackets_lost : nxShow = ([str! "s.u", str! "s.a[b]"], some (.exec .keyError), []) := by decide +kernel

theorem nxNames : planNames (plan fnmatch (rxSetting []).srcDb axCfg) = [str! "s.u", str! "s.o"] := by decide +kernel

/-- C67 on an example: without such a table the plan can be sampled. -/
example {p : Plan} (h : plan fnmatch (rxSetting []).srcDb axCfg = .ok p) (F : Files) :
    (sampleDirectory { remap := dxRemap, truncate := true } { rxSetting [] with fnmatch := fnmatch } p F 7).2 = none := by
  have hn := nxNames
  rw [h] at hn
  have hk : dkeys p.queries = [str! "s.u", str! "s.o"] := hn
  have hok := lx_ok (C := { remap := dxRemap, truncate := true }) rfl
  exact c67_planned (cfg := axCfg) rfl ⟨hok.src, hok.srcColumns, by rw [hk]; decide, .nil⟩ rx_plain
    (fun x hx => (nomatch hx)) (by decide) h fun n hn a b e hb => by
      have : ∀ n ∈ dkeys (rxSetting []).srcDb, ']' ∉ n := by decide
      exact this n hn (by rw [e]; simp [hb])

end Subsetter.Props
