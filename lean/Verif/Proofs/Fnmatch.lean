import Verif.Model.Fnmatch
import Verif.Spec.Fnmatch
import Mathlib.Data.List.Infix
import Mathlib.Tactic.Tauto

/- Lemmas about `fnmatch`. -/
namespace Subsetter
open Spec

/-! ### Brackets -/

theorem splitClose_some : ∀ {s a b : Str}, splitClose s = some (a, b) → s = a ++ ']' :: b
  | [], a, b, h => by cases h
  | c :: s, a, b, h => by
    unfold splitClose at h
    split at h
    · rename_i hc
      cases h; rw [hc]; rfl
    · rw [Option.map_eq_some_iff] at h
      obtain ⟨⟨a', b'⟩, h1, h2⟩ := h
      cases h2
      rw [splitClose_some h1]; rfl

theorem splitClose_first : ∀ {a b : Str}, ']' ∉ a → splitClose (a ++ ']' :: b) = some (a, b)
  | [], b, _ => by simp [splitClose]
  | c :: a, b, h => by
    rw [List.mem_cons, not_or] at h
    rw [List.cons_append]
    unfold splitClose
    rw [if_neg (fun e => h.1 e.symm), splitClose_first h.2]
    rfl

theorem splitClose_exists : ∀ {s : Str}, ']' ∈ s → ∃ x, splitClose s = some x
  | [], h => by cases h
  | c :: s, h => by
    unfold splitClose
    split
    · exact ⟨_, rfl⟩
    · rename_i hc
      rcases List.mem_cons.1 h with e | h
      · exact absurd e.symm hc
      · obtain ⟨x, hx⟩ := splitClose_exists h
        rw [hx]; exact ⟨_, rfl⟩

theorem takeIf_append (c : Char) (s : Str) : s = (takeIf c s).1 ++ (takeIf c s).2 := by
  cases s with
  | nil => rfl
  | cons d s =>
    rw [show takeIf c (d :: s) = if d = c then ([c], s) else ([], d :: s) from rfl]
    split
    · rename_i h
      rw [h]; rfl
    · rfl

theorem takeIf_other {c d : Char} (h : d ≠ c) (s : Str) : takeIf c (d :: s) = ([], d :: s) := by
  rw [show takeIf c (d :: s) = if d = c then ([c], s) else ([], d :: s) from rfl, if_neg h]

theorem takeIf_same (c : Char) (s : Str) : takeIf c (c :: s) = ([c], s) := by
  rw [show takeIf c (c :: s) = if c = c then ([c], s) else ([], c :: s) from rfl, if_pos rfl]

theorem bracket_some {s a b : Str} (h : bracket s = some (a, b)) : s = a ++ ']' :: b ∧ a ≠ [] := by
  unfold bracket at h
  dsimp only at h
  rw [Option.map_eq_some_iff] at h
  obtain ⟨⟨a', b'⟩, h3, h4⟩ := h
  cases h4
  have h5 := splitClose_some h3
  have e1 := takeIf_append '!' s
  have e2 := takeIf_append ']' (takeIf '!' s).2
  refine ⟨?_, fun e => ?_⟩
  · rw [h5] at e2
    rw [e2] at e1
    simpa using e1
  · rw [List.append_eq_nil_iff, List.append_eq_nil_iff] at e
    obtain ⟨⟨-, e3⟩, e4⟩ := e
    dsimp only at e4
    rw [e4, List.nil_append] at h5
    rw [e3, h5, List.nil_append] at e2
    rw [e2, takeIf_same] at e3
    cases e3

theorem bracket_plain {a b : Str} (h1 : a ≠ []) (h2 : ∀ c ∈ a, c ≠ ']' ∧ c ≠ '!') :
    bracket (a ++ ']' :: b) = some (a, b) := by
  obtain ⟨c, a, rfl⟩ := List.exists_cons_of_ne_nil h1
  have hc := h2 c (by simp)
  have hs := splitClose_first (a := c :: a) (b := b) fun h => (h2 _ h).1 rfl
  unfold bracket
  rw [List.cons_append] at hs ⊢
  rw [takeIf_other hc.2]
  dsimp only
  rw [takeIf_other hc.1]
  dsimp only
  rw [hs]
  rfl

theorem bracket_negated {a b : Str} (h1 : a ≠ []) (h2 : ∀ c ∈ a, c ≠ ']' ∧ c ≠ '!') :
    bracket ('!' :: a ++ ']' :: b) = some ('!' :: a, b) := by
  obtain ⟨c, a, rfl⟩ := List.exists_cons_of_ne_nil h1
  have hc := h2 c (by simp)
  have hs := splitClose_first (a := c :: a) (b := b) fun h => (h2 _ h).1 rfl
  unfold bracket
  rw [List.cons_append, List.cons_append]
  rw [List.cons_append] at hs
  rw [takeIf_same]
  dsimp only
  rw [takeIf_other hc.1]
  dsimp only
  rw [hs]
  rfl

theorem bracket_exists {a b : Str} (h1 : a ≠ []) (h2 : a ≠ ['!']) : ∃ x, bracket (a ++ ']' :: b) = some x := by
  obtain ⟨c, a, rfl⟩ := List.exists_cons_of_ne_nil h1
  unfold bracket
  dsimp only
  have hs1 : ∃ d t, (takeIf '!' (c :: a ++ ']' :: b)).2 = d :: t ++ ']' :: b := by
    by_cases hc : c = '!'
    · subst hc
      rw [List.cons_append, takeIf_same]
      obtain ⟨d, t, rfl⟩ := List.exists_cons_of_ne_nil (l := a) fun h => h2 (by rw [h])
      exact ⟨d, t, rfl⟩
    · rw [List.cons_append, takeIf_other hc]
      exact ⟨c, a, rfl⟩
  obtain ⟨d, t, ht⟩ := hs1
  rw [ht]
  have hs2 : ']' ∈ (takeIf ']' (d :: t ++ ']' :: b)).2 := by
    by_cases hd : d = ']'
    · subst hd
      rw [List.cons_append, takeIf_same]
      simp
    · rw [List.cons_append, takeIf_other hd]
      simp
  obtain ⟨x, hx⟩ := splitClose_exists hs2
  rw [hx]
  exact ⟨_, rfl⟩

/-! ### Sets -/

theorem findHyphen_none : ∀ {k : Nat} {s : Str}, '-' ∉ s → findHyphen k s = none
  | _, [], _ => by unfold findHyphen; rfl
  | 0, c :: s, h => by
    rw [List.mem_cons, not_or] at h
    unfold findHyphen
    rw [if_neg (fun e => h.1 e.symm), findHyphen_none h.2]
    rfl
  | k + 1, c :: s, h => by
    rw [List.mem_cons, not_or] at h
    unfold findHyphen
    rw [findHyphen_none h.2]
    rfl

theorem findHyphen_first : ∀ {k : Nat} {a b : Str}, '-' ∉ a → k ≤ a.length → findHyphen k (a ++ '-' :: b) = some (a, b)
  | 0, [], b, _, _ => by simp [findHyphen]
  | 0, c :: a, b, h, _ => by
    rw [List.mem_cons, not_or] at h
    rw [List.cons_append]
    unfold findHyphen
    rw [if_neg (fun e => h.1 e.symm), findHyphen_first h.2 (Nat.zero_le _)]
    rfl
  | k + 1, [], b, _, hk => by simp at hk
  | k + 1, c :: a, b, h, hk => by
    rw [List.mem_cons, not_or] at h
    rw [List.cons_append]
    unfold findHyphen
    rw [findHyphen_first h.2 (by simpa using hk)]
    rfl

/-- The chunks of a set; `acc` is the beginning of the first one. -/
def chunksOf : List Member → Str → List Str
  | [], acc => [acc]
  | .one c :: ms, acc => chunksOf ms (acc ++ [c])
  | .range lo hi :: ms, acc => (acc ++ [lo]) :: chunksOf ms [hi]

theorem chunksFrom_eq : ∀ {ms : List Member} {acc : Str} {k fuel : Nat}, (∀ m ∈ ms, m.OK) → '-' ∉ acc → k ≤ acc.length + 1 →
    ms.length ≤ fuel → chunksFrom fuel k (acc ++ ms.flatMap Member.text) = chunksOf ms acc
  | [], acc, k, fuel, _, h2, _, _ => by
    rw [List.flatMap_nil, List.append_nil]
    cases fuel with
    | zero => rfl
    | succ f => unfold chunksFrom; rw [findHyphen_none h2]; rfl
  | .one c :: ms, acc, k, fuel, h1, h2, h3, h4 => by
    have hc : Plainly c := h1 (.one c) (by simp)
    rw [List.flatMap_cons, show Member.text (.one c) = [c] from rfl, ← List.append_assoc]
    exact chunksFrom_eq (fun m hm => h1 m (by simp [hm])) (by simp [h2, Ne.symm hc.2.1]) (by simp; omega)
      (by simp at h4; omega)
  | .range lo hi :: ms, acc, k, fuel, h1, h2, h3, h4 => by
    obtain ⟨hl, hh⟩ : Plainly lo ∧ Plainly hi := h1 (.range lo hi) (by simp)
    cases fuel with
    | zero => simp at h4
    | succ f =>
      rw [List.flatMap_cons, show Member.text (.range lo hi) = [lo, '-', hi] from rfl]
      have e : acc ++ ([lo, '-', hi] ++ ms.flatMap Member.text) = (acc ++ [lo]) ++ '-' :: ([hi] ++ ms.flatMap Member.text) := by simp
      rw [e]
      unfold chunksFrom
      rw [findHyphen_first (by simp [h2, Ne.symm hl.2.1]) (by simpa using h3)]
      dsimp only
      rw [chunksFrom_eq (fun m hm => h1 m (by simp [hm])) (by simp [Ne.symm hh.2.1]) (by simp) (by simpa using h4)]
      rfl

theorem chunksOf_last : ∀ {ms : List Member} {acc : Str}, acc ≠ [] ∨ ms ≠ [] → ∃ l c, chunksOf ms acc = l ++ [c] ∧ c ≠ []
  | [], acc, h => ⟨[], acc, rfl, by simpa using h⟩
  | .one c :: ms, acc, _ => chunksOf_last (ms := ms) (acc := acc ++ [c]) (.inl (by simp))
  | .range lo hi :: ms, acc, _ => by
    obtain ⟨l, c, h1, h2⟩ := chunksOf_last (ms := ms) (acc := [hi]) (.inl (by simp))
    exact ⟨(acc ++ [lo]) :: l, c, by unfold chunksOf; rw [h1]; rfl, h2⟩

theorem closeChunks_eq {l : List Str} {c : Str} (h : c ≠ []) : closeChunks (l ++ [c]) = l ++ [c] := by
  unfold closeChunks
  rw [List.reverse_append]
  obtain ⟨d, c, rfl⟩ := List.exists_cons_of_ne_nil h
  rfl

/-- A character is in one of the ranges. -/
def InRanges (rs : List (Char × Char)) (c : Char) : Prop := ∃ r ∈ rs, r.1 ≤ c ∧ c ≤ r.2

theorem inRanges_singles {a : Str} {c : Char} : InRanges (a.map fun x => (x, x)) c ↔ c ∈ a := by
  constructor
  · rintro ⟨r, h1, h2, h3⟩
    obtain ⟨x, h4, rfl⟩ := List.mem_map.1 h1
    rw [le_antisymm h3 h2]
    exact h4
  · exact fun h => ⟨(c, c), List.mem_map.2 ⟨c, h, rfl⟩, le_refl c, le_refl c⟩

theorem chunksOf_ranges : ∀ (ms : List Member), (∀ m ∈ ms, m.OK) → ∃ y ys, '!' ∉ y ∧
    ∀ acc, dropEmptyRanges (chunksOf ms acc) = (acc ++ y) :: ys ∧
      ∀ c, InRanges (chunkRanges ((acc ++ y) :: ys)) c ↔ c ∈ acc ∨ ∃ m ∈ ms, m.Has c
  | [], _ => by
    refine ⟨[], [], by simp, fun acc => ⟨by simp [chunksOf, dropEmptyRanges], fun c => ?_⟩⟩
    rw [List.append_nil]
    unfold chunkRanges
    rw [inRanges_singles]
    simp
  | .one d :: ms, h => by
    have hd : Plainly d := h (.one d) (by simp)
    obtain ⟨y, ys, h0, h1⟩ := chunksOf_ranges ms fun m hm => h m (by simp [hm])
    refine ⟨d :: y, ys, by simp [h0, Ne.symm hd.2.2], fun acc => ?_⟩
    obtain ⟨h2, h3⟩ := h1 (acc ++ [d])
    have e : acc ++ d :: y = acc ++ [d] ++ y := by simp
    rw [e]
    refine ⟨h2, fun c => (h3 c).trans ?_⟩
    simp only [List.mem_append, List.mem_singleton, List.mem_cons, exists_eq_or_imp]
    show _ ↔ c ∈ acc ∨ c = d ∨ _
    tauto
  | .range lo hi :: ms, h => by
    obtain ⟨hl, hh⟩ : Plainly lo ∧ Plainly hi := h (.range lo hi) (by simp)
    obtain ⟨y, ys, h0, h1⟩ := chunksOf_ranges ms fun m hm => h m (by simp [hm])
    have hdrop : ∀ acc, dropEmptyRanges (chunksOf (.range lo hi :: ms) acc) =
        if hi < lo then (acc ++ y) :: ys else (acc ++ [lo]) :: (hi :: y) :: ys := by
      intro acc
      unfold chunksOf dropEmptyRanges
      rw [(h1 [hi]).1]
      simp
    by_cases hlt : hi < lo
    · refine ⟨y, ys, h0, fun acc => ⟨by rw [hdrop, if_pos hlt], fun c => ((h1 acc).2 c).trans ?_⟩⟩
      simp only [List.mem_cons, exists_eq_or_imp]
      show _ ↔ c ∈ acc ∨ (lo ≤ c ∧ c ≤ hi) ∨ _
      have : ¬ (lo ≤ c ∧ c ≤ hi) := fun h => absurd (lt_of_le_of_lt (le_trans h.1 h.2) hlt) (lt_irrefl _)
      tauto
    · refine ⟨[lo], (hi :: y) :: ys, by simp [Ne.symm hl.2.2], fun acc => ⟨by rw [hdrop, if_neg hlt], fun c => ?_⟩⟩
      have e : chunkRanges ((acc ++ [lo]) :: (hi :: y) :: ys) =
          (acc.map fun x => (x, x)) ++ (lo, hi) :: chunkRanges (y :: ys) := by
        rw [chunkRanges]
        simp
      rw [e]
      have h2 := (h1 []).2 c
      rw [List.nil_append] at h2
      simp only [List.mem_cons, exists_eq_or_imp]
      show _ ↔ c ∈ acc ∨ (lo ≤ c ∧ c ≤ hi) ∨ _
      have h3 : (∃ m ∈ ms, m.Has c) ↔ InRanges (chunkRanges (y :: ys)) c := by rw [h2]; simp
      rw [h3, ← inRanges_singles (a := acc)]
      unfold InRanges
      constructor
      · rintro ⟨r, g1, g2⟩
        rcases List.mem_append.1 g1 with g1 | g1
        · exact .inl ⟨r, g1, g2⟩
        · rcases List.mem_cons.1 g1 with rfl | g1
          · exact .inr (.inl g2)
          · exact .inr (.inr ⟨r, g1, g2⟩)
      · rintro (⟨r, g1, g2⟩ | g | ⟨r, g1, g2⟩)
        · exact ⟨r, by simp only [List.mem_append]; exact .inl g1, g2⟩
        · exact ⟨(lo, hi), by simp, g⟩
        · exact ⟨r, by simp only [List.mem_append, List.mem_cons]; exact .inr (.inr g1), g2⟩

theorem chunkRanges_empty : ∀ {l : List Str}, l.all List.isEmpty = true → chunkRanges l = []
  | [], _ => by rw [chunkRanges]
  | [c], h => by
    rw [chunkRanges]
    simpa using h
  | c :: d :: l, h => by
    simp only [List.all_cons, Bool.and_eq_true, List.isEmpty_iff] at h
    rw [chunkRanges, h.1]
    simp only [List.getLast?_nil, List.map_nil, List.nil_append]
    exact chunkRanges_empty (by simp [h.2.1, h.2.2])

theorem text_plain {ms : List Member} (h : ∀ m ∈ ms, m.OK) : ∀ c ∈ ms.flatMap Member.text, c ≠ ']' ∧ c ≠ '!' := by
  intro c hc
  obtain ⟨m, h1, h2⟩ := List.mem_flatMap.1 hc
  have := h m h1
  cases m with
  | one d =>
    rw [show Member.text (.one d) = [d] from rfl, List.mem_singleton] at h2
    subst h2
    exact ⟨this.1, this.2.2⟩
  | range lo hi =>
    obtain ⟨hl, hh⟩ : Plainly lo ∧ Plainly hi := this
    simp only [Member.text, List.mem_cons, List.not_mem_nil, or_false] at h2
    rcases h2 with rfl | rfl | rfl
    · exact ⟨hl.1, hl.2.2⟩
    · decide
    · exact ⟨hh.1, hh.2.2⟩

theorem text_length {ms : List Member} : ms.length ≤ (ms.flatMap Member.text).length := by
  induction ms with
  | nil => simp
  | cons m ms ih =>
    rw [List.flatMap_cons, List.length_append, List.length_cons]
    cases m <;> simp only [Member.text, List.length_cons, List.length_nil] <;> omega

theorem matchChar_set {neg : Bool} {rs : List (Char × Char)} {c : Char} :
    (Tok.set neg rs).matchChar c = true ↔ (neg = false ∧ InRanges rs c) ∨ (neg = true ∧ ¬ InRanges rs c) := by
  have : (rs.any fun r => decide (r.1 ≤ c) && decide (c ≤ r.2)) = true ↔ InRanges rs c := by
    simp [InRanges, List.any_eq_true]
  unfold Tok.matchChar
  rw [← this]
  cases neg <;> simp

theorem stuffTok_one {ms : List Member} (h0 : ms ≠ []) (h : ∀ m ∈ ms, m.OK) :
    stuffTok (ms.flatMap Member.text) ≠ .star ∧
      ∀ c, (stuffTok (ms.flatMap Member.text)).matchChar c = true ↔ ∃ m ∈ ms, m.Has c := by
  obtain ⟨y, ys, hy, h1⟩ := chunksOf_ranges ms h
  obtain ⟨h2, h3⟩ := h1 []
  rw [List.nil_append] at h2 h3
  obtain ⟨l, d, h4, h5⟩ := chunksOf_last (acc := []) (.inr h0)
  have hhead : (ms.flatMap Member.text).head? ≠ some '!' := fun e => (text_plain h _ (List.mem_of_mem_head? e)).2 rfl
  have hch := chunksFrom_eq (acc := []) (k := 1) (fuel := (ms.flatMap Member.text).length) h (by simp) (by simp) text_length
  rw [List.nil_append] at hch
  have h3' : ∀ c, InRanges (chunkRanges (y :: ys)) c ↔ ∃ m ∈ ms, m.Has c := fun c => by simpa using h3 c
  unfold stuffTok
  rw [if_neg hhead, hch, h4, closeChunks_eq h5, ← h4, h2]
  unfold chunksTok
  split
  · rename_i e
    exact absurd (by rw [(List.cons.inj e).1]; simp) hy
  · split
    · rename_i hall
      refine ⟨by simp, fun c => ?_⟩
      rw [← h3', chunkRanges_empty hall]
      simp [Tok.matchChar, InRanges]
    · refine ⟨by simp, fun c => ?_⟩
      rw [matchChar_set, h3']
      simp

theorem stuffTok_none {ms : List Member} (h : ∀ m ∈ ms, m.OK) :
    stuffTok ('!' :: ms.flatMap Member.text) ≠ .star ∧
      ∀ c, (stuffTok ('!' :: ms.flatMap Member.text)).matchChar c = true ↔ ∀ m ∈ ms, ¬ m.Has c := by
  obtain ⟨y, ys, hy, h1⟩ := chunksOf_ranges ms h
  have h2 := (h1 ['!']).1
  have h3 := (h1 []).2
  rw [List.nil_append] at h3
  obtain ⟨l, d, h4, h5⟩ := chunksOf_last (ms := ms) (acc := ['!']) (.inl (by simp))
  have hch := chunksFrom_eq (acc := ['!']) (k := 2) (fuel := ('!' :: ms.flatMap Member.text).length) h (by simp) (by simp)
    (Nat.le_succ_of_le text_length)
  rw [List.cons_append, List.nil_append] at hch h2
  have h3' : ∀ c, InRanges (chunkRanges (y :: ys)) c ↔ ∃ m ∈ ms, m.Has c := fun c => by simpa using h3 c
  have hhead : ('!' :: ms.flatMap Member.text).head? = some '!' := rfl
  unfold stuffTok
  rw [if_pos hhead, hch, h4, closeChunks_eq h5, ← h4, h2, show chunksTok (('!' :: y) :: ys) =
    if y.isEmpty && ys.isEmpty then .any else .set true (chunkRanges (y :: ys)) from rfl]
  split
  · rename_i hall
    simp only [Bool.and_eq_true, List.isEmpty_iff] at hall
    refine ⟨by simp, fun c => ?_⟩
    have := h3' c
    rw [hall.1, hall.2, chunkRanges_empty (by simp)] at this
    simp only [Tok.matchChar, true_iff]
    intro m hm hh
    obtain ⟨r, hr, -⟩ := this.2 ⟨m, hm, hh⟩
    cases hr
  · refine ⟨by simp, fun c => ?_⟩
    rw [matchChar_set, h3']
    simp

/-! ### Patterns -/

/-- The piece of the regular expression for a piece of a pattern. -/
def tokOf : Piece → Tok
  | .char c => .lit c
  | .any => .any
  | .star => .star
  | .oneOf ms => stuffTok (ms.flatMap Member.text)
  | .noneOf ms => stuffTok ('!' :: ms.flatMap Member.text)

theorem bracket_text {ms : List Member} (h0 : ms ≠ []) (h : ∀ m ∈ ms, m.OK) (b : Str) :
    bracket (ms.flatMap Member.text ++ ']' :: b) = some (ms.flatMap Member.text, b) ∧
    bracket ('!' :: ms.flatMap Member.text ++ ']' :: b) = some ('!' :: ms.flatMap Member.text, b) := by
  have hne : ms.flatMap Member.text ≠ [] := by
    intro e
    have := text_length (ms := ms)
    rw [e] at this
    exact h0 (List.length_eq_zero_iff.1 (Nat.le_zero.1 this))
  exact ⟨bracket_plain hne (text_plain h), bracket_negated hne (text_plain h)⟩

theorem splitClose_none : ∀ {s : Str}, ']' ∉ s → splitClose s = none
  | [], _ => rfl
  | c :: s, h => by
    rw [List.mem_cons, not_or] at h
    rw [splitClose, if_neg (fun e => h.1 e.symm), splitClose_none h.2]
    rfl

theorem takeIf_mem {c d : Char} {s : Str} (h : d ∈ (takeIf c s).2) : d ∈ s := by
  unfold takeIf at h
  split at h
  · cases h
  · split at h
    · exact List.mem_cons_of_mem _ h
    · exact h

theorem bracket_none {s : Str} (h : ']' ∉ s) : bracket s = none := by
  unfold bracket
  dsimp only
  rw [splitClose_none fun e => h (takeIf_mem (takeIf_mem e))]
  rfl

theorem noSet_tail {c : Char} {s : Str} (h : NoSet (c :: s)) : NoSet s :=
  fun a b e => h (c :: a) b (by rw [e]; rfl)

theorem toks_open {qs : List Piece} (h : ∀ q ∈ qs, q.Open) (hn : NoSet (qs.flatMap Piece.text)) {fuel : Nat}
    (hf : (qs.flatMap Piece.text).length ≤ fuel) : toks fuel (qs.flatMap Piece.text) = qs.map tokOf := by
  induction qs generalizing fuel with
  | nil => cases fuel <;> simp [toks]
  | cons q qs ih =>
    have hq := h q (by simp)
    have ih := ih fun x hx => h x (by simp [hx])
    cases q with
    | oneOf ms => exact hq.elim
    | noneOf ms => exact hq.elim
    | char c =>
      obtain ⟨g1, g2⟩ : c ≠ '*' ∧ c ≠ '?' := hq
      simp only [List.flatMap_cons, Piece.text, List.cons_append, List.nil_append, List.map_cons, List.length_cons] at hf hn ⊢
      cases fuel with
      | zero => omega
      | succ fuel =>
        unfold toks
        rw [if_neg g1, if_neg g2, ih (noSet_tail hn) (by omega)]
        split
        · rename_i e
          subst e
          rw [bracket_none (hn [] _ rfl)]
          rfl
        · rfl
    | any =>
      simp only [List.flatMap_cons, Piece.text, List.cons_append, List.nil_append, List.map_cons, List.length_cons] at hf hn ⊢
      cases fuel with
      | zero => omega
      | succ fuel =>
        unfold toks
        rw [if_neg (by decide), if_pos rfl, ih (noSet_tail hn) (by omega)]
        rfl
    | star =>
      simp only [List.flatMap_cons, Piece.text, List.cons_append, List.nil_append, List.map_cons, List.length_cons] at hf hn ⊢
      cases fuel with
      | zero => omega
      | succ fuel =>
        unfold toks
        rw [if_pos rfl, ih (noSet_tail hn) (by omega)]
        rfl

theorem toks_text {ps qs : List Piece} (h : ∀ p ∈ ps, p.OK) (hq : ∀ q ∈ qs, q.Open)
    (hn : NoSet (qs.flatMap Piece.text)) {fuel : Nat} (hf : ((ps ++ qs).flatMap Piece.text).length ≤ fuel) :
    toks fuel ((ps ++ qs).flatMap Piece.text) = (ps ++ qs).map tokOf := by
  induction ps generalizing fuel with
  | nil => exact toks_open hq hn hf
  | cons p ps ih =>
    have hp := h p (by simp)
    have ih := @ih fun x hx => h x (by simp [hx])
    rw [List.cons_append] at hf ⊢
    generalize ps ++ qs = rs at *
    cases fuel with
    | zero => cases p <;> simp [Piece.text] at hf
    | succ fuel =>
      cases p with
      | char c =>
        obtain ⟨g1, g2, g3⟩ : c ≠ '*' ∧ c ≠ '?' ∧ c ≠ '[' := hp
        simp only [List.flatMap_cons, Piece.text, List.cons_append, List.nil_append, List.map_cons, List.length_cons] at hf ⊢
        unfold toks
        rw [if_neg g1, if_neg g2, if_neg g3, ih (by omega)]
        rfl
      | any =>
        simp only [List.flatMap_cons, Piece.text, List.cons_append, List.nil_append, List.map_cons, List.length_cons] at hf ⊢
        unfold toks
        rw [if_neg (by decide), if_pos rfl, ih (by omega)]
        rfl
      | star =>
        simp only [List.flatMap_cons, Piece.text, List.cons_append, List.nil_append, List.map_cons, List.length_cons] at hf ⊢
        unfold toks
        rw [if_pos rfl, ih (by omega)]
        rfl
      | oneOf ms =>
        obtain ⟨g1, g2⟩ : ms ≠ [] ∧ ∀ m ∈ ms, m.OK := hp
        have e : (Piece.oneOf ms :: rs).flatMap Piece.text =
            '[' :: (ms.flatMap Member.text ++ ']' :: rs.flatMap Piece.text) := by simp [Piece.text]
        rw [e] at hf ⊢
        simp only [List.length_cons, List.length_append] at hf
        unfold toks
        rw [if_neg (by decide), if_neg (by decide), if_pos rfl, (bracket_text g1 g2 _).1]
        dsimp only
        rw [ih (by omega)]
        rfl
      | noneOf ms =>
        obtain ⟨g1, g2⟩ : ms ≠ [] ∧ ∀ m ∈ ms, m.OK := hp
        have e : (Piece.noneOf ms :: rs).flatMap Piece.text =
            '[' :: ('!' :: ms.flatMap Member.text ++ ']' :: rs.flatMap Piece.text) := by simp [Piece.text]
        rw [e] at hf ⊢
        simp only [List.length_cons, List.length_append] at hf
        unfold toks
        rw [if_neg (by decide), if_neg (by decide), if_pos rfl, (bracket_text g1 g2 _).2]
        dsimp only
        rw [ih (by omega)]
        rfl

theorem matchToks_cons {t : Tok} (h : t ≠ .star) (ts : List Tok) (s : Str) :
    matchToks (t :: ts) s = true ↔ ∃ c s', s = c :: s' ∧ t.matchChar c = true ∧ matchToks ts s' = true := by
  cases s with
  | nil =>
    cases t <;> simp [matchToks] at h ⊢
  | cons c s =>
    have : matchToks (t :: ts) (c :: s) = (t.matchChar c && matchToks ts s) := by
      cases t <;> simp [matchToks] at h ⊢
    rw [this]
    simp

theorem matchToks_star (ts : List Tok) (s : Str) :
    matchToks (.star :: ts) s = true ↔ ∃ a b, s = a ++ b ∧ matchToks ts b = true := by
  rw [show matchToks (.star :: ts) s = s.tails.any (matchToks ts) from rfl, List.any_eq_true]
  simp only [List.mem_tails]
  constructor
  · rintro ⟨b, ⟨a, rfl⟩, h2⟩
    exact ⟨a, b, rfl, h2⟩
  · rintro ⟨a, b, rfl, h2⟩
    exact ⟨b, ⟨a, rfl⟩, h2⟩

theorem single_means {p : Piece} {t : Tok} (ht : t ≠ .star) {P : Char → Prop} (hp : ∀ s, p.Means s ↔ ∃ c, s = [c] ∧ P c)
    (hm : ∀ c, t.matchChar c = true ↔ P c) {ps : List Piece} {ts : List Tok}
    (ih : ∀ s, matchToks ts s = true ↔ Means ps s) (s : Str) : matchToks (t :: ts) s = true ↔ Means (p :: ps) s := by
  rw [matchToks_cons ht]
  constructor
  · rintro ⟨c, s', rfl, h1, h2⟩
    exact .cons (s := [c]) ((hp _).2 ⟨c, rfl, (hm c).1 h1⟩) ((ih s').1 h2)
  · intro h
    generalize hq : p :: ps = q at h
    cases h with
    | nil => cases hq
    | @cons p' ps' a b h1 h2 =>
      cases hq
      obtain ⟨c, rfl, h3⟩ := (hp _).1 h1
      exact ⟨c, b, rfl, (hm c).2 h3, (ih b).2 h2⟩

theorem matchToks_means : ∀ {ps : List Piece}, (∀ p ∈ ps, p.OK ∨ p.Open) → ∀ s, matchToks (ps.map tokOf) s = true ↔ Means ps s
  | [], _, s => by
    constructor
    · intro h
      have : s = [] := by simpa [matchToks] using h
      subst this
      exact .nil
    · rintro ⟨⟩
      rfl
  | p :: ps, h, s => by
    have ih := matchToks_means (ps := ps) fun q hq => h q (by simp [hq])
    have hp := h p (by simp)
    rw [List.map_cons]
    cases p with
    | char c =>
      exact single_means (p := .char c) (P := fun x => x = c) (by simp [tokOf])
        (fun s => ⟨fun h => ⟨c, h, rfl⟩, fun ⟨x, h, e⟩ => by rw [h, e]; rfl⟩) (by simp [tokOf, Tok.matchChar]) ih s
    | any =>
      exact single_means (p := .any) (P := fun _ => True) (by simp [tokOf])
        (fun s => ⟨fun ⟨c, h⟩ => ⟨c, h, trivial⟩, fun ⟨x, h, _⟩ => ⟨x, h⟩⟩) (by simp [tokOf, Tok.matchChar]) ih s
    | star =>
      rw [show tokOf .star = .star from rfl, matchToks_star]
      constructor
      · rintro ⟨a, b, rfl, h1⟩
        exact .cons (p := .star) trivial ((ih b).1 h1)
      · intro h
        generalize hq : Piece.star :: ps = q at h
        cases h with
        | nil => cases hq
        | @cons p' ps' a b h1 h2 =>
          cases hq
          exact ⟨a, b, rfl, (ih b).2 h2⟩
    | oneOf ms =>
      obtain ⟨g1, g2⟩ : ms ≠ [] ∧ ∀ m ∈ ms, m.OK := hp.resolve_right id
      exact single_means (stuffTok_one g1 g2).1 (fun s => Iff.rfl) (stuffTok_one g1 g2).2 ih s
    | noneOf ms =>
      obtain ⟨g1, g2⟩ : ms ≠ [] ∧ ∀ m ∈ ms, m.OK := hp.resolve_right id
      exact single_means (stuffTok_none g2).1 (fun s => Iff.rfl) (stuffTok_none g2).2 ih s

/-! ### Names as patterns -/

theorem toks_self {n : Str} {fuel : Nat} (h1 : NoSet n) (h2 : n.length ≤ fuel) : matchToks (toks fuel n) n = true := by
  induction n generalizing fuel with
  | nil => cases fuel <;> simp [toks, matchToks]
  | cons c n ih =>
    cases fuel with
    | zero => simp at h2
    | succ fuel =>
      have ih := ih (fuel := fuel) (noSet_tail h1) (by simpa using h2)
      unfold toks
      split
      · rw [matchToks_star]
        exact ⟨[c], n, rfl, ih⟩
      · split
        · rw [matchToks_cons (by simp)]
          exact ⟨c, n, rfl, rfl, ih⟩
        · split
          · rename_i e
            subst e
            rw [bracket_none (h1 [] _ rfl)]
            dsimp only
            rw [matchToks_cons (by simp)]
            exact ⟨_, n, rfl, by simp [Tok.matchChar], ih⟩
          · rw [matchToks_cons (by simp)]
            exact ⟨c, n, rfl, by simp [Tok.matchChar], ih⟩

theorem stuffTok_ne_star (s : Str) : stuffTok s ≠ .star := by
  unfold stuffTok
  generalize dropEmptyRanges _ = l
  unfold chunksTok
  split <;> split <;> simp

theorem toks_length : ∀ {fuel : Nat} {s : Str}, '*' ∉ s → (toks fuel s).length ≤ s.length ∧ .star ∉ toks fuel s
  | 0, s, _ => by simp [toks]
  | fuel + 1, [], _ => by simp [toks]
  | fuel + 1, c :: s, h => by
    rw [List.mem_cons, not_or] at h
    have ih := toks_length (fuel := fuel) h.2
    unfold toks
    rw [if_neg (fun e => h.1 e.symm)]
    split
    · simpa using ih
    · split
      · split
        · simpa using ih
        · rename_i stuff s' hb
          obtain ⟨e, -⟩ := bracket_some hb
          have ih' := toks_length (fuel := fuel) (s := s') fun hm => h.2 (by rw [e]; simp [hm])
          refine ⟨?_, by simp [ih'.2, Ne.symm (stuffTok_ne_star stuff)]⟩
          rw [e]
          simp
          omega
      · simpa using ih

theorem toks_short : ∀ {a b c : Str} {fuel : Nat}, '*' ∉ a ++ '[' :: b ++ ']' :: c → '[' ∉ a → b ≠ [] → b ≠ ['!'] →
    (toks fuel (a ++ '[' :: b ++ ']' :: c)).length < (a ++ '[' :: b ++ ']' :: c).length
  | a, b, c, 0, _, _, _, _ => by simp [toks]; omega
  | [], b, c, fuel + 1, h1, _, h3, h4 => by
    obtain ⟨⟨stuff, s'⟩, hx⟩ := bracket_exists (b := c) h3 h4
    obtain ⟨e, hne⟩ := bracket_some hx
    have e2 : ([] : Str) ++ '[' :: b ++ ']' :: c = '[' :: (b ++ ']' :: c) := rfl
    rw [e2] at h1 ⊢
    unfold toks
    rw [if_neg (by decide), if_neg (by decide), if_pos rfl, hx]
    dsimp only
    have := (toks_length (fuel := fuel) (s := s') fun hm => h1 (by rw [e]; simp [hm])).1
    rw [e]
    have := List.length_pos_of_ne_nil hne
    simp
    omega
  | d :: a, b, c, fuel + 1, h1, h2, h3, h4 => by
    rw [List.mem_cons, not_or] at h2
    have e2 : d :: a ++ '[' :: b ++ ']' :: c = d :: (a ++ '[' :: b ++ ']' :: c) := rfl
    rw [e2] at h1 ⊢
    rw [List.mem_cons, not_or] at h1
    have ih := toks_short (fuel := fuel) h1.2 h2.2 h3 h4
    unfold toks
    rw [if_neg (fun e => h1.1 e.symm)]
    split
    · simpa using ih
    · rw [if_neg (fun e => h2.1 e.symm)]
      simpa using ih

theorem matchToks_length : ∀ {ts : List Tok} {s : Str}, .star ∉ ts → matchToks ts s = true → s.length = ts.length
  | [], s, _, h => by simpa [matchToks] using h
  | t :: ts, s, h1, h2 => by
    rw [List.mem_cons, not_or] at h1
    obtain ⟨c, s', rfl, -, h3⟩ := (matchToks_cons (fun e => h1.1 e.symm) ts s).1 h2
    rw [List.length_cons, matchToks_length h1.2 h3, List.length_cons]

end Subsetter
