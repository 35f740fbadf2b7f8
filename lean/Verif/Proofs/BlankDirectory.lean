import Verif.Proofs.BlankPlanned

/- Runs that write files, on a source with some columns blanked. -/
namespace Subsetter
open Spec Props

variable {σ : Type} {C : RunConfig} {D : Setting σ} {p : Plan} {cfg : PlannerConfig} {hid : Key → List Str}

theorem directoryLoop_alike {W : Outside σ Val} {o : OutPlan} {xs xs' : List (List Val × Nat)}
    (h : List.Forall₂ (fun x x' => ∀ s, outRow W o x s = outRow W o x' s) xs xs') :
    ∀ s, directoryLoop W o xs s = directoryLoop W o xs' s := by
  induction h with
  | nil => intro s; rfl
  | cons hx _ ih =>
    intro s
    simp only [directoryLoop]
    rw [hx]
    cases outRow W o _ s with
    | error e => rfl
    | ok y =>
      obtain ⟨row, s'⟩ := y
      simp only
      rw [ih]

/-- Two tables are written to files alike. -/
inductive SameRows (W : Outside σ Val) :
    Except RunErr (Option (Key × Chain Val × List (List Val))) → Except RunErr (Option (Key × Chain Val × List (List Val))) → Prop where
  | error (e) : SameRows W (.error e) (.error e)
  | none : SameRows W (.ok none) (.ok none)
  | rows {k ch rows rows'} (h : List.Forall₂ (Alike W ch.views) rows rows') : SameRows W (.ok (some (k, ch, rows))) (.ok (some (k, ch, rows')))

theorem copyFiles_alike {mult : Dict Str (List Str)} {read read' : Str → Except RunErr (Option (Key × Chain Val × List (List Val)))}
    (h : ∀ n, SameRows D.world (read n) (read' n)) : ∀ (ns : List Str) (F : Files) (s : σ),
    copyFiles C D mult read ns F s = copyFiles C D mult read' ns F s
  | [], _, _ => rfl
  | n :: ns, F, s => by
    simp only [copyFiles]
    have hn := h n
    generalize read n = a at hn
    generalize read' n = b at hn
    cases hn with
    | error e => rfl
    | none => exact copyFiles_alike h ns F s
    | rows hr =>
      rename_i k ch rows rows'
      simp only
      unfold directoryOutput
      rw [directoryLoop_alike (copies_alike (o := ⟨ch.colsOut, ch.views, _, _, [], none, 0⟩) _ hr)]
      generalize directoryLoop D.world _ _ s = y
      obtain ⟨lines, s', err⟩ := y
      cases err with
      | some e => rfl
      | none => exact copyFiles_alike h ns _ _

theorem readRows_alike (hE : Blind D.engine cfg hid) {T : Tables} (hp : BlindPlan D.engine hid T D.src p)
    (hcols : ∀ k t, dget T k = some t → t.columns.Nodup)
    (hsc : ∀ n ∈ dkeys p.queries, ∀ k, parseTableName n = some k → ∀ c ∈ hid k, Scrubbed ((dget C.filters n).getD []) c)
    (compact : Dict Key (List Str)) (temps : Temps) (n : Str) :
    SameRows D.world (readRows C D T compact p temps n) (readRows C (blankSetting hid D) T compact p (blankTemps hid temps) n) := by
  unfold readRows
  cases hk : parseTableName n with
  | none => exact .error _
  | some k =>
    simp only
    cases hq : dget p.queries n with
    | none => exact .none
    | some q =>
      simp only
      have hc := copyRows_blank (le := D.le) (start := C.compact.startKey) (compact := compact) hE hp (dget_some_mem hq) hk D.reopen temps
      have e1 : (blankSetting hid D).src = blankSrc hid D.src := rfl
      have e2 : (blankSetting hid D).engine = D.engine := rfl
      have e3 : (blankSetting hid D).le = D.le := rfl
      have e4 : (blankSetting hid D).reopen = D.reopen := rfl
      have e5 : (blankSetting hid D).world = D.world := rfl
      rw [e1, e2, e3, e4, e5]
      generalize copyRows D.engine T D.le C.compact.startKey compact D.src D.reopen temps k q = a at hc
      generalize copyRows D.engine T D.le C.compact.startKey compact (blankSrc hid D.src) D.reopen (blankTemps hid temps) k q = b at hc
      cases a with
      | error e =>
        cases b with
        | error e' => simp only [blankRes] at hc; cases hc; exact .error _
        | ok rows => simp only [blankRes] at hc; cases hc
      | ok rows =>
        cases b with
        | error e' => simp only [blankRes] at hc; cases hc
        | ok rows' =>
          simp only [blankRes, Except.ok.injEq] at hc
          simp only
          cases ht : dget T k with
          | none => exact .error _
          | some t =>
            simp only
            cases hch : constructFilter D.world t.columns ((dget C.filters n).getD []) with
            | error e => exact .error _
            | ok ch =>
              exact .rows (alike_values hch (hcols k t ht) (hsc n (dget_isSome_iff.1 (by rw [hq]; rfl)) k hk) hc)

/-- A run to files does not depend on hidden columns. -/
theorem sampleDirectory_blank (hE : Blind D.engine cfg hid)
    (hp : ∀ l, fromEngine D.fnmatch D.srcDb (dkeys p.queries) false false = some (some l) →
      BlindPlan D.engine hid (inferStep C.infer l.tables) D.src p ∧
      ∀ k t, dget (inferStep C.infer l.tables) k = some t → t.columns.Nodup)
    (hsc : ∀ n ∈ dkeys p.queries, ∀ k, parseTableName n = some k → ∀ c ∈ hid k, Scrubbed ((dget C.filters n).getD []) c)
    (F : Files) (s : σ) : sampleDirectory C (blankSetting hid D) p F s = sampleDirectory C D p F s := by
  unfold sampleDirectory
  have e1 : (blankSetting hid D).fnmatch = D.fnmatch := rfl
  have e2 : (blankSetting hid D).srcDb = D.srcDb := rfl
  have e4 : (blankSetting hid D).src = blankSrc hid D.src := rfl
  have e5 : (blankSetting hid D).engine = D.engine := rfl
  have e6 : (blankSetting hid D).reopen = D.reopen := rfl
  have e7 : (blankSetting hid D).world = D.world := rfl
  simp only [e1, e2, e4, e5, e6, e7]
  cases hl : fromEngine D.fnmatch D.srcDb (dkeys p.queries) false false with
  | none => rfl
  | some l =>
    cases l with
    | none => rfl
    | some l =>
      obtain ⟨hb, hcols⟩ := hp l hl
      simp only
      cases validateFilters D.world (inferStep C.infer l.tables) C.filters with
      | error e => rfl
      | ok _ =>
        simp only
        cases multipliedColumns (inferStep C.infer l.tables) C.mult p.passthrough (dkeys p.queries) with
        | error e => rfl
        | ok mult =>
          simp only
          cases getCompactColumns (inferStep C.infer l.tables) p.passthrough C.compact with
          | error e => rfl
          | ok compact =>
            simp only
            cases materializationOrder (inferStep C.infer l.tables) compact p with
            | error e => rfl
            | ok mat =>
              simp only
              have hm := materialize_blank hE hb D.reopen mat []
              rw [show blankTemps hid [] = [] from rfl] at hm
              rw [hm]
              cases materialize D.engine (inferStep C.infer l.tables) D.src D.reopen p mat [] with
              | error e => rfl
              | ok temps =>
                simp only
                have e8 : ∀ read ns F s, copyFiles C (blankSetting hid D) mult read ns F s = copyFiles C D mult read ns F s := by
                  intro read ns
                  induction ns with
                  | nil => intro F s; rfl
                  | cons n ns ih =>
                    intro F s
                    simp only [copyFiles, e7, ih]
                rw [e8, ← copyFiles_alike (readRows_alike hE hb hcols hsc compact temps)]

end Subsetter
