import Verif.Proofs.BlankExec
import Verif.Proofs.BlankPlan
import Verif.Proofs.Output
import Verif.Props.Filters
import Verif.Proofs.SqlPlanned
import Verif.Model.RunDirectory

/- Runs on a source with some columns blanked. -/
namespace Subsetter
open Spec

variable {σ : Type}

/-- Filters that scrub all columns in which two rows differ give the same for both. -/
theorem chain_hidden {W : Outside σ Val} {cols : List Str} {fs : List (FilterCfg Val)} {ch : Chain Val}
    (hch : constructFilter W cols fs = .ok ch) (hnd : cols.Nodup) : ∀ (h : List Str), (∀ c ∈ h, Scrubbed fs c) → ∀ {a b : List Val},
    a.length = cols.length → b.length = cols.length → (∀ i : Nat, (∀ c ∈ h, cols[i]? ≠ some c) → a[i]? = b[i]?) →
    ∀ s, runViews W ch.views a s = runViews W ch.views b s
  | [], _, a, b, _, _, hab, s => by
    rw [List.ext_getElem? fun i => hab i (by simp)]
  | c :: h, hsc, a, b, ha, hb, hab, s => by
    obtain ⟨pre, f, post, h1, h2, h3⟩ := hsc c (.head _)
    subst h1
    have hu : ∀ i : Nat, ((cols.zip (a.zip b)).map fun x => if x.1 = c then x.2.2 else x.2.1)[i]? =
        if cols[i]? = some c then b[i]? else a[i]? := by
      intro i
      by_cases hi : i < cols.length
      · rw [List.getElem?_map, List.getElem?_eq_getElem (by simp [ha, hb, hi]), List.getElem?_eq_getElem hi,
          List.getElem?_eq_getElem (by omega : i < a.length), List.getElem?_eq_getElem (by omega : i < b.length)]
        simp only [Option.map_some, List.getElem_zip, Option.some.injEq]
        split <;> rfl
      · rw [List.getElem?_eq_none (by simp [ha, hb]; omega), List.getElem?_eq_none (by omega : cols.length ≤ i),
          List.getElem?_eq_none (by omega : a.length ≤ i)]
        simp
    generalize hue : ((cols.zip (a.zip b)).map fun x => if x.1 = c then x.2.2 else x.2.1) = u at hu
    have hul : u.length = cols.length := by rw [← hue]; simp [ha, hb]
    have s1 : runViews W ch.views a s = runViews W ch.views u s := by
      refine chain_same (Props.constructFilter_ok hch).2 hnd h2 h3 ha ⟨ha.trans hul.symm, fun i hi => ?_⟩ s
      rw [hu i, if_neg hi]
    rw [s1]
    refine chain_hidden hch hnd h (fun d hd => hsc d (.tail _ hd)) hul hb (fun i hi => ?_) s
    rw [hu i]
    split
    · rfl
    · rename_i hne
      refine hab i fun d hd => ?_
      rcases List.mem_cons.1 hd with rfl | hd
      · exact hne
      · exact hi d hd

/-- Rows that filters cannot tell apart. -/
def Alike (W : Outside σ Val) (vs : List (View Val)) (a b : List Val) : Prop := ∀ s, runViews W vs a s = runViews W vs b s

theorem alike_values {W : Outside σ Val} {cols : List Str} {fs : List (FilterCfg Val)} {ch : Chain Val}
    (hch : constructFilter W cols fs = .ok ch) (hnd : cols.Nodup) {h : List Str} (hsc : ∀ c ∈ h, Scrubbed fs c) :
    ∀ {rows rows' : List Row}, rows'.map (blank h) = rows.map (blank h) →
    List.Forall₂ (Alike W ch.views) (rows.map fun r => cols.map r.get) (rows'.map fun r => cols.map r.get)
  | [], [], _ => .nil
  | [], _ :: _, h => by cases h
  | _ :: _, [], h => by cases h
  | r :: rows, r' :: rows', he => by
    rw [List.map_cons, List.map_cons, List.cons.injEq] at he
    rw [List.map_cons, List.map_cons]
    refine .cons ?_ (alike_values hch hnd hsc he.2)
    refine chain_hidden hch hnd h hsc (by simp) (by simp) fun i hi => ?_
    rw [List.getElem?_map, List.getElem?_map]
    cases hc : cols[i]? with
    | none => rfl
    | some c =>
      have hn : c ∉ h := fun hm => hi c hm hc
      simp only [Option.map_some]
      rw [← get_blank hn r, ← get_blank hn r', he.1]

theorem alike_append {W : Outside σ Val} {vs : List (View Val)} (ws : List (View Val)) {a b : List Val} (h : Alike W vs a b) :
    Alike W (vs ++ ws) a b := by
  have key : ∀ (vs : List (View Val)) (a : List Val) (s : σ), runViews W (vs ++ ws) a s =
      match runViews W vs a s with
      | .error e => .error e
      | .ok (r, s') => runViews W ws r s' := by
    intro vs
    induction vs with
    | nil => intro a s; rfl
    | cons v vs ih =>
      intro a s
      rw [List.cons_append, runViews_cons, runViews_cons]
      cases v.run W a s with
      | error e => rfl
      | ok x => exact ih x.1 x.2
  intro s
  rw [key, key, h s]

theorem outPlan_alike {W : Outside σ Val} {x : OutInput} {o : OutPlan} (h : outPlan x = .ok o) {a b : List Val}
    (hab : Alike W x.chain.views a b) : Alike W o.views a b := by
  unfold outPlan at h
  simp only at h
  split at h
  · cases h
  · cases h
    dsimp only
    split
    · exact hab
    · exact alike_append _ hab

theorem outRow_alike {W : Outside σ Val} {o : OutPlan} {a b : List Val} (h : Alike W o.views a b) (i : Nat) (s : σ) :
    outRow W o (a, i) s = outRow W o (b, i) s := by
  unfold outRow
  rw [h s]

theorem copies_alike {W : Outside σ Val} {o : OutPlan} (m : Nat) {rows rows' : List (List Val)}
    (h : List.Forall₂ (Alike W o.views) rows rows') :
    List.Forall₂ (fun x x' => ∀ s, outRow W o x s = outRow W o x' s) (copies m rows) (copies m rows') := by
  have many : ∀ {a b : List Val}, Alike W o.views a b → ∀ l : List Nat,
      List.Forall₂ (fun x x' => ∀ s, outRow W o x s = outRow W o x' s) (l.map fun i => (a, i)) (l.map fun i => (b, i)) := by
    intro a b hab l
    induction l with
    | nil => exact .nil
    | cons i l ih => exact .cons (fun s => outRow_alike hab i s) ih
  unfold copies
  induction h with
  | nil => exact .nil
  | cons hab _ ih =>
    rw [List.flatMap_cons, List.flatMap_cons]
    exact List.rel_append (many hab _) ih

theorem writeLoop_alike {D : Type} {W : Outside σ Val} {flush : List (List Val) → D → Except OutErr D} {o : OutPlan}
    {xs xs' : List (List Val × Nat)} (h : List.Forall₂ (fun x x' => ∀ s, outRow W o x s = outRow W o x' s) xs xs') :
    ∀ st, writeLoop W flush o xs st = writeLoop W flush o xs' st := by
  induction h with
  | nil => intro st; rfl
  | cons hx _ ih =>
    intro st
    simp only [writeLoop, writeStep]
    rw [hx]
    cases outRow W o _ st.world with
    | error e => rfl
    | ok y =>
      obtain ⟨row, s'⟩ := y
      simp only
      cases autoMax o st.auto row with
      | error e => rfl
      | ok a =>
        simp only
        by_cases hb : o.buffer < (st.buffer ++ [row]).length
        · rw [if_pos hb]
          cases flush (st.buffer ++ [row]) st.dest with
          | error e => rfl
          | ok d => exact ih _
        · rw [if_neg hb]
          exact ih _

theorem writeAll_alike {D : Type} {W : Outside σ Val} {flush : List (List Val) → D → Except OutErr D} {o : OutPlan}
    {rows rows' : List (List Val)} (h : List.Forall₂ (Alike W o.views) rows rows') (d : D) (s : σ) :
    writeAll W flush o rows d s = writeAll W flush o rows' d s := by
  unfold writeAll
  rw [writeLoop_alike (copies_alike o.multiplier h)]

/-- Two tables are written alike. -/
inductive SameRead (W : Outside σ Val) : Except RunErr (Option TableJob) → Except RunErr (Option TableJob) → Prop where
  | error (e) : SameRead W (.error e) (.error e)
  | none : SameRead W (.ok none) (.ok none)
  | job {key strategy input rows rows'} (h : List.Forall₂ (Alike W input.chain.views) rows rows') :
    SameRead W (.ok (some ⟨key, strategy, input, rows⟩)) (.ok (some ⟨key, strategy, input, rows'⟩))

theorem copyAll_alike {W : Outside σ Val} {dialect : Dialect} {read read' : Str → Except RunErr (Option TableJob)}
    (h : ∀ n, SameRead W (read n) (read' n)) : ∀ (ns : List Str) (hist : List DbState) (s : σ),
    copyAll W dialect read ns hist s = copyAll W dialect read' ns hist s
  | [], _, _ => rfl
  | n :: ns, hist, s => by
    simp only [copyAll]
    have hn := h n
    generalize read n = a at hn
    generalize read' n = b at hn
    cases hn with
    | error e => rfl
    | none => exact copyAll_alike h ns hist s
    | job hr =>
      rename_i key strategy input rows rows'
      simp only
      cases ho : outPlan input with
      | error e => rfl
      | ok o =>
        simp only
        rw [writeAll_alike (hr.imp fun a b hab => outPlan_alike ho hab)]
        cases writeAll W (flushTo dialect strategy key input.dest o.colsOut) o rows' hist s with
        | error e => rfl
        | ok st => simp only; rw [copyAll_alike h ns]

variable {C : RunConfig} {D : Setting σ} {p : Plan} {cfg : PlannerConfig} {hid : Key → List Str}

/-- The setting with hidden columns of the source blanked. -/
def blankSetting (hid : Key → List Str) (D : Setting σ) : Setting σ := { D with src := blankSrc hid D.src }

theorem readTable_alike (hE : Blind D.engine cfg hid) {r : Started} (hp : BlindPlan D.engine hid r.tables D.src p)
    (hcols : ∀ k t, dget r.tables k = some t → t.columns.Nodup)
    (hsc : ∀ n ∈ dkeys p.queries, ∀ k, parseTableName n = some k → ∀ c ∈ hid k, Scrubbed ((dget C.filters n).getD []) c)
    (x : DestMeta) (offs : Dict Key (Dict Str Int)) (compact : Dict Key (List Str)) (temps : Temps) (n : Str) :
    SameRead D.world (readTable C D r x offs compact p temps n)
      (readTable C (blankSetting hid D) r x offs compact p (blankTemps hid temps) n) := by
  unfold readTable
  cases hk : parseTableName n with
  | none => exact .error _
  | some k =>
    simp only
    cases hq : dget p.queries n with
    | none => exact .none
    | some q =>
      simp only
      have hc := copyRows_blank (le := D.le) (start := C.compact.startKey) (compact := compact) hE hp (dget_some_mem hq) hk D.reopen temps
      have e1 : (blankSetting hid D).src = blankSrc hid D.src := rfl
      have e2 : (blankSetting hid D).engine = D.engine := rfl
      have e3 : (blankSetting hid D).le = D.le := rfl
      have e4 : (blankSetting hid D).reopen = D.reopen := rfl
      rw [e1, e2, e3, e4]
      generalize copyRows D.engine r.tables D.le C.compact.startKey compact D.src D.reopen temps k q = a at hc
      generalize copyRows D.engine r.tables D.le C.compact.startKey compact (blankSrc hid D.src) D.reopen (blankTemps hid temps) k q = b at hc
      cases a with
      | error e =>
        cases b with
        | error e' => simp only [blankRes] at hc; cases hc; exact .error _
        | ok rows => simp only [blankRes] at hc; cases hc
      | ok rows =>
        cases b with
        | error e' => simp only [blankRes] at hc; cases hc
        | ok rows' =>
          simp only [blankRes, Except.ok.injEq] at hc
          simp only
          cases ht : dget r.tables k with
          | none => exact .error _
          | some t =>
            simp only
            unfold tableJob
            have e5 : (blankSetting hid D).world = D.world := rfl
            have e6 : (blankSetting hid D).dialect = D.dialect := rfl
            have e7 : ∀ k t, destTable (blankSetting hid D) k t = destTable D k t := fun _ _ => rfl
            simp only [e5, e6, e7]
            cases hch : constructFilter D.world t.columns ((dget C.filters n).getD []) with
            | error e => exact .error _
            | ok ch =>
              simp only
              cases remapTable C.remap k with
              | none => exact .error _
              | some kd =>
                simp only
                cases dget x.tables kd with
                | none => exact .error _
                | some td =>
                  exact .job (alike_values hch (hcols k t ht) (hsc n (dget_isSome_iff.1 (by rw [hq]; rfl)) k hk) hc)

/-- A run does not depend on hidden columns. -/
theorem sample_blank (hE : Blind D.engine cfg hid)
    (hp : ∀ r, startRun C D p = .ok r → BlindPlan D.engine hid r.tables D.src p ∧ ∀ k t, dget r.tables k = some t → t.columns.Nodup)
    (hsc : ∀ n ∈ dkeys p.queries, ∀ k, parseTableName n = some k → ∀ c ∈ hid k, Scrubbed ((dget C.filters n).getD []) c)
    (S : DbState) (s : σ) : sample C (blankSetting hid D) p S s = sample C D p S s := by
  unfold sample
  have e1 : startRun C (blankSetting hid D) p = startRun C D p := rfl
  have e2 : ∀ r, createStep C (blankSetting hid D) r = createStep C D r := fun _ => rfl
  have e3 : (blankSetting hid D).dstDb = D.dstDb := rfl
  have e4 : (blankSetting hid D).src = blankSrc hid D.src := rfl
  have e5 : (blankSetting hid D).engine = D.engine := rfl
  have e6 : (blankSetting hid D).reopen = D.reopen := rfl
  have e7 : (blankSetting hid D).world = D.world := rfl
  have e8 : (blankSetting hid D).dialect = D.dialect := rfl
  rw [e1]
  simp only [e2, e3, e4, e5, e6, e7, e8]
  cases hr : startRun C D p with
  | error e => rfl
  | ok r =>
    obtain ⟨hb, hcols⟩ := hp r hr
    simp only
    cases createStep C D r with
    | error e => rfl
    | ok y =>
      obtain ⟨db, x⟩ := y
      simp only
      cases insertOrder x with
      | error e => rfl
      | ok order =>
        simp only
        cases truncateStep C x S with
        | error e => rfl
        | ok states =>
          simp only
          cases prepareStep C r.tables x ((states.reverse ++ [S]).head?.getD S) p with
          | error e => rfl
          | ok offs =>
            simp only
            cases getCompactColumns r.tables p.passthrough C.compact with
            | error e => rfl
            | ok compact =>
              simp only
              cases materializationOrder r.tables compact p with
              | error e => rfl
              | ok mat =>
                simp only
                have hm := materialize_blank hE hb D.reopen mat []
                rw [show blankTemps hid [] = [] from rfl] at hm
                rw [hm]
                cases materialize D.engine r.tables D.src D.reopen p mat [] with
                | error e => rfl
                | ok temps =>
                  simp only
                  rw [copyAll_alike (readTable_alike hE hb hcols hsc x offs compact temps)]

end Subsetter
