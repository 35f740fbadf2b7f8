import Verif.Proofs.ResampleRun
import Verif.Proofs.Closure
import Verif.Proofs.Dest
import Verif.Spec.Unrelated

/- Further tables that have nothing to do with a run. -/
namespace Subsetter
open Spec

theorem flatMap_sublist_eq {α β : Type} {f : α → List β} {l l' : List α} (h : l.Sublist l') (hnd : l'.Nodup)
    (he : ∀ a ∈ l', a ∉ l → f a = []) : l'.flatMap f = l.flatMap f := by
  induction h with
  | slnil => rfl
  | @cons l l' a h ih =>
    have ha : a ∉ l := fun hm => (List.nodup_cons.1 hnd).1 (h.subset hm)
    rw [List.flatMap_cons, he a (by simp) ha, List.nil_append]
    exact ih (List.nodup_cons.1 hnd).2 fun b hb => he b (by simp [hb])
  | @cons_cons l l' a h ih =>
    rw [List.flatMap_cons, List.flatMap_cons, ih (List.nodup_cons.1 hnd).2 fun b hb hn => ?_]
    refine he b (by simp [hb]) fun hm => ?_
    rcases List.mem_cons.1 hm with rfl | hm
    · exact (List.nodup_cons.1 hnd).1 hb
    · exact hn hm

theorem filter_sublist_eq {α : Type} {f : α → Bool} {l l' : List α} (h : l.Sublist l') (hnd : l'.Nodup)
    (he : ∀ a ∈ l', a ∉ l → f a = false) : l'.filter f = l.filter f := by
  have e : ∀ m : List α, m.filter f = m.flatMap fun a => if f a then [a] else [] := by
    intro m
    induction m with
    | nil => rfl
    | cons a m ih =>
      rw [List.filter_cons, List.flatMap_cons, ← ih]
      split <;> rfl
  rw [e, e]
  exact flatMap_sublist_eq h hnd fun a ha hn => by rw [he a ha hn]; rfl

theorem dget_sublist {db db' : Dict Str TableMeta} (h : db.Sublist db') (hnd : (dkeys db').Nodup) {n : Str}
    (hn : ∀ e ∈ db', e ∉ db → e.1 ≠ n) : dget db' n = dget db n := by
  have hnd' : (dkeys db).Nodup := hnd.sublist (h.map _)
  cases h1 : dget db n with
  | some t => exact dget_of_mem hnd (h.subset (dget_some_mem h1))
  | none =>
    refine dget_none_iff.2 fun hm => ?_
    obtain ⟨e, h2, h3⟩ := List.mem_map.1 hm
    by_cases h4 : e ∈ db
    · exact dget_none_iff.1 h1 (List.mem_map.2 ⟨e, h4, h3⟩)
    · exact hn e h2 h4 h3

/-- More fuel changes nothing. -/
theorem closeLoop_fuel {db : Dict Str TableMeta} {fwd bwd : Bool} : ∀ (n m : Nat) (seen done todo : List Key),
    closeLoop db fwd bwd n seen done todo ≠ some none →
    closeLoop db fwd bwd (n + m) seen done todo = closeLoop db fwd bwd n seen done todo
  | n, m, seen, done, [], _ => by
    cases n <;> cases m <;> rfl
  | 0, m, seen, done, k :: todo, h => absurd rfl h
  | n + 1, m, seen, done, k :: todo, h => by
    rw [Nat.add_right_comm]
    unfold closeLoop at h ⊢
    revert h
    cases dget db k.str with
    | none => intro _; rfl
    | some t => exact fun h => closeLoop_fuel n m _ _ _ h

theorem mapM_option_congr {α β : Type} {f g : α → Option β} : ∀ {l : List α}, (∀ a ∈ l, f a = g a) → l.mapM f = l.mapM g
  | [], _ => rfl
  | a :: l, h => by
    rw [List.mapM_cons, List.mapM_cons, h a (by simp), mapM_option_congr fun b hb => h b (by simp [hb])]

theorem closeLoop_relevant {db : Dict Str TableMeta} {fwd bwd : Bool} {R : Key → Prop}
    (hR : ∀ a b, R a → Pulls db fwd bwd a b → R b) : ∀ (n : Nat) (seen done todo q : List Key), (∀ k ∈ done ++ todo, R k) →
    closeLoop db fwd bwd n seen done todo = some (some q) → ∀ k ∈ q, R k
  | n, seen, done, [], q, hr, h => by
    have : q = done := by cases n <;> exact (Option.some.inj (Option.some.inj h)).symm
    rw [this]
    simpa using hr
  | 0, seen, done, k :: todo, q, _, h => by cases h
  | n + 1, seen, done, k :: todo, q, hr, h => by
    unfold closeLoop at h
    revert h
    cases dget db k.str with
    | none => intro h; cases h
    | some t =>
      intro h
      refine closeLoop_relevant hR n _ _ _ q (fun x hx => ?_) h
      obtain ⟨add, a1, -, a3, -⟩ := closeInner_spec (tableDeps db fwd bwd k) seen []
      rw [a1, List.nil_append] at hx
      simp only [List.mem_append, List.mem_singleton] at hx
      rcases hx with (hx | rfl) | hx | hx
      · exact hr x (by simp [hx])
      · exact hr x (by simp)
      · exact hr x (by simp [hx])
      · exact hR k x (hr k (by simp)) (mem_tableDeps.1 (a3 x hx).2)

section
variable {fnmatch : Str → Str → Bool} {select : List Str} {fwd bwd : Bool} {db db' : Dict Str TableMeta}
  (hdb' : DbOK db') (h : Beside fnmatch select fwd bwd db db')
include hdb' h

theorem beside_tableDeps {k : Key} (hk : Relevant fnmatch db select fwd bwd k) :
    dget db' k.str = dget db k.str ∧ tableDeps db' fwd bwd k = tableDeps db fwd bwd k := by
  obtain ⟨n, t, hm, rfl⟩ := h.complete k hk
  have hn : n = Key.str (t.schema, t.name) := hdb'.name_eq n t (h.sub.subset hm)
  subst hn
  have hnew : ∀ e ∈ db', e ∉ db → e.1 ≠ Key.str (t.schema, t.name) := by
    rintro ⟨n, t'⟩ h1 h2 rfl
    have := dget_of_mem hdb'.names_nodup h1
    rw [dget_of_mem hdb'.names_nodup (h.sub.subset hm)] at this
    cases this
    exact h2 hm
  refine ⟨dget_sublist h.sub hdb'.names_nodup hnew, flatMap_sublist_eq h.sub (List.Nodup.of_map _ hdb'.names_nodup) ?_⟩
  intro e h1 h2
  refine List.flatMap_eq_nil_iff.2 fun fk hfk => ?_
  have a1 : ¬ e.2.key = (t.schema, t.name) := by
    intro e1
    refine hnew e h1 h2 ?_
    rw [hdb'.name_eq e.1 e.2 h1]
    show Key.str (e.2.schema, e.2.name) = _
    rw [← e1]; rfl
  have a2 : (bwd && decide (fk.dst = (t.schema, t.name))) = false := by
    cases hb : bwd with
    | false => rfl
    | true =>
      simp only [Bool.true_and, decide_eq_false_iff_not]
      intro e1
      refine h.unrelated hb e h1 h2 fk hfk ?_
      rw [show (fk.dstSchema, fk.dstTable) = fk.dst from rfl, e1]
      exact hk
  rw [a2]
  simp [a1]

theorem beside_closeLoop : ∀ (n : Nat) (seen done todo : List Key), (∀ k ∈ todo, Relevant fnmatch db select fwd bwd k) →
    closeLoop db' fwd bwd n seen done todo = closeLoop db fwd bwd n seen done todo
  | n, seen, done, [], _ => by cases n <;> rfl
  | 0, seen, done, k :: todo, _ => rfl
  | n + 1, seen, done, k :: todo, hr => by
    have hk := hr k (by simp)
    obtain ⟨h1, h2⟩ := beside_tableDeps hdb' h hk
    unfold closeLoop
    rw [h1, h2]
    cases dget db k.str with
    | none => rfl
    | some t =>
      dsimp only
      refine beside_closeLoop n _ _ _ fun x hx => ?_
      rcases List.mem_append.1 hx with hx | hx
      · exact hr x (by simp [hx])
      · obtain ⟨add, a1, -, a3, -⟩ := closeInner_spec (tableDeps db fwd bwd k) seen []
        rw [a1, List.nil_append] at hx
        obtain ⟨s, g1, g2⟩ := hk
        exact ⟨s, g1, g2.tail (mem_tableDeps.1 (a3 x hx).2)⟩

/-- The same tables are loaded. -/
theorem fromEngine_beside (hdb : DbOK db) : fromEngine fnmatch db' select fwd bwd = fromEngine fnmatch db select fwd bwd := by
  have hsel : selectedKeys fnmatch db' select = selectedKeys fnmatch db select := by
    unfold selectedKeys
    rw [filter_sublist_eq h.sub (List.Nodup.of_map _ hdb'.names_nodup)]
    intro e h1 h2
    exact List.any_eq_false.2 fun pat hp => by rw [h.unselected e h1 h2 pat hp]; simp
  have hnf : fromEngine fnmatch db select fwd bwd ≠ some none := by
    rcases fromEngine_spec (fnmatch := fnmatch) hdb select fwd bwd with ⟨l, h1, -⟩ | ⟨h1, -⟩ <;> rw [h1] <;> simp
  have hrel : ∀ k ∈ selectedKeys fnmatch db select, Relevant fnmatch db select fwd bwd k :=
    fun k hk => ⟨k, mem_selectedKeys.1 hk, .refl⟩
  unfold fromEngine at hnf ⊢
  dsimp only at hnf ⊢
  rw [hsel, beside_closeLoop hdb' h _ _ _ _ hrel]
  obtain ⟨m, hm⟩ := Nat.exists_eq_add_of_le h.sub.length_le
  rw [hm, Nat.add_right_comm, closeLoop_fuel]
  swap
  · intro e
    rw [e] at hnf
    exact hnf rfl
  cases h1 : closeLoop db fwd bwd (db.length + 1) (selectedKeys fnmatch db select) [] (selectedKeys fnmatch db select) with
  | none => rfl
  | some o =>
    cases o with
    | none => rfl
    | some q =>
      dsimp only
      have hq : ∀ k ∈ q, Relevant fnmatch db select fwd bwd k :=
        closeLoop_relevant (fun a b ⟨s, g1, g2⟩ hab => ⟨s, g1, g2.tail hab⟩) _ _ _ _ q (by simpa using hrel) h1
      have : q.mapM (fun k => (dget db' k.str).map fun t => (k, t)) = q.mapM (fun k => (dget db k.str).map fun t => (k, t)) :=
        mapM_option_congr fun k hk => by rw [(beside_tableDeps hdb' h (hq k hk)).1]
      rw [this]
end

/-- With nothing but the selection, relevant tables are the selected ones. -/
theorem relevant_plain {fnmatch : Str → Str → Bool} {db : Dict Str TableMeta} {select : List Str} {k : Key}
    (h : Relevant fnmatch db select false false k) : InDb db k := by
  obtain ⟨s, ⟨n, t, h1, h2, -⟩, h3⟩ := h
  rcases Relation.ReflTransGen.cases_head h3 with rfl | ⟨c, h4, -⟩
  · exact ⟨n, t, h1, h2⟩
  · rcases h4 with ⟨h4, -⟩ | ⟨h4, -⟩ <;> cases h4

theorem relevant_closed {fnmatch : Str → Str → Bool} {db : Dict Str TableMeta} (hc : DbClosed db) {select : List Str} {fwd bwd : Bool}
    {k : Key} (h : Relevant fnmatch db select fwd bwd k) : InDb db k := by
  obtain ⟨s, ⟨n, t, h1, h2, -⟩, h3⟩ := h
  rcases Relation.ReflTransGen.cases_tail h3 with rfl | ⟨c, -, ⟨-, h4⟩ | ⟨-, n, t, fk, h4, h5, -⟩⟩
  · exact ⟨n, t, h1, h2⟩
  · exact hc _ _ h4
  · exact ⟨n, t, h4, h5⟩

variable {σ : Type} {C : RunConfig} {D : Setting σ} {p : Plan}

/-- Further tables in the source. -/
theorem sample_besideSource (hsrc : DbOK D.srcDb) (hnd : (dkeys p.queries).Nodup) {db' : Dict Str TableMeta}
    (hb : BesideSource D p db') {src' : Key → List Row} (hrows : ∀ k, InDb D.srcDb k → src' k = D.src k) (S : DbState) (s : σ) :
    sample C { D with srcDb := db', src := src' } p S s = sample C D p S s := by
  have hB : Beside D.fnmatch (dkeys p.queries) false false D.srcDb db' :=
    ⟨hb.sub, hb.unmatched, fun h => (nomatch h), fun _ h => relevant_plain h⟩
  rw [← sample_sameSample (C := C) (D := D) (E' := D.engine) (src' := src') hsrc hnd ?_ S s]
  · have e1 : startRun C { D with srcDb := db', src := src' } p = startRun C { D with src := src' } p := by
      unfold startRun
      dsimp only
      rw [fromEngine_beside hb.ok hB hsrc]
    unfold sample
    rw [e1]
    rfl
  · intro ha hp
    obtain ⟨_, _, -, -, -, -, -, hS, -⟩ := materialized hp ha D.engine [] D.src true
    refine ⟨_, hS, fun k q hq => ?_⟩
    rw [hS k q hq]
    refine q.eval_congr_refs D.engine fun x hx => ⟨?_, rfl⟩
    simp only [sampleEnv]
    split
    · rfl
    · refine (hrows _ ?_).symm
      obtain ⟨t, ht⟩ := Option.isSome_iff_exists.1 (hp.refs_known k q hq x hx)
      obtain ⟨e, h1, h2⟩ := List.mem_map.1 (dget_some_mem ht)
      have h3 := congrArg Prod.fst h2
      exact ⟨e.1, e.2, h1, h3⟩

/-! ### Further tables in the destination -/

theorem destInit_beside (hdst : DbOK D.dstDb) {db' : Dict Str TableMeta} (hb : BesideDest C D p db') :
    destInit D.fnmatch db' C.remap (dkeys p.queries) = destInit D.fnmatch D.dstDb C.remap (dkeys p.queries) := by
  unfold destInit
  cases h1 : buildRemap C.remap (dkeys p.queries) [] with
  | error e => rfl
  | ok m =>
    have hm : ∀ r ∈ dkeys m, ∃ n ∈ dkeys p.queries, ∃ d, DestOf C.remap n d ∧ d.str = r := by
      intro r hr
      obtain ⟨⟨_, n⟩, hn', rfl⟩ := List.mem_map.1 hr
      have hn := dget_of_mem (buildRemap_ok h1 List.nodup_nil).1 hn'
      rcases (buildRemap_ok h1 List.nodup_nil).2.2.2 _ n hn with h | ⟨h, d, h2, h3⟩
      · cases h
      · exact ⟨n, h, d, h2, h3⟩
    have hB : Beside D.fnmatch (dkeys m) false true D.dstDb db' := by
      refine ⟨hb.sub, fun e he hne r hr => ?_, fun _ e he hne fk hfk hrel => ?_, fun k hk => ?_⟩
      · obtain ⟨n, hn, d, hd, rfl⟩ := hm r hr
        exact (hb.unmatched e he hne n hn d hd).2
      · refine hb.unrelated e he hne fk hfk ?_
        obtain ⟨s, ⟨n, t, g1, g2, r, g3, g4⟩, g5⟩ := hrel
        obtain ⟨n', hn', d, hd, rfl⟩ := hm r g3
        refine ⟨n', hn', d, hd, .inr ⟨s, ⟨n, t, g1, g2, _, List.mem_singleton.2 rfl, g4⟩, ?_⟩⟩
        exact Relation.ReflTransGen.mono (fun a b h => h.elim (fun h => (nomatch h.1)) fun h => h.2) _ _ g5
      · obtain ⟨s, ⟨n, t, h1, h2, -⟩, h3⟩ := hk
        rcases Relation.ReflTransGen.cases_tail h3 with rfl | ⟨c, -, ⟨h4, -⟩ | ⟨-, n, t, fk, h4, h5, -⟩⟩
        · exact ⟨n, t, h1, h2⟩
        · cases h4
        · exact ⟨n, t, h4, h5⟩
    dsimp only
    rw [fromEngine_beside hb.ok hB hdst]

theorem destTable_beside {db' : Dict Str TableMeta} (hb : BesideDest C D p db') {n : Str} (hn : n ∈ dkeys p.queries) {kd : Key}
    (hd : DestOf C.remap n kd) (td : TableMeta) : destTable { D with dstDb := db' } kd td = destTable D kd td := by
  unfold destTable
  dsimp only
  have : (dget db' kd.str).isSome = (dget D.dstDb kd.str).isSome := by
    cases h1 : dget D.dstDb kd.str with
    | some t => rw [dget_of_mem hb.ok.names_nodup (hb.sub.subset (dget_some_mem h1))]
    | none =>
      cases h2 : dget db' kd.str with
      | none => rfl
      | some t =>
        have h3 := dget_some_mem h2
        refine absurd rfl (hb.unmatched _ h3 (fun h4 => ?_) n hn kd hd).1
        have h5 := dget_none_iff.1 h1
        exact h5 (List.mem_map.2 ⟨_, h4, rfl⟩)
  revert this
  cases dget db' kd.str <;> cases dget D.dstDb kd.str <;> intro this <;> first | rfl | cases this

theorem readTable_beside {db' : Dict Str TableMeta} (hb : BesideDest C D p db') (r : Started) (x : DestMeta)
    (offs : Dict Key (Dict Str Int)) (compact : Dict Key (List Str)) (temps : Temps) :
    readTable C { D with dstDb := db' } r x offs compact p temps = readTable C D r x offs compact p temps := by
  funext n
  unfold readTable
  cases hk : parseTableName n with
  | none => rfl
  | some k =>
    cases hq : dget p.queries n with
    | none => rfl
    | some q =>
      have e : ∀ t rows, tableJob C { D with dstDb := db' } r.mult x offs p.passthrough n k t rows =
          tableJob C D r.mult x offs p.passthrough n k t rows := by
        intro t rows
        unfold tableJob
        dsimp only
        cases hd : remapTable C.remap k with
        | none => rfl
        | some kd =>
          dsimp only
          cases dget x.tables kd with
          | none => rfl
          | some td =>
            dsimp only
            rw [destTable_beside hb (List.mem_map.2 ⟨_, dget_some_mem hq, rfl⟩) ⟨k.1, k.2, hk, hd⟩ td]
      dsimp only
      simp only [e]

theorem sample_besideDest (hdst : DbOK D.dstDb) {db' : Dict Str TableMeta} (hb : BesideDest C D p db') (S : DbState) (s : σ) :
    ∃ created, (sample C D p S s).schema = D.dstDb ++ created ∧
      sample C { D with dstDb := db' } p S s = { sample C D p S s with schema := db' ++ created } := by
  have e1 : startRun C { D with dstDb := db' } p = startRun C D p := by
    unfold startRun
    dsimp only
    rw [destInit_beside hdst hb]
  unfold sample
  rw [e1]
  cases startRun C D p with
  | error e => exact ⟨[], by simp⟩
  | ok r =>
    dsimp only
    have e2 : (∃ e, createStep C D r = .error e ∧ createStep C { D with dstDb := db' } r = .error e) ∨
        ∃ created x, createStep C D r = .ok (D.dstDb ++ created, x) ∧
          createStep C { D with dstDb := db' } r = .ok (db' ++ created, x) := by
      unfold createStep
      cases C.create with
      | false => exact .inr ⟨[], r.dest, by simp⟩
      | true =>
        simp only [if_true]
        cases createdTables r.raw r.dest with
        | error e => exact .inl ⟨e, rfl, rfl⟩
        | ok ts => exact .inr ⟨_, _, rfl, rfl⟩
    rcases e2 with ⟨e, h1, h2⟩ | ⟨created, x, h1, h2⟩
    · rw [h1, h2]
      exact ⟨[], by simp⟩
    · rw [h1, h2]
      refine ⟨created, ?_⟩
      dsimp only
      cases insertOrder x with
      | error e => exact ⟨rfl, rfl⟩
      | ok order =>
        dsimp only
        cases truncateStep C x S with
        | error e => exact ⟨rfl, rfl⟩
        | ok states =>
          dsimp only
          cases prepareStep C r.tables x ((states.reverse ++ [S]).head?.getD S) p with
          | error e => exact ⟨rfl, rfl⟩
          | ok offs =>
            dsimp only
            simp only [readTable_beside hb]
            cases getCompactColumns r.tables p.passthrough C.compact with
            | error e => exact ⟨rfl, rfl⟩
            | ok compact =>
              dsimp only
              cases materializationOrder r.tables compact p with
              | error e => exact ⟨rfl, rfl⟩
              | ok mat =>
                dsimp only
                cases materialize D.engine r.tables D.src D.reopen p mat [] with
                | error e => exact ⟨rfl, rfl⟩
                | ok temps => exact ⟨rfl, rfl⟩

/-! ### Further tables while planning -/

theorem plan_beside {f : Str → Str → Bool} {db db' : Dict Str TableMeta} {cfg : PlannerConfig} (hdb : DbOK db) (hdb' : DbOK db')
    (h : Beside f (cfg.select ++ cfg.passthrough) cfg.includeDependencies false db db') : plan f db' cfg = plan f db cfg := by
  unfold plan
  rw [fromEngine_beside hdb' h hdb]

end Subsetter
