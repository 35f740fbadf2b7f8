import Verif.Proofs.BlankRun
import Verif.Proofs.RunDirectory

/- Hidden columns play no role in plans of the planner. -/
namespace Subsetter
open Spec Props

variable {σ : Type} {C : RunConfig} {D : Setting σ} {p : Plan} {cfg : PlannerConfig} {hid : Key → List Str}

/-- Foreign keys known to the sampler, from the tables loaded. -/
theorem loaded_fk_raw {r : Started} (he : r.tables = inferStep C.infer r.raw) (hr : LoadedFacts D r) {k : Key} {t : TableMeta}
    (ht : dget r.tables k = some t) {fk : ForeignKey} (hfk : fk ∈ t.foreignKeys) :
    HasFk r.raw k fk (fk.dstSchema, fk.dstTable) ∨ C.infer ≠ .none ∧ ∃ e, Inferred r.raw e k fk (fk.dstSchema, fk.dstTable) := by
  have hf : HasFk r.tables k fk (fk.dstSchema, fk.dstTable) := ⟨t, dget_some_mem ht, hfk, rfl⟩
  rw [he] at hf
  cases hi : C.infer with
  | none => rw [hi] at hf; exact .inl hf
  | schema =>
    rw [hi] at hf
    rcases (hasFk_inferMissing hr.raw).1 hf with h | h
    · exact .inl h
    · exact .inr ⟨by simp, _, h⟩
  | all =>
    rw [hi] at hf
    rcases (hasFk_inferMissing hr.raw).1 hf with h | h
    · exact .inl h
    · exact .inr ⟨by simp, _, h⟩

/-- Rows with the same primary key are the same row. -/
theorem blank_inj {db : Dict Str TableMeta} {src : Key → List Row} (hdb : DbOK db) (hu : Unread cfg C.infer db hid)
    (hpk : PkOK (dbTables db) src) {n : Str} {t : TableMeta} (ht : (n, t) ∈ db) :
    ∀ a ∈ src (t.schema, t.name), ∀ b ∈ src (t.schema, t.name),
      blank (hid (t.schema, t.name)) a = blank (hid (t.schema, t.name)) b → a = b := by
  intro a ha b hb e
  by_cases hh : hid (t.schema, t.name) = []
  · rw [hh, blank_nil, blank_nil] at e
    exact e
  · have hne := hu.keyed n t ht hh
    have hn := hdb.name_eq n t ht
    subst hn
    have hnd := hpk (t.schema, t.name) t (dbTables_get hdb ht rfl) hne
    refine List.inj_on_of_nodup_map hnd ha hb ?_
    have h1 := hu.pk _ t ht
    rw [← map_get_blank h1 a, ← map_get_blank h1 b, e]

theorem planned_blind (hdb : DbOK D.srcDb) (hex : ∀ x ∈ cfg.extraFks, x.Valid) (htg : [] ∉ dkeys cfg.targets)
    (hplan : Subsetter.plan D.fnmatch D.srcDb cfg = .ok p) (hu : Unread cfg C.infer D.srcDb hid) (hE : Blind D.engine cfg hid)
    (hpk : PkOK (dbTables D.srcDb) D.src) {r : Started} (he : r.tables = inferStep C.infer r.raw) (hr : LoadedFacts D r) :
    BlindPlan D.engine hid r.tables D.src p := by
  obtain ⟨T, hI, hpl, hsub⟩ := planned_from hdb hex htg hplan
  obtain ⟨ign, pass, T₁, T₂, found, ord, hp⟩ := planning hI hpl
  have keyOf : ∀ {k : Key} {t}, (k.1 ++ '.' :: k.2, t) ∈ D.srcDb → '.' ∉ k.1 → (t.schema, t.name) = k := by
    intro k t h hd
    have h1 := hdb.name_eq _ _ h
    exact (str_inj (k := k) (k' := (t.schema, t.name)) hd (hdb.no_dot _ _ h) h1).symm
  have inT : ∀ {k t}, (k, t) ∈ T → (t.schema, t.name) = k := fun h => keyOf (hsub _ _ h) (hI.tables.no_dot _ _ h)
  have inferFk : ∀ {R : Tables} {e a fk b}, (∀ k t, (k, t) ∈ R → (k.1 ++ '.' :: k.2, t) ∈ D.srcDb) → Inferred R e a fk b →
      cfg.infer ≠ .none ∨ C.infer ≠ .none → (∀ c ∈ fk.columns, c ∉ hid a) ∧ ∀ c ∈ fk.dstColumns, c ∉ hid b := by
    intro R e a fk b hR h hi
    obtain ⟨t, c, -, -, rfl, tb, h3, h4⟩ := inferred_pk h
    have h5 := hu.inferred hi _ tb (hR _ _ h3) c h4
    exact ⟨fun c' hc => by rw [List.mem_singleton.1 hc]; exact h5 a, fun c' hc => by rw [List.mem_singleton.1 hc]; exact h5 b⟩
  refine ⟨?_, fun k t ht => ?_, fun k t ht c hc => ?_, fun k t ht fk hfk => ?_, fun n hn k hk => ?_⟩
  · refine hp.shape.of hp.ok (J := fun k => JBlind hid k) (P := fun k => WBlind D.engine ⟨k.1, k.2, false⟩ (hid k))
      (fun _ => kept_blind) ?_ ?_ ?_
    · intro a fk b hfk j
      have key : (∀ c ∈ fk.columns, c ∉ hid a) ∧ ∀ c ∈ fk.dstColumns, c ∉ hid b := by
        rcases (hp.used a fk b).1 hfk with ⟨⟨t, g1, g2, rfl⟩ | ⟨e, g0, g1⟩, -⟩ | ⟨x, g1, g2, g3, -, -, rfl⟩
        · have := hu.fk _ t (hsub _ _ g1) fk g2
          rw [inT g1] at this
          exact this
        · refine inferFk hsub g1 (.inl fun hn => ?_)
          rw [hn] at g0
          cases g0
        · exact ⟨(hu.extraFk x g1).1 a g2, (hu.extraFk x g1).2 b g3⟩
      refine ⟨fun e1 e2 e3 => ⟨by rw [e2]; exact key.1, by rw [e3, e1]; exact key.2⟩,
        fun e1 e2 e3 => ⟨by rw [e2]; exact key.2, by rw [e3, e1]; exact key.1⟩⟩
    · intro k hk x hx
      cases hc : dget cfg.tableConstraints k.str with
      | none => rw [hc] at hx; cases hx
      | some cs =>
        rw [hc] at hx
        exact hu.constraint k cs (dget_some_mem hc) x hx
    · intro k hk x hx
      exact targetClauses_blind (hu.target k x (dget_some_mem hx)) fun text ht r =>
        hE.sql k x (dget_some_mem hx) text ht _ _ (sameShown_iff.2 (blank_blank _ _))
  · have h1 : k ∈ r.raw.map Prod.fst := by
      rw [← hr.same.keys]
      exact List.mem_map_of_mem (f := Prod.fst) (dget_some_mem ht)
    obtain ⟨t', h2⟩ := Option.isSome_iff_exists.1 (dget_isSome_iff.2 h1)
    exact hr.raw.no_dot k t' (dget_some_mem h2)
  · obtain ⟨t0, h1, rfl, -, -, h2⟩ := hr.get hdb ht
    rw [h2] at hc
    exact hu.pk _ t0 h1 c hc
  · rcases loaded_fk_raw he hr ht hfk with ⟨t0, h1, h2, -⟩ | ⟨h0, e, h1⟩
    · obtain ⟨h3, h4⟩ := hr.sub k t0 (dget_of_mem hr.raw.keys_nodup h1)
      have := hu.fk _ t0 h3 fk h2
      rw [h4] at this
      exact this
    · exact inferFk (fun k t hk => (hr.sub k t (dget_of_mem hr.raw.keys_nodup hk)).1) h1 (.inr h0)
  · rw [dkeys, hp.shape.keys] at hn
    obtain ⟨k', hk', rfl⟩ := List.mem_map.1 hn
    obtain ⟨m, hm⟩ := Option.isSome_iff_exists.1 (hp.shape.inT hp.ok hk')
    rw [parse_of_nodot (hp.ok.no_dot k' m (dget_some_mem hm))] at hk
    have hkk := Option.some.inj hk
    subst hkk
    obtain ⟨m0, g1, -⟩ := hp.same.same _ m hm
    have g2 := dget_some_mem g1
    have := blank_inj hdb hu hpk (hsub _ _ g2)
    rw [inT g2] at this
    exact this

/-- Sources that differ only in hidden columns are the same when these are blanked. -/
theorem blankSrc_eq {src src' : Key → List Row} (h : SameOutside hid src src') : blankSrc hid src = blankSrc hid src' :=
  funext fun k => forall₂_sameShown.1 (h k)

/-- Primary keys of the other source are unique as well. -/
theorem pkOK_outside (hu : Unread cfg C.infer D.srcDb hid) {src' : Key → List Row} (h : SameOutside hid D.src src')
    (hpk : PkOK (dbTables D.srcDb) D.src) : PkOK (dbTables D.srcDb) src' := by
  intro k t ht hne
  obtain ⟨e, h1, h2⟩ := List.mem_map.1 (dget_some_mem ht)
  obtain ⟨h5, h6⟩ := Prod.mk.inj h2
  have h3 := hu.pk e.1 e.2 h1
  rw [h5, h6] at h3
  have e : ∀ src : Key → List Row, ((src k).map fun r => t.primaryKey.map r.get) = (blankSrc hid src k).map fun r => t.primaryKey.map r.get := by
    intro src
    unfold blankSrc
    rw [List.map_map]
    exact List.map_congr_left fun r _ => (map_get_blank h3 r).symm
  rw [e, ← blankSrc_eq h, ← e]
  exact hpk k t ht hne

end Subsetter
