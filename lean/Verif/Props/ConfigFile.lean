import Verif.Proofs.ConfigFile
import Verif.Proofs.Config
import Verif.Props.PlanFile
import Verif.Props.RunSucceeds

/-
C71: the configuration is accepted exactly if it is one, and then says what the reference says.
-/
namespace Subsetter.Props
open Subsetter Subsetter.Spec Subsetter.ConfigRead

variable {L : Lax} {K : Codes} {files : List Yaml} {c : Config}

/-- C71: reading the files gives the configuration `c` exactly if the merged document is a configuration that says
`c`. -/
theorem c71_config : getConfig L K files = .ok c ↔ IsConfig L K c (mergeFiles files) :=
  reads_config L K _ _

/-- C71: a document says at most one thing. -/
theorem c71_unique {y : Yaml} {c' : Config} (h : IsConfig L K c y) (h' : IsConfig L K c' y) : c' = c := by
  have h1 := (reads_config L K _ _).2 h
  rw [(reads_config L K _ _).2 h'] at h1
  exact Except.ok.inj h1

theorem value_key {d : Items} {k : Str} {v : Yaml} (h : valueAt (.map d) [k] = some v) : dget d k = some v := by
  rw [valueAt_map] at h
  cases e : dget d k with
  | none => rw [e] at h; cases h
  | some w => rw [e, Option.bind_some, valueAt_nil] at h; exact h

theorem value_keys {d : Items} {k k' : Str} {v : Yaml} (h : valueAt (.map d) [k, k'] = some v) :
    ∃ d', dget d k = some (.map d') ∧ dget d' k' = some v := by
  rw [valueAt_map] at h
  cases e : dget d k with
  | none => rw [e] at h; cases h
  | some w =>
    rw [e, Option.bind_some] at h
    match w, h with
    | .map d', h => exact ⟨d', rfl, value_key h⟩
    | .leaf _, h => cases h
    | .seq _, h => cases h

theorem unset_some {d : Items} {k : Str} {P : Prop} {Q : Yaml → Prop} {v : Yaml} (h : Unset d k P Q)
    (hv : dget d k = some v) : Q v := by
  rcases h with ⟨h, -⟩ | ⟨w, h, hq⟩
  · rw [hv] at h; cases h
  · rw [hv] at h; cases h; exact hq

theorem set_some {d : Items} {k : Str} {Q : Yaml → Prop} {v : Yaml} (h : Set' d k Q) (hv : dget d k = some v) : Q v := by
  obtain ⟨w, h, hq⟩ := h
  rw [hv] at h; cases h; exact hq

theorem list_mem {α : Type} {P : α → Yaml → Prop} {l : List α} {ys : List Yaml} {y : Yaml} (h : IsList P l (.seq ys))
    (hy : y ∈ ys) : ∃ a ∈ l, P a y := by
  obtain ⟨_, e, h⟩ := h
  cases e
  induction h with
  | nil => cases hy
  | cons h1 _ ih =>
    rcases List.mem_cons.1 hy with rfl | hy
    · exact ⟨_, List.mem_cons_self, h1⟩
    · obtain ⟨a, ha, hp⟩ := ih hy
      exact ⟨a, List.mem_cons_of_mem _ ha, hp⟩

theorem dict_mem {α : Type} {P : α → Yaml → Prop} {l : Dict Str α} {d : Items} {k : Str} {y : Yaml}
    (h : IsDict P l (.map d)) (hy : (k, y) ∈ d) : ∃ a, (k, a) ∈ l ∧ P a y := by
  obtain ⟨_, e, h⟩ := h
  cases e
  induction h with
  | nil => cases hy
  | @cons x z _ _ h1 _ ih =>
    rcases List.mem_cons.1 hy with rfl | hy
    · obtain ⟨k', a⟩ := x
      obtain ⟨e, hp⟩ := h1
      dsimp only at e
      subst e
      exact ⟨a, List.mem_cons_self, hp⟩
    · obtain ⟨a, ha, hp⟩ := ih hy
      exact ⟨a, List.mem_cons_of_mem _ ha, hp⟩

theorem planner_at {d d' : Items} {c : Config} (h : Unset d (str! "planner") (c.planner = none)
    (IsOpt (IsPlanner L K.float) c.planner)) (hd : dget d (str! "planner") = some (.map d')) :
    ∃ P, c.planner = some P ∧ IsPlanner L K.float P (.map d') := by
  have h := unset_some h hd
  cases e : c.planner with
  | none => rw [e] at h; cases h
  | some P => rw [e] at h; exact ⟨P, rfl, h⟩

theorem sampler_at {d d' : Items} {c : Config} (h : Unset d (str! "sampler") (c.sampler = none)
    (IsOpt (IsSampler L K) c.sampler)) (hd : dget d (str! "sampler") = some (.map d')) :
    ∃ P, c.sampler = some P ∧ IsSampler L K P (.map d') := by
  have h := unset_some h hd
  cases e : c.sampler with
  | none => rw [e] at h; cases h
  | some P => rw [e] at h; exact ⟨P, rfl, h⟩

/-- C71: in an accepted configuration every key of a strict mapping is known. -/
theorem c71_only {y : Yaml} {keys : List Str} {d : Items} (h : IsConfig L K c y) (hs : Strict y keys d) : Only keys d := by
  obtain ⟨top, rfl, h0, -, hp, hs'⟩ := h
  cases hs with
  | top h => cases h; exact h0
  | planner h =>
    obtain ⟨P, -, d', e, ho, -⟩ := planner_at hp (value_key h)
    cases e; exact ho
  | target h hm =>
    obtain ⟨d1, e1, e2⟩ := value_keys h
    obtain ⟨P, -, d', e, -, -, ht, -⟩ := planner_at hp e1
    cases e
    obtain ⟨a, -, d', e, ho, -⟩ := dict_mem (set_some ht e2) hm
    cases e; exact ho
  | constraint h hm hl =>
    obtain ⟨d1, e1, e2⟩ := value_keys h
    obtain ⟨P, -, d', e, -, -, -, ht, -⟩ := planner_at hp e1
    cases e
    obtain ⟨a, -, ha⟩ := dict_mem (unset_some ht e2) hm
    obtain ⟨b, -, d', e, ho, -⟩ := list_mem ha hl
    cases e; exact ho
  | ignoreFk h hl =>
    obtain ⟨d1, e1, e2⟩ := value_keys h
    obtain ⟨P, -, d', e, -, -, -, -, -, -, ht, -⟩ := planner_at hp e1
    cases e
    obtain ⟨b, -, d', e, ho, -⟩ := list_mem (unset_some ht e2) hl
    cases e; exact ho
  | extraFk h hl =>
    obtain ⟨d1, e1, e2⟩ := value_keys h
    obtain ⟨P, -, d', e, -, -, -, -, -, -, -, ht, -⟩ := planner_at hp e1
    cases e
    obtain ⟨b, -, d', e, ho, -⟩ := list_mem (unset_some ht e2) hl
    cases e; exact ho
  | sampler h =>
    obtain ⟨P, -, d', e, ho, -⟩ := sampler_at hs' (value_key h)
    cases e; exact ho
  | mult h =>
    obtain ⟨d1, e1, e2⟩ := value_keys h
    obtain ⟨P, -, d', e, -, -, -, ht, -⟩ := sampler_at hs' e1
    cases e
    obtain ⟨d', e, ho, -⟩ := unset_some ht e2
    cases e; exact ho
  | compact h =>
    obtain ⟨d1, e1, e2⟩ := value_keys h
    obtain ⟨P, -, d', e, -, -, -, -, -, ht⟩ := sampler_at hs' e1
    cases e
    obtain ⟨d', e, ho, -⟩ := unset_some ht e2
    cases e; exact ho
  | directory h hm =>
    obtain ⟨d1, e1, e2⟩ := value_keys h
    obtain ⟨P, -, d', e, -, ht, -⟩ := sampler_at hs' e1
    cases e
    have ht := unset_some ht e2
    cases e' : P.output with
    | directory dir =>
      rw [e'] at ht
      obtain ⟨d', e, ho, -⟩ := ht
      cases e; exact ho
    | database db remap strategy merge =>
      rw [e'] at ht
      obtain ⟨d', e, hm', -⟩ := ht
      cases e
      rw [set_text.1 hm'] at hm
      simp at hm
  | remap h hm hr hl =>
    obtain ⟨d1, e1, e2⟩ := value_keys h
    obtain ⟨P, -, d', e, -, ht, -⟩ := sampler_at hs' e1
    cases e
    have ht := unset_some ht e2
    cases e' : P.output with
    | directory dir =>
      rw [e'] at ht
      obtain ⟨d', e, ho, hm', -⟩ := ht
      cases e
      rw [set_text.1 hm'] at hm
      simp at hm
    | database db remap strategy merge =>
      rw [e'] at ht
      obtain ⟨d', e, -, -, hr', -⟩ := ht
      cases e
      obtain ⟨b, -, d', e, ho, -⟩ := list_mem (unset_some hr' hr) hl
      cases e; exact ho

/-- C71, for the sections `planner` and `sampler` other than filters and a database as output: with a key that is not
known there the configuration is refused, whatever else it says.  (Missing: the other sections, see
`c71_misspelt_ignored`.) -/
theorem c71_misspelt_partial {keys : List Str} {d : Items} {k : Str} (hs : Strict (mergeFiles files) keys d)
    (hk : k ∈ dkeys d) (hn : k ∉ keys) : ¬ ∃ c, getConfig L K files = .ok c :=
  fun ⟨_, h⟩ => hn (c71_only (c71_config.1 h) hs k hk)

/-- C71: what the planner relies on holds of every accepted configuration. -/
theorem c71_planner (h : getConfig L K files = .ok c) {P : PlannerConfig} (hP : c.planner = some P) :
    (∀ x ∈ P.extraFks, x.Valid) ∧ LiteralConfig K.float P := by
  obtain ⟨top, -, -, -, hp, -⟩ := c71_config.1 h
  rw [hP] at hp
  rcases hp with ⟨-, h⟩ | ⟨y, -, hy⟩
  · cases h
  obtain ⟨d, rfl, -, -, ht, hc, -, -, -, he, -⟩ := hy
  have lit : ∀ {v : Val} {y : Yaml}, IsLiteral K.float v y → Literal K.float v := by
    intro v y h
    cases v with
    | null => exact h
    | int i => trivial
    | str s => trivial
    | other n => obtain ⟨q, hq, -⟩ := h; exact ⟨q, hq⟩
  have lof : ∀ {α : Type} {Q : α → Yaml → Prop} {l : List α} {y : Yaml}, IsList Q l y → ∀ a ∈ l, ∃ y', Q a y' := by
    rintro α Q l y ⟨ys, rfl, h⟩
    induction h with
    | nil => intro a ha; cases ha
    | cons h1 _ ih =>
      intro a ha
      rcases List.mem_cons.1 ha with rfl | ha
      · exact ⟨_, h1⟩
      · exact ih a ha
  have dof : ∀ {α : Type} {Q : α → Yaml → Prop} {l : Dict Str α} {y : Yaml}, IsDict Q l y → ∀ k a, (k, a) ∈ l → ∃ y', Q a y' := by
    rintro α Q l y ⟨ys, rfl, h⟩
    induction h with
    | nil => intro k a ha; cases ha
    | cons h1 _ ih =>
      intro k a ha
      rcases List.mem_cons.1 ha with rfl | ha
      · exact ⟨_, h1.2⟩
      · exact ih k a ha
  refine ⟨fun x hx => ?_, fun n cs hn x hx => ?_, fun n x hn col vs hv v hm => ?_⟩
  · rcases he with ⟨-, e⟩ | ⟨y, -, hy⟩
    · rw [e] at hx; cases hx
    · obtain ⟨_, _, -, -, -, -, -, -, h5, h6, h7⟩ := lof hy x hx
      exact ⟨List.length_pos_iff.1 h5, h6.symm, h7⟩
  · rcases hc with ⟨-, e⟩ | ⟨y, -, hy⟩
    · rw [e] at hn; cases hn
    · obtain ⟨_, h1⟩ := dof hy n cs (dget_some_mem hn)
      obtain ⟨_, _, -, -, -, -, _, -, h2⟩ := lof h1 x hx
      exact lit h2
  · obtain ⟨y, -, hy⟩ := ht
    obtain ⟨_, _, -, -, -, -, -, -, h1, -⟩ := dof hy n x (dget_some_mem hn)
    rcases h1 with ⟨-, e⟩ | ⟨y, -, hy⟩
    · rw [e] at hv; cases hv
    · obtain ⟨_, h2⟩ := dof hy col vs hv
      obtain ⟨_, h3⟩ := lof h2 v hm
      exact lit h3

/-- C71: the plan made for an accepted configuration can be written to a file, and from every file written for it the
command `sample` reads the same plan. -/
theorem c71_plan (h : getConfig L K files = .ok c) {P : PlannerConfig} (hP : c.planner = some P)
    {fnmatch : Str → Str → Bool} {db : Dict Str TableMeta} (hdb : DbOK db) (htg : [] ∉ dkeys P.targets) {p : Plan}
    (hp : plan fnmatch db P = .ok p) :
    (∃ file, DumpsPlan K.float p file) ∧
      ∀ file, DumpsPlan K.float p file → ∃ p', loadPlan K.float file = .ok p' ∧ SamePlan p p' := by
  obtain ⟨hex, hl⟩ := c71_planner h hP
  obtain ⟨T, hI, hpi, -⟩ := planned_from hdb hex htg hp
  obtain ⟨h1, h2⟩ := c49_planner hI hl hpi
  exact ⟨h1, fun file hf => let ⟨p', e, s, _⟩ := h2 file hf; ⟨p', e, s⟩⟩

/-- Words for filters the reference and the code agree on, other than Faker's and `multiplex`. -/
def filterWords : List Str := [str! "zero", str! "omit", str! "null", str! "constant", str! "random_int", str! "random_float",
  str! "random_string", str! "uuid", str! "plugin"]

theorem op_text {d : Items} {op : Str} {cols : List Str} (h : IsOp op cols d) :
    dget d (str! "op") = some (.leaf (.str op)) ∧ (dget d (str! "columns")).isSome := by
  obtain ⟨⟨v, h1, h2⟩, w, h3, -⟩ := h
  cases h2
  exact ⟨h1, by rw [h3]; rfl⟩

/-- C71: in an accepted configuration a filter is a `multiplex`, or it has one of the known words as `op` and a list of
columns. -/
theorem c71_filter (h : getConfig L K files = .ok c) {ts : Items} {t : Str} {l : List Yaml} {d : Items}
    (hf : valueAt (mergeFiles files) [str! "sampler", str! "filters"] = some (.map ts)) (ht : (t, .seq l) ∈ ts)
    (hd : .map d ∈ l) : dget d (str! "op") = some (.leaf (.str (str! "multiplex"))) ∨
      ∃ op, dget d (str! "op") = some (.leaf (.str op)) ∧ (op ∈ filterWords ∨ op ∈ fakeNames) ∧
        (dget d (str! "columns")).isSome := by
  have h := c71_config.1 h
  obtain ⟨top, e, -, -, -, hs⟩ := h
  rw [e] at hf
  obtain ⟨d1, e1, e2⟩ := value_keys hf
  obtain ⟨P, -, d', e', -, -, hfl, -⟩ := sampler_at hs e1
  cases e'
  obtain ⟨a, -, ha⟩ := dict_mem (unset_some hfl e2) ht
  obtain ⟨b, -, hb⟩ := list_mem ha hd
  have known : ∀ {op : Str} {cols : List Str}, IsOp op cols d → (op ∈ filterWords ∨ op ∈ fakeNames) →
      ∃ op, dget d (str! "op") = some (.leaf (.str op)) ∧ (op ∈ filterWords ∨ op ∈ fakeNames) ∧
        (dget d (str! "columns")).isSome := fun ho hw => ⟨_, (op_text ho).1, hw, (op_text ho).2⟩
  cases b with
  | multiplex column conds =>
    obtain ⟨d', e, ⟨v, h1, h2⟩, -⟩ := hb
    cases e; cases h2
    exact .inl h1
  | simple s =>
    obtain ⟨d', e, hb⟩ := hb
    cases e
    right
    cases s with
    | fake cols n unique =>
      obtain ⟨⟨op, h1, h2⟩, -⟩ := hb
      exact known h2 (.inr (List.mem_of_getElem? h1))
    | zero => exact known hb (.inl (by decide))
    | «omit» => exact known hb (.inl (by decide))
    | null => exact known hb (.inl (by decide))
    | uuid => exact known hb (.inl (by decide))
    | constant => exact known hb.1 (.inl (by decide))
    | randomInt => exact known hb.1 (.inl (by decide))
    | randomFloat => exact known hb.1 (.inl (by decide))
    | randomString => exact known hb.1 (.inl (by decide))
    | plugin => exact known hb.1 (.inl (by decide))

/-- C71: the reference documents a filter `random_uuid` (`subsetter.example.yaml:237-239`); a configuration with one is
refused. -/
theorem c71_random_uuid {ts : Items} {t : Str} {l : List Yaml} {d : Items}
    (hf : valueAt (mergeFiles files) [str! "sampler", str! "filters"] = some (.map ts)) (ht : (t, .seq l) ∈ ts)
    (hd : .map d ∈ l) (ho : dget d (str! "op") = some (.leaf (.str (str! "random_uuid")))) :
    ¬ ∃ c, getConfig L K files = .ok c := by
  rintro ⟨c, h⟩
  rcases c71_filter h hf ht hd with h1 | ⟨op, h1, h2, -⟩
  · rw [ho] at h1; simp at h1
  · rw [ho] at h1
    cases h1
    revert h2; decide

/-! ### Examples -/

def gxStr (s : Str) : Yaml := .leaf (.str s)

/-- Two files: the second has the password and another dialect. -/
def gxBase : Yaml := .map [
  (str! "source", .map [(str! "dialect", gxStr (str! "mysql")), (str! "host", gxStr (str! "db"))]),
  (str! "planner", .map [
    (str! "select", .seq [gxStr (str! "s.*")]),
    (str! "targets", .map [(str! "s.users", .map [(str! "percent", .leaf (.int 5)), (str! "in", .map [
      (str! "id", .seq [.leaf (.int 1), .leaf (.bool true)])])])]),
    (str! "extra_fks", .seq [.map [(str! "src_table", gxStr (str! "s.a")), (str! "src_columns", .seq [gxStr (str! "x")]),
      (str! "dst_table", gxStr (str! "s.b")), (str! "dst_columns", .seq [gxStr (str! "id")])]])]),
  (str! "sampler", .map [
    (str! "output", .map [(str! "mode", gxStr (str! "database")), (str! "dialect", gxStr (str! "sqlite")),
      (str! "conflict_strategy", gxStr (str! "skip"))]),
    (str! "filters", .map [(str! "s.users", .seq [.map [(str! "op", gxStr (str! "random_int")),
      (str! "columns", .seq [gxStr (str! "age")]), (str! "low", .leaf (.int 1)), (str! "high", .leaf (.int 9))]])])])]

def gxLocal : Yaml := .map [(str! "source", .map [(str! "dialect", gxStr (str! "postgres")), (str! "password", gxStr (str! "pw"))])]

/-- What they say. -/
def gxConfig : Config where
  source := { dialect := some .postgres, host := some (str! "db"), port := none, database := none, username := none, password := some (str! "pw"), sessionSqls := [], sqliteDatabases := [], isolation := none, ssl := noSsl }
  planner := some { tableConstraints := [], select := [str! "s.*"], targets := [(str! "s.users", { all := false, percent := some 5, amount := none, like := [], in_ := [(str! "id", [.int 1, .int 1])], sql := none })], ignore := [], passthrough := [], ignoreFks := [], extraFks := [{ srcTable := str! "s.a", srcColumns := [str! "x"], dstTable := str! "s.b", dstColumns := [str! "id"] }], infer := .none, includeDependencies := true }
  sampler := some { output := .database { dialect := some .sqlite, host := none, port := none, database := none, username := none, password := none, sessionSqls := [], sqliteDatabases := [], isolation := none, ssl := noSsl } [] .skip false, filters := [(str! "s.users", [.simple (.randomInt [str! "age"] 1 9)])], mult := ⟨1, [], [], []⟩, infer := .none, compact := ⟨false, false, [], 1⟩ }

theorem gx_config (L : Lax) (K : Codes) : getConfig L K [gxBase, gxLocal] = .ok gxConfig := by rfl

/-- The theorems applied to the example. -/
example (L : Lax) (K : Codes) : IsConfig L K gxConfig (mergeFiles [gxBase, gxLocal]) := c71_config.1 (gx_config L K)

example (L : Lax) (K : Codes) : ∃ P, gxConfig.planner = some P ∧ P.extraFks.length = 1 ∧ (∀ x ∈ P.extraFks, x.Valid) ∧
    LiteralConfig K.float P := ⟨_, rfl, rfl, c71_planner (gx_config L K) rfl⟩

/-- A misspelt key of a target is found. -/
def gxMisspelt : Yaml := .map [(str! "planner", .map [(str! "targets", .map [(str! "s.users", .map [(str! "precent", .leaf (.int 5))])])])]

example (L : Lax) (K : Codes) : ¬ ∃ c, getConfig L K [gxBase, gxLocal, gxMisspelt] = .ok c :=
  c71_misspelt_partial (k := str! "precent") (.target (t := str! "s.users") rfl List.mem_cons_self) (by decide) (by decide)

/-- Misspelt keys of connections, filters and an output to a database are ignored: the strategy for conflicts is
`error`, nothing is merged, TLS is not required, and values of the filter are not unique. -/
def gxIgnored : Yaml := .map [
  (str! "source", .map [(str! "ssl", .map [(str! "required", .leaf (.bool true))])]),
  (str! "sampler", .map [
    (str! "output", .map [(str! "mode", gxStr (str! "database")), (str! "dialect", gxStr (str! "sqlite")),
      (str! "conflict_stategy", gxStr (str! "skip")), (str! "merged", .leaf (.bool true))]),
    (str! "filters", .map [(str! "s.users", .seq [.map [(str! "op", gxStr (str! "fake_email")),
      (str! "columns", .seq [gxStr (str! "mail")]), (str! "uniq", .leaf (.bool true))]])])])]

theorem c71_misspelt_ignored (L : Lax) (K : Codes) : ∃ c x, getConfig L K [gxIgnored] = .ok c ∧ c.source = noDb ∧
    c.sampler = some x ∧ (∃ db, x.output = .database db [] .error false) ∧
    x.filters = [(str! "s.users", [.simple (.fake [str! "mail"] 0 false)])] :=
  ⟨_, _, rfl, rfl, rfl, ⟨_, rfl⟩, rfl⟩

/-- The filters of the reference for `random_uuid` and `random_string`. -/
def gxReference : Yaml := .map [(str! "sampler", .map [(str! "filters", .map [(str! "db1.users", .seq [
  .map [(str! "op", gxStr (str! "random_uuid")), (str! "columns", .seq [gxStr (str! "gizmo_uuid")])]])])])]

def gxReference' : Yaml := .map [(str! "sampler", .map [(str! "filters", .map [(str! "db1.users", .seq [
  .map [(str! "op", gxStr (str! "random_string")), (str! "alphabet", gxStr (str! "hex")), (str! "length", .leaf (.int 16))]])])])]

/-- Neither is accepted: the word is `uuid`, and columns are missing. -/
theorem c71_reference_refused (L : Lax) (K : Codes) :
    (¬ ∃ c, getConfig L K [gxReference] = .ok c) ∧ ¬ ∃ c, getConfig L K [gxReference'] = .ok c := by
  constructor
  · exact c71_random_uuid (t := str! "db1.users") rfl List.mem_cons_self List.mem_cons_self rfl
  · rintro ⟨c, h⟩
    rcases c71_filter h (t := str! "db1.users") rfl List.mem_cons_self List.mem_cons_self with h1 | ⟨op, -, -, h3⟩
    · simp [gxStr, dget] at h1
    · cases h3

end Subsetter.Props
