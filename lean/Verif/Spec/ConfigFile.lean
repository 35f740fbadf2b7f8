import Verif.Model.ConfigFile
import Verif.Spec.Config

/-
Reference of the configuration file: which documents are configurations, and what they say.

`Set' d k P`: the mapping has a value under `k`, and it satisfies `P`.  `Unset d k a P`: it has such a value, or it has
none and `a` holds.
-/
namespace Subsetter.Spec
open Subsetter

/-! ### Values -/

def IsText (s : Str) (y : Yaml) : Prop := y = .leaf (.str s)

def IsBool (L : Lax) (b : Bool) (y : Yaml) : Prop :=
  y = .leaf (.bool b) ∨ ∃ s, y = .leaf s ∧ s ≠ .null ∧ (∀ b', s ≠ .bool b') ∧ L.bool s = some b

def IsInt (L : Lax) (i : Int) (y : Yaml) : Prop :=
  y = .leaf (.int i) ∨ ∃ s, y = .leaf s ∧ s ≠ .null ∧ (∀ i', s ≠ .int i') ∧ L.int s = some i

def IsFloat (L : Lax) (q : Rat) (y : Yaml) : Prop :=
  y = .leaf (.float q) ∨ (∃ i : Int, y = .leaf (.int i) ∧ q = i) ∨
    ∃ s, y = .leaf s ∧ s ≠ .null ∧ (∀ q', s ≠ .float q') ∧ (∀ i, s ≠ .int i) ∧ L.float s = some q

/-- Literals in SQL: a boolean is a number. -/
def IsLiteral (code : Rat → Nat) : Val → Yaml → Prop
  | .null, _ => False
  | .int i, y => y = .leaf (.int i) ∨ ∃ b : Bool, y = .leaf (.bool b) ∧ i = if b then 1 else 0
  | .str s, y => y = .leaf (.str s)
  | .other n, y => ∃ q, code q = n ∧ y = .leaf (.float q)

def IsList {α : Type} (P : α → Yaml → Prop) (l : List α) (y : Yaml) : Prop := ∃ ys, y = .seq ys ∧ List.Forall₂ P l ys

def IsDict {α : Type} (P : α → Yaml → Prop) (l : Dict Str α) (y : Yaml) : Prop :=
  ∃ d, y = .map d ∧ List.Forall₂ (fun x z => x.1 = z.1 ∧ P x.2 z.2) l d

def IsOpt {α : Type} (P : α → Yaml → Prop) : Option α → Yaml → Prop
  | none, y => y = .leaf .null
  | some a, y => P a y

/-- One of some words. -/
def IsWord {α : Type} (name : α → Str) (a : α) (y : Yaml) : Prop := y = .leaf (.str (name a))

def inferName : InferMode → Str
  | .none => str! "none"
  | .schema => str! "schema"
  | .all => str! "all"

def dialectName : DbDialect → Str
  | .mysql => str! "mysql"
  | .postgres => str! "postgres"
  | .sqlite => str! "sqlite"

def isolationName : Isolation → Str
  | .readCommitted => str! "READ COMMITTED"
  | .readUncommitted => str! "READ UNCOMMITTED"
  | .repeatableRead => str! "REPEATABLE READ"
  | .serializable => str! "SERIALIZABLE"

def verifyName : Verify → Str
  | .none => str! "none"
  | .cert => str! "cert"
  | .identity => str! "identity"

def strategyName : Strategy → Str
  | .error => str! "error"
  | .replace => str! "replace"
  | .skip => str! "skip"

def alphabetName : Alphabet → Str
  | .alnum => str! "alnum"
  | .hex => str! "hex"
  | .hexLower => str! "hex_lower"
  | .hexUpper => str! "hex_upper"
  | .digit => str! "digit"
  | .alpha => str! "alpha"
  | .alphaLower => str! "alpha_lower"
  | .alphaUpper => str! "alpha_upper"
  | .custom => str! "custom"

def condOpName : CondOp → Str
  | .is => str! "is"
  | .isNot => str! "is not"
  | .in_ => str! "in"
  | .notIn => str! "not in"
  | .eq => str! "="
  | .ne => str! "!="
  | .lt => str! "<"
  | .gt => str! ">"
  | .le => str! "<="
  | .ge => str! ">="
  | .matches => str! "matches"

/-- Names of the Faker filters. -/
def fakeNames : List Str :=
  [str! "fake_email", str! "fake_first_name", str! "fake_last_name", str! "fake_name", str! "fake_phone_number",
   str! "fake_license_plate", str! "fake_vin", str! "fake_address", str! "fake_building_number", str! "fake_city",
   str! "fake_state", str! "fake_state_abbr", str! "fake_country", str! "fake_country_code", str! "fake_postal_code",
   str! "fake_street_address", str! "fake_street_name", str! "fake_latitude", str! "fake_longitude"]

/-! ### Sections -/

/-- The mapping has no other keys. -/
def Only (keys : List Str) (d : Items) : Prop := ∀ k ∈ dkeys d, k ∈ keys

def targetKeys : List Str := [str! "all", str! "percent", str! "amount", str! "like", str! "in", str! "sql"]

def IsTarget (L : Lax) (code : Rat → Nat) (x : TargetConfig) (y : Yaml) : Prop :=
  ∃ d, y = .map d ∧ Only targetKeys d ∧ Unset d (str! "all") (x.all = false) (IsBool L x.all) ∧
    Unset d (str! "percent") (x.percent = none) (IsOpt (IsFloat L) x.percent) ∧
    Unset d (str! "amount") (x.amount = none) (IsOpt (fun n : Nat => IsInt L n) x.amount) ∧
    Unset d (str! "like") (x.like = []) (IsDict (IsList IsText) x.like) ∧
    Unset d (str! "in") (x.in_ = []) (IsDict (IsList (IsLiteral code)) x.in_) ∧
    Unset d (str! "sql") (x.sql = none) (IsOpt IsText x.sql)

def ignoreFkKeys : List Str := [str! "src_table", str! "dst_table"]

def IsIgnoreFk (x : Str × Str) (y : Yaml) : Prop :=
  ∃ d, y = .map d ∧ Only ignoreFkKeys d ∧ Set' d (str! "src_table") (IsText x.1) ∧ Set' d (str! "dst_table") (IsText x.2)

def extraFkKeys : List Str := [str! "src_table", str! "src_columns", str! "dst_table", str! "dst_columns"]

/-- Columns are given in pairs, none twice. -/
def IsExtraFk (x : ExtraFk) (y : Yaml) : Prop :=
  ∃ d, y = .map d ∧ Only extraFkKeys d ∧ Set' d (str! "src_table") (IsText x.srcTable) ∧
    Set' d (str! "src_columns") (IsList IsText x.srcColumns) ∧ Set' d (str! "dst_table") (IsText x.dstTable) ∧
    Set' d (str! "dst_columns") (IsList IsText x.dstColumns) ∧
    0 < x.srcColumns.length ∧ x.srcColumns.length = x.dstColumns.length ∧ x.srcColumns.Nodup ∧ x.dstColumns.Nodup

def constraintKeys : List Str := [str! "column", str! "operator", str! "value"]

def IsConstraint (code : Rat → Nat) (x : ColumnConstraint) (y : Yaml) : Prop :=
  ∃ d, y = .map d ∧ Only constraintKeys d ∧ Set' d (str! "column") (IsText x.column) ∧
    Set' d (str! "operator") (DumpsOp x.operator) ∧ Set' d (str! "value") (IsLiteral code x.value)

def plannerKeys : List Str :=
  [str! "select", str! "targets", str! "table_constraints", str! "ignore", str! "passthrough", str! "ignore_fks",
   str! "extra_fks", str! "infer_foreign_keys", str! "include_dependencies"]

def IsPlanner (L : Lax) (code : Rat → Nat) (P : PlannerConfig) (y : Yaml) : Prop :=
  ∃ d, y = .map d ∧ Only plannerKeys d ∧ Set' d (str! "select") (IsList IsText P.select) ∧
    Set' d (str! "targets") (IsDict (IsTarget L code) P.targets) ∧
    Unset d (str! "table_constraints") (P.tableConstraints = []) (IsDict (IsList (IsConstraint code)) P.tableConstraints) ∧
    Unset d (str! "ignore") (P.ignore = []) (IsList IsText P.ignore) ∧
    Unset d (str! "passthrough") (P.passthrough = []) (IsList IsText P.passthrough) ∧
    Unset d (str! "ignore_fks") (P.ignoreFks = []) (IsList IsIgnoreFk P.ignoreFks) ∧
    Unset d (str! "extra_fks") (P.extraFks = []) (IsList IsExtraFk P.extraFks) ∧
    Unset d (str! "infer_foreign_keys") (P.infer = .none) (IsWord inferName P.infer) ∧
    Unset d (str! "include_dependencies") (P.includeDependencies = true) (IsBool L P.includeDependencies)

def IsClient (x : Option Str × Option Str) (y : Yaml) : Prop :=
  ∃ d, y = .map d ∧ Unset d (str! "cert") (x.1 = none) (IsOpt IsText x.1) ∧
    Unset d (str! "key") (x.2 = none) (IsOpt IsText x.2)

def IsServer (x : Option Str × Option Verify) (y : Yaml) : Prop :=
  ∃ d, y = .map d ∧ Unset d (str! "rootcert") (x.1 = none) (IsOpt IsText x.1) ∧
    Unset d (str! "verify") (x.2 = none) (fun y => ∃ v, x.2 = some v ∧ IsWord verifyName v y)

def IsSsl (L : Lax) (x : SslConfig) (y : Yaml) : Prop :=
  ∃ d, y = .map d ∧ Unset d (str! "require") (x.require = none) (fun y => ∃ r, x.require = some r ∧ IsOpt (IsBool L) r y) ∧
    Unset d (str! "client") (x.cert = none ∧ x.key = none) (IsClient (x.cert, x.key)) ∧
    Unset d (str! "server") (x.rootcert = none ∧ x.verify = none) (IsServer (x.rootcert, x.verify))

/-- A connection, whatever else the mapping has. -/
def IsDb (L : Lax) (x : DbConfig) (d : Items) : Prop :=
  Unset d (str! "dialect") (x.dialect = none) (IsOpt (IsWord dialectName) x.dialect) ∧
  Unset d (str! "host") (x.host = none) (IsOpt IsText x.host) ∧
  Unset d (str! "port") (x.port = none) (IsOpt (IsInt L) x.port) ∧
  Unset d (str! "database") (x.database = none) (IsOpt IsText x.database) ∧
  Unset d (str! "username") (x.username = none) (IsOpt IsText x.username) ∧
  Unset d (str! "password") (x.password = none) (IsOpt IsText x.password) ∧
  Unset d (str! "session_sqls") (x.sessionSqls = []) (IsList IsText x.sessionSqls) ∧
  Unset d (str! "sqlite_databases") (x.sqliteDatabases = [])
    (fun y => (y = .leaf .null ∧ x.sqliteDatabases = []) ∨ IsDict IsText x.sqliteDatabases y) ∧
  Unset d (str! "isolation_level") (x.isolation = none) (IsOpt (IsWord isolationName) x.isolation) ∧
  Unset d (str! "ssl") (x.ssl = ⟨none, none, none, none, none⟩) (IsSsl L x.ssl) ∧
  Unset d (str! "echo") True (fun y => ∃ b, IsBool L b y)

def remapKeys : List Str := [str! "search", str! "replace"]

def IsRemap (x : Str × Str) (y : Yaml) : Prop :=
  ∃ d, y = .map d ∧ Only remapKeys d ∧ Set' d (str! "search") (IsText x.1) ∧ Set' d (str! "replace") (IsText x.2)

def directoryKeys : List Str := [str! "mode", str! "directory"]

def IsOutput (L : Lax) : OutputConfig → Yaml → Prop
  | .directory dir, y => ∃ d, y = .map d ∧ Only directoryKeys d ∧ Set' d (str! "mode") (IsText (str! "directory")) ∧
      Set' d (str! "directory") (IsText dir)
  | .database db remap strategy merge, y => ∃ d, y = .map d ∧ Set' d (str! "mode") (IsText (str! "database")) ∧ IsDb L db d ∧
      Unset d (str! "remap") (remap = []) (IsList IsRemap remap) ∧
      Unset d (str! "conflict_strategy") (strategy = .error) (IsWord strategyName strategy) ∧
      Unset d (str! "merge") (merge = false) (IsBool L merge)

def IsConstant (code : Rat → Nat) : Val → Yaml → Prop
  | .null, y => y = .leaf .null
  | .int i, y => y = .leaf (.int i)
  | .str s, y => y = .leaf (.str s)
  | .other n, y => ∃ q, code q = n ∧ (y = .leaf (.float q) ∨ ∃ b : Bool, y = .leaf (.bool b) ∧ q = if b then 1 else 0)

/-- A filter with columns. -/
def IsOp (op : Str) (cols : List Str) (d : Items) : Prop :=
  Set' d (str! "op") (IsText op) ∧ Set' d (str! "columns") (IsList IsText cols)

def IsSimple (L : Lax) (K : Codes) : SimpleCfg Val → Items → Prop
  | .zero cols, d => IsOp (str! "zero") cols d
  | .omit cols, d => IsOp (str! "omit") cols d
  | .null cols, d => IsOp (str! "null") cols d
  | .constant cols vals, d => IsOp (str! "constant") cols d ∧ Set' d (str! "values") (IsList (IsConstant K.float) vals)
  | .randomInt cols low high, d => IsOp (str! "random_int") cols d ∧ Set' d (str! "low") (IsInt L low) ∧
      Set' d (str! "high") (IsInt L high)
  | .randomFloat cols low high, d => IsOp (str! "random_float") cols d ∧
      ∃ l h, low = K.float l ∧ high = K.float h ∧ Set' d (str! "low") (IsFloat L l) ∧ Set' d (str! "high") (IsFloat L h)
  | .randomString cols length alphabet custom, d => IsOp (str! "random_string") cols d ∧
      Set' d (str! "length") (IsInt L length) ∧ Unset d (str! "alphabet") (alphabet = .alnum) (IsWord alphabetName alphabet) ∧
      Unset d (str! "custom_alphabet") (custom = none) (IsOpt IsText custom)
  | .uuid cols, d => IsOp (str! "uuid") cols d
  | .fake cols n unique, d => (∃ op, fakeNames[n]? = some op ∧ IsOp op cols d) ∧
      Unset d (str! "unique") (unique = false) (IsBool L unique)
  | .plugin cols p, d => IsOp (str! "plugin") cols d ∧ ∃ m c kw, p = K.plugin m c kw ∧ Set' d (str! "module") (IsText m) ∧
      Set' d (str! "class") (IsText c) ∧ Unset d (str! "kwargs") (kw = []) (fun y => y = .map kw)

def IsScalar : PVal → Yaml → Prop
  | .none, y => y = .leaf .null
  | .bool _, _ => False
  | .int i, y => y = .leaf (.int i) ∨ ∃ b : Bool, y = .leaf (.bool b) ∧ i = if b then 1 else 0
  | .num q, y => y = .leaf (.float q)
  | .str s, y => y = .leaf (.str s)
  | .other _, _ => False

def IsCondVal : CondVal → Yaml → Prop
  | .one v, y => IsScalar v y
  | .many vs, y => IsList IsScalar vs y

def IsCondition (L : Lax) (K : Codes) (x : Nat × SimpleCfg Val) (y : Yaml) : Prop :=
  ∃ d op v, y = .map d ∧ x.1 = K.cond ⟨op, v⟩ ∧ Set' d (str! "op") (IsWord condOpName op) ∧
    Set' d (str! "value") (IsCondVal v) ∧ Set' d (str! "apply") (fun y => ∃ d', y = .map d' ∧ IsSimple L K x.2 d')

def IsFilter (L : Lax) (K : Codes) : FilterCfg Val → Yaml → Prop
  | .simple c, y => ∃ d, y = .map d ∧ IsSimple L K c d
  | .multiplex column conds, y => ∃ d, y = .map d ∧ Set' d (str! "op") (IsText (str! "multiplex")) ∧
      Set' d (str! "column") (IsText column) ∧ Set' d (str! "conditions") (IsList (IsCondition L K) conds)

def multKeys : List Str :=
  [str! "multiplier", str! "ignore_tables", str! "extra_columns", str! "ignore_primary_key_columns"]

def IsMult (L : Lax) (x : MultConfig) (y : Yaml) : Prop :=
  ∃ d, y = .map d ∧ Only multKeys d ∧ Unset d (str! "multiplier") (x.multiplier = 1) (IsInt L x.multiplier) ∧
    Unset d (str! "ignore_tables") (x.ignoreTables = []) (IsList IsText x.ignoreTables) ∧
    Unset d (str! "extra_columns") (x.extraColumns = []) (IsDict (IsList IsText) x.extraColumns) ∧
    Unset d (str! "ignore_primary_key_columns") (x.ignorePk = []) (IsDict (IsList IsText) x.ignorePk)

def compactKeys : List Str := [str! "primary_keys", str! "auto_increment_keys", str! "columns", str! "start_key"]

def IsCompact (L : Lax) (x : CompactConfig) (y : Yaml) : Prop :=
  ∃ d, y = .map d ∧ Only compactKeys d ∧ Unset d (str! "primary_keys") (x.primaryKeys = false) (IsBool L x.primaryKeys) ∧
    Unset d (str! "auto_increment_keys") (x.autoIncrementKeys = false) (IsBool L x.autoIncrementKeys) ∧
    Unset d (str! "columns") (x.columns = []) (IsDict (IsList IsText) x.columns) ∧
    Unset d (str! "start_key") (x.startKey = 1) (IsInt L x.startKey)

def samplerKeys : List Str := [str! "output", str! "filters", str! "multiplicity", str! "infer_foreign_keys", str! "compact"]

def IsSampler (L : Lax) (K : Codes) (x : SamplerConfig) (y : Yaml) : Prop :=
  ∃ d, y = .map d ∧ Only samplerKeys d ∧
    Unset d (str! "output") (x.output = .directory (str! "output")) (IsOutput L x.output) ∧
    Unset d (str! "filters") (x.filters = []) (IsDict (IsList (IsFilter L K)) x.filters) ∧
    Unset d (str! "multiplicity") (x.mult = ⟨1, [], [], []⟩) (IsMult L x.mult) ∧
    Unset d (str! "infer_foreign_keys") (x.infer = .none) (IsWord inferName x.infer) ∧
    Unset d (str! "compact") (x.compact = ⟨false, false, [], 1⟩) (IsCompact L x.compact)

def topKeys : List Str := [str! "source", str! "planner", str! "sampler"]

/-- The document is a configuration and says `c`. -/
def IsConfig (L : Lax) (K : Codes) (c : Config) (y : Yaml) : Prop :=
  ∃ d, y = .map d ∧ Only topKeys d ∧
    Unset d (str! "source") (c.source = ⟨none, none, none, none, none, none, [], [], none, ⟨none, none, none, none, none⟩⟩)
      (fun y => ∃ d', y = .map d' ∧ IsDb L c.source d') ∧
    Unset d (str! "planner") (c.planner = none) (IsOpt (IsPlanner L K.float) c.planner) ∧
    Unset d (str! "sampler") (c.sampler = none) (IsOpt (IsSampler L K) c.sampler)

/-! ### Misspelt keys -/

/-- Mappings of a document in which every key must be known, with the known keys. -/
inductive Strict (y : Yaml) : List Str → Items → Prop
  | top {d} : valueAt y [] = some (.map d) → Strict y topKeys d
  | planner {d} : valueAt y [str! "planner"] = some (.map d) → Strict y plannerKeys d
  | target {ts t d} : valueAt y [str! "planner", str! "targets"] = some (.map ts) → (t, .map d) ∈ ts →
      Strict y targetKeys d
  | constraint {ts t l d} : valueAt y [str! "planner", str! "table_constraints"] = some (.map ts) → (t, .seq l) ∈ ts →
      .map d ∈ l → Strict y constraintKeys d
  | ignoreFk {l d} : valueAt y [str! "planner", str! "ignore_fks"] = some (.seq l) → .map d ∈ l → Strict y ignoreFkKeys d
  | extraFk {l d} : valueAt y [str! "planner", str! "extra_fks"] = some (.seq l) → .map d ∈ l → Strict y extraFkKeys d
  | sampler {d} : valueAt y [str! "sampler"] = some (.map d) → Strict y samplerKeys d
  | mult {d} : valueAt y [str! "sampler", str! "multiplicity"] = some (.map d) → Strict y multKeys d
  | compact {d} : valueAt y [str! "sampler", str! "compact"] = some (.map d) → Strict y compactKeys d
  | directory {d} : valueAt y [str! "sampler", str! "output"] = some (.map d) →
      dget d (str! "mode") = some (.leaf (.str (str! "directory"))) → Strict y directoryKeys d
  | remap {o l d} : valueAt y [str! "sampler", str! "output"] = some (.map o) →
      dget o (str! "mode") = some (.leaf (.str (str! "database"))) → dget o (str! "remap") = some (.seq l) → .map d ∈ l →
      Strict y remapKeys d

end Subsetter.Spec
