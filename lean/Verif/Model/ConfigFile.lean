import Verif.Model.PlanFile
import Verif.Model.Planner
import Verif.Model.Connection
import Verif.Model.Match
import Verif.Model.Run

/-
Model of the validation of the configuration: `SubsetterConfig.model_validate` (`/repo/subsetter/__main__.py:131`)
with the pydantic models of `/repo/subsetter/config_model.py`, `/repo/subsetter/common.py:87-167` and
`/repo/subsetter/filters.py:129-649`.

`populate_by_name` is not set in these models: a field with an alias is only found under its alias. What pydantic
makes of scalars of another type than the field's (`"yes"` for a boolean, `1.0` for an integer) is a parameter; null
is never converted.
-/
namespace Subsetter

/-- Conversions of pydantic's lax mode for scalars that do not have the type of the field.
`config_model.py:10-11`, `__main__.py:131`. -/
structure Lax where
  bool : Scalar → Option Bool
  int : Scalar → Option Int
  float : Scalar → Option Rat

/-- Numbers for what is opaque in the model: values of columns that are floats, conditions and plugins.
`filters.py:330,477-479,560`. -/
structure Codes where
  float : Rat → Nat
  cond : Condition → Nat
  plugin : Str → Str → Items → Nat

/-- A scalar that cannot be converted is a validation error.  `__main__.py:131-138`. -/
def orType {α : Type} : Option α → Except LoadErr α
  | none => .error .type
  | some a => .ok a

/-- A field of type `bool`.  `config_model.py:16,59,78,95-96`, `common.py:97,167`. -/
def readBool (L : Lax) : Yaml → Except LoadErr Bool
  | .leaf (.bool b) => .ok b
  | .leaf .null => .error .type
  | .leaf s => orType (L.bool s)
  | _ => .error .type

/-- A field of type `int`.
`config_model.py:89,98`, `common.py:159`, `filters.py:207-208,294`. -/
def readInt (L : Lax) : Yaml → Except LoadErr Int
  | .leaf (.int i) => .ok i
  | .leaf .null => .error .type
  | .leaf s => orType (L.int s)
  | _ => .error .type

/-- The field `amount` when not null.  Negative amounts are not modelled.
`config_model.py:18`. -/
def readNat (L : Lax) (y : Yaml) : Except LoadErr Nat := do
  let i ← readInt L y
  if 0 ≤ i then .ok i.toNat else .error .type

/-- A field of type `float`.  `config_model.py:17`, `filters.py:239-240`. -/
def readFloat (L : Lax) : Yaml → Except LoadErr Rat
  | .leaf (.float q) => .ok q
  | .leaf (.int i) => .ok i
  | .leaf .null => .error .type
  | .leaf s => orType (L.float s)
  | _ => .error .type

/-- A field of type `Literal[...]`.
`config_model.py:58,63,67,75,103`, `common.py:8-12,79-84,95`. -/
def readLiteral {α : Type} (table : List (Str × α)) : Yaml → Except LoadErr α
  | .leaf (.str s) => orType (dget table s)
  | _ => .error .type

/-- `extra="forbid"` (`config_model.py:10-11`). -/
def forbid (keys : List Str) (d : Items) : Except LoadErr Unit :=
  if ∀ k ∈ dkeys d, k ∈ keys then .ok () else .error .extra

/-! ### The section `planner` -/

/-- `TargetConfig` (`config_model.py:15-21`). -/
def readTarget (L : Lax) (code : Rat → Nat) (y : Yaml) : Except LoadErr TargetConfig := do
  let d ← asMap y
  forbid [str! "all", str! "percent", str! "amount", str! "like", str! "in", str! "sql"] d
  let all ← want false (readBool L) (dget d (str! "all"))
  let percent ← want none (asOpt (readFloat L)) (dget d (str! "percent"))
  let amount ← want none (asOpt (readNat L)) (dget d (str! "amount"))
  let like ← want [] (asDict (asList asStr)) (dget d (str! "like"))
  let in_ ← want [] (asDict (asList (asVal code))) (dget d (str! "in"))
  let sql ← want none (asOpt asStr) (dget d (str! "sql"))
  .ok { all := all, percent := percent, amount := amount, like := like, in_ := in_, sql := sql }

/-- `IgnoreFKConfig` (`config_model.py:23-25`). -/
def readIgnoreFk (y : Yaml) : Except LoadErr (Str × Str) := do
  let d ← asMap y
  forbid [str! "src_table", str! "dst_table"] d
  let src ← need asStr (dget d (str! "src_table"))
  let dst ← need asStr (dget d (str! "dst_table"))
  .ok (src, dst)

instance (x : ExtraFk) : Decidable x.Valid := by unfold ExtraFk.Valid; infer_instance

/-- `ExtraFKConfig` with `check_columns_match` (`config_model.py:27-44`). -/
def readExtraFk (y : Yaml) : Except LoadErr ExtraFk := do
  let d ← asMap y
  forbid [str! "src_table", str! "src_columns", str! "dst_table", str! "dst_columns"] d
  let src ← need asStr (dget d (str! "src_table"))
  let srcCols ← need (asList asStr) (dget d (str! "src_columns"))
  let dst ← need asStr (dget d (str! "dst_table"))
  let dstCols ← need (asList asStr) (dget d (str! "dst_columns"))
  if ExtraFk.Valid { srcTable := src, srcColumns := srcCols, dstTable := dst, dstColumns := dstCols } then
    .ok { srcTable := src, srcColumns := srcCols, dstTable := dst, dstColumns := dstCols }
  else .error .type

/-- `ColumnConstraint` (`config_model.py:46-49`).  A list as value is accepted by the code, but then planning the table
fails (`planner.py:361`); it is not accepted here. -/
def readConstraint (code : Rat → Nat) (y : Yaml) : Except LoadErr ColumnConstraint := do
  let d ← asMap y
  forbid [str! "column", str! "operator", str! "value"] d
  let column ← need asStr (dget d (str! "column"))
  let operator ← need asOp (dget d (str! "operator"))
  let value ← need (asVal code) (dget d (str! "value"))
  .ok { column := column, operator := operator, value := value }

/-- `infer_foreign_keys` (`config_model.py:58`). -/
def inferModes : List (Str × InferMode) := [(str! "none", .none), (str! "schema", .schema), (str! "all", .all)]

/-- `PlannerConfig` (`config_model.py:14-59`). -/
def readPlanner (L : Lax) (code : Rat → Nat) (y : Yaml) : Except LoadErr PlannerConfig := do
  let d ← asMap y
  forbid [str! "table_constraints", str! "select", str! "targets", str! "ignore", str! "passthrough", str! "ignore_fks",
    str! "extra_fks", str! "infer_foreign_keys", str! "include_dependencies"] d
  let constraints ← want [] (asDict (asList (readConstraint code))) (dget d (str! "table_constraints"))
  let select ← need (asList asStr) (dget d (str! "select"))
  let targets ← need (asDict (readTarget L code)) (dget d (str! "targets"))
  let ignore ← want [] (asList asStr) (dget d (str! "ignore"))
  let pass ← want [] (asList asStr) (dget d (str! "passthrough"))
  let ignoreFks ← want [] (asList readIgnoreFk) (dget d (str! "ignore_fks"))
  let extraFks ← want [] (asList readExtraFk) (dget d (str! "extra_fks"))
  let infer ← want .none (readLiteral inferModes) (dget d (str! "infer_foreign_keys"))
  let deps ← want true (readBool L) (dget d (str! "include_dependencies"))
  .ok { tableConstraints := constraints, select := select, targets := targets, ignore := ignore, passthrough := pass, ignoreFks := ignoreFks, extraFks := extraFks, infer := infer, includeDependencies := deps }

/-! ### Connections -/

/-- `DatabaseDialect` (`common.py:8-12`). -/
def dialects : List (Str × DbDialect) :=
  [(str! "mysql", .mysql), (str! "postgres", .postgres), (str! "sqlite", .sqlite)]

/-- `IsolationLevel` (`common.py:79-84`). -/
def isolations : List (Str × Isolation) :=
  [(str! "READ COMMITTED", .readCommitted), (str! "READ UNCOMMITTED", .readUncommitted),
   (str! "REPEATABLE READ", .repeatableRead), (str! "SERIALIZABLE", .serializable)]

/-- `SSLServerConfig.verify` (`common.py:95`). -/
def verifies : List (Str × Verify) := [(str! "none", .none), (str! "cert", .cert), (str! "identity", .identity)]

/-- A field that remembers whether it was set (`exclude_unset`).  `common.py:107-116`. -/
def seen {α : Type} (f : Yaml → Except LoadErr α) : Option Yaml → Except LoadErr (Option α) :=
  want none fun y => do
    let a ← f y
    .ok (some a)

/-- `SSLClientConfig` (`common.py:89-91`): certificate and key. -/
def readClient (y : Yaml) : Except LoadErr (Option Str × Option Str) := do
  let d ← asMap y
  let cert ← want none (asOpt asStr) (dget d (str! "cert"))
  let key ← want none (asOpt asStr) (dget d (str! "key"))
  .ok (cert, key)

/-- `SSLServerConfig` (`common.py:93-95`): root certificate and what to verify. -/
def readServer (y : Yaml) : Except LoadErr (Option Str × Option Verify) := do
  let d ← asMap y
  let rootcert ← want none (asOpt asStr) (dget d (str! "rootcert"))
  let verify ← seen (readLiteral verifies) (dget d (str! "verify"))
  .ok (rootcert, verify)

/-- `SSLConfig` (`common.py:88-99`); unknown keys are ignored. -/
def readSsl (L : Lax) (y : Yaml) : Except LoadErr SslConfig := do
  let d ← asMap y
  let require ← seen (asOpt (readBool L)) (dget d (str! "require"))
  let client ← want (none, none) readClient (dget d (str! "client"))
  let server ← want (none, none) readServer (dget d (str! "server"))
  .ok { require := require, verify := server.2, cert := client.1, key := client.2, rootcert := server.1 }

/-- `SSLConfig()`.  `common.py:166`. -/
def noSsl : SslConfig := { require := none, verify := none, cert := none, key := none, rootcert := none }

/-- `DatabaseConfig` (`common.py:87-167`) from the keys of a mapping; unknown keys are ignored.  `sqlite_databases` may
be null, with which connecting to SQLite raises an error; here it is the same as empty.  `echo` is checked only. -/
def readDbItems (L : Lax) (d : Items) : Except LoadErr DbConfig := do
  let dialect ← want none (asOpt (readLiteral dialects)) (dget d (str! "dialect"))
  let host ← want none (asOpt asStr) (dget d (str! "host"))
  let port ← want none (asOpt (readInt L)) (dget d (str! "port"))
  let database ← want none (asOpt asStr) (dget d (str! "database"))
  let username ← want none (asOpt asStr) (dget d (str! "username"))
  let password ← want none (asOpt asStr) (dget d (str! "password"))
  let sqls ← want [] (asList asStr) (dget d (str! "session_sqls"))
  let files ← want none (asOpt (asDict asStr)) (dget d (str! "sqlite_databases"))
  let isolation ← want none (asOpt (readLiteral isolations)) (dget d (str! "isolation_level"))
  let ssl ← want noSsl (readSsl L) (dget d (str! "ssl"))
  let _ ← want false (readBool L) (dget d (str! "echo"))
  .ok { dialect := dialect, host := host, port := port, database := database, username := username, password := password, sessionSqls := sqls, sqliteDatabases := files.getD [], isolation := isolation, ssl := ssl }

/-- `DatabaseConfig()`.  `config_model.py:108`. -/
def noDb : DbConfig := { dialect := none, host := none, port := none, database := none, username := none, password := none, sessionSqls := [], sqliteDatabases := [], isolation := none, ssl := noSsl }

/-- `DatabaseConfig`.  `common.py:87-167`. -/
def readDb (L : Lax) (y : Yaml) : Except LoadErr DbConfig := do
  let d ← asMap y
  readDbItems L d

/-! ### The section `sampler` -/

/-- `DirectoryOutputConfig` and `DatabaseOutputConfig` (`config_model.py:62-78`). -/
inductive OutputConfig where
  | directory (directory : Str)
  | database (db : DbConfig) (remap : List (Str × Str)) (strategy : Strategy) (merge : Bool)

/-- `TableRemapPattern` (`config_model.py:71-73`). -/
def readRemap (y : Yaml) : Except LoadErr (Str × Str) := do
  let d ← asMap y
  forbid [str! "search", str! "replace"] d
  let search ← need asStr (dget d (str! "search"))
  let replace ← need asStr (dget d (str! "replace"))
  .ok (search, replace)

/-- `ConflictStrategy` (`config_model.py:67`). -/
def strategies : List (Str × Strategy) := [(str! "error", .error), (str! "replace", .replace), (str! "skip", .skip)]

/-- `OutputType` (`config_model.py:81-84`): `DirectoryOutputConfig` forbids unknown keys, `DatabaseOutputConfig` is a
`DatabaseConfig` and ignores them. -/
def readOutput (L : Lax) (y : Yaml) : Except LoadErr OutputConfig := do
  let d ← asMap y
  match dget d (str! "mode") with
  | some (.leaf (.str m)) =>
    if m = str! "directory" then do
      forbid [str! "mode", str! "directory"] d
      let dir ← need asStr (dget d (str! "directory"))
      .ok (.directory dir)
    else if m = str! "database" then do
      let db ← readDbItems L d
      let remap ← want [] (asList readRemap) (dget d (str! "remap"))
      let strategy ← want .error (readLiteral strategies) (dget d (str! "conflict_strategy"))
      let merge ← want false (readBool L) (dget d (str! "merge"))
      .ok (.database db remap strategy merge)
    else .error .tag
  | _ => .error .tag

/-- `FilterConstantTypes` (`filters.py:330`): a boolean becomes a float, the first type that accepts it. -/
def readConstant (code : Rat → Nat) : Yaml → Except LoadErr Val
  | .leaf .null => .ok .null
  | .leaf (.str s) => .ok (.str s)
  | .leaf (.int i) => .ok (.int i)
  | .leaf (.float q) => .ok (.other (code q))
  | .leaf (.bool b) => .ok (.other (code (if b then 1 else 0)))
  | _ => .error .type

/-- Names of alphabets (`filters.py:277-287`). -/
def alphabets : List (Str × Alphabet) :=
  [(str! "alnum", .alnum), (str! "hex", .hex), (str! "hex_lower", .hexLower), (str! "hex_upper", .hexUpper),
   (str! "digit", .digit), (str! "alpha", .alpha), (str! "alpha_lower", .alphaLower), (str! "alpha_upper", .alphaUpper),
   (str! "custom", .custom)]

/-- The Faker filters (`filters.py:421-463`). -/
def fakers : List (Str × Nat) :=
  [(str! "fake_email", 0), (str! "fake_first_name", 1), (str! "fake_last_name", 2), (str! "fake_name", 3),
   (str! "fake_phone_number", 4), (str! "fake_license_plate", 5), (str! "fake_vin", 6), (str! "fake_address", 7),
   (str! "fake_building_number", 8), (str! "fake_city", 9), (str! "fake_state", 10), (str! "fake_state_abbr", 11),
   (str! "fake_country", 12), (str! "fake_country_code", 13), (str! "fake_postal_code", 14),
   (str! "fake_street_address", 15), (str! "fake_street_name", 16), (str! "fake_latitude", 17),
   (str! "fake_longitude", 18)]

/-- `SimpleFilterConfig` (`filters.py:521-553`) with `op` equal to `o`; unknown keys are ignored. -/
def readSimpleItems (L : Lax) (K : Codes) (o : Str) (d : Items) : Except LoadErr (SimpleCfg Val) := do
  let cols ← need (asList asStr) (dget d (str! "columns"))
  if o = str! "zero" then .ok (.zero cols)
  else if o = str! "omit" then .ok (.omit cols)
  else if o = str! "null" then .ok (.null cols)
  else if o = str! "constant" then do
    let vals ← need (asList (readConstant K.float)) (dget d (str! "values"))
    .ok (.constant cols vals)
  else if o = str! "random_int" then do
    let low ← need (readInt L) (dget d (str! "low"))
    let high ← need (readInt L) (dget d (str! "high"))
    .ok (.randomInt cols low high)
  else if o = str! "random_float" then do
    let low ← need (readFloat L) (dget d (str! "low"))
    let high ← need (readFloat L) (dget d (str! "high"))
    .ok (.randomFloat cols (K.float low) (K.float high))
  else if o = str! "random_string" then do
    let length ← need (readInt L) (dget d (str! "length"))
    let alphabet ← want .alnum (readLiteral alphabets) (dget d (str! "alphabet"))
    let custom ← want none (asOpt asStr) (dget d (str! "custom_alphabet"))
    .ok (.randomString cols length alphabet custom)
  else if o = str! "uuid" then .ok (.uuid cols)
  else if o = str! "plugin" then do
    let module_ ← need asStr (dget d (str! "module"))
    let clazz ← need asStr (dget d (str! "class"))
    let kwargs ← want [] asMap (dget d (str! "kwargs"))
    .ok (.plugin cols (K.plugin module_ clazz kwargs))
  else
    match dget fakers o with
    | some n => do
      let unique ← want false (readBool L) (dget d (str! "unique"))
      .ok (.fake cols n unique)
    | none => .error .tag

/-- The discriminator `op` of filters.  `filters.py:552,648`. -/
def readOpTag (y : Yaml) : Except LoadErr (Str × Items) := do
  let d ← asMap y
  match dget d (str! "op") with
  | some (.leaf (.str o)) => .ok (o, d)
  | _ => .error .tag

/-- `SimpleFilterConfig`.  `filters.py:521-553`. -/
def readSimple (L : Lax) (K : Codes) (y : Yaml) : Except LoadErr (SimpleCfg Val) := do
  let (o, d) ← readOpTag y
  readSimpleItems L K o d

/-- Names of operators (`filters.py:557-559`). -/
def condOps : List (Str × CondOp) :=
  [(str! "is", .is), (str! "is not", .isNot), (str! "in", .in_), (str! "not in", .notIn), (str! "=", .eq), (str! "!=", .ne),
   (str! "<", .lt), (str! ">", .gt), (str! "<=", .le), (str! ">=", .ge), (str! "matches", .matches)]

/-- `Union[None, int, float, str]` (`filters.py:560`): a boolean becomes an integer, the first type that accepts it. -/
def readScalar : Yaml → Except LoadErr PVal
  | .leaf .null => .ok .none
  | .leaf (.str s) => .ok (.str s)
  | .leaf (.int i) => .ok (.int i)
  | .leaf (.float q) => .ok (.num q)
  | .leaf (.bool b) => .ok (.int (if b then 1 else 0))
  | _ => .error .type

/-- `value` of a condition (`filters.py:560`). -/
def readCondVal (y : Yaml) : Except LoadErr CondVal :=
  match y with
  | .seq l => do
    let vs ← l.mapM readScalar
    .ok (.many vs)
  | y => do
    let v ← readScalar y
    .ok (.one v)

/-- `MultiplexCondition` (`filters.py:556-561`); unknown keys are ignored. -/
def readCondition (L : Lax) (K : Codes) (y : Yaml) : Except LoadErr (Nat × SimpleCfg Val) := do
  let d ← asMap y
  let op ← need (readLiteral condOps) (dget d (str! "op"))
  let value ← need readCondVal (dget d (str! "value"))
  let apply ← need (readSimple L K) (dget d (str! "apply"))
  .ok (K.cond { op := op, value := value }, apply)

/-- `FilterConfig` (`filters.py:643-649`) with `FilterMultiplex.Config` (`filters.py:591-594`). -/
def readFilter (L : Lax) (K : Codes) (y : Yaml) : Except LoadErr (FilterCfg Val) := do
  let (o, d) ← readOpTag y
  if o = str! "multiplex" then do
    let column ← need asStr (dget d (str! "column"))
    let conds ← need (asList (readCondition L K)) (dget d (str! "conditions"))
    .ok (.multiplex column conds)
  else do
    let c ← readSimpleItems L K o d
    .ok (.simple c)

/-- `MultiplicityConfig` (`config_model.py:88-92`). -/
def readMult (L : Lax) (y : Yaml) : Except LoadErr MultConfig := do
  let d ← asMap y
  forbid [str! "multiplier", str! "ignore_tables", str! "extra_columns", str! "ignore_primary_key_columns"] d
  let multiplier ← want 1 (readInt L) (dget d (str! "multiplier"))
  let ignore ← want [] (asList asStr) (dget d (str! "ignore_tables"))
  let extra ← want [] (asDict (asList asStr)) (dget d (str! "extra_columns"))
  let ignorePk ← want [] (asDict (asList asStr)) (dget d (str! "ignore_primary_key_columns"))
  .ok { multiplier := multiplier, ignoreTables := ignore, extraColumns := extra, ignorePk := ignorePk }

/-- `CompactConfig` (`config_model.py:94-98`). -/
def readCompact (L : Lax) (y : Yaml) : Except LoadErr CompactConfig := do
  let d ← asMap y
  forbid [str! "primary_keys", str! "auto_increment_keys", str! "columns", str! "start_key"] d
  let pks ← want false (readBool L) (dget d (str! "primary_keys"))
  let autos ← want false (readBool L) (dget d (str! "auto_increment_keys"))
  let columns ← want [] (asDict (asList asStr)) (dget d (str! "columns"))
  let start ← want 1 (readInt L) (dget d (str! "start_key"))
  .ok { primaryKeys := pks, autoIncrementKeys := autos, columns := columns, startKey := start }

/-- `SamplerConfig` (`config_model.py:87-104`). -/
structure SamplerConfig where
  output : OutputConfig
  filters : Dict Str (List (FilterCfg Val))
  mult : MultConfig
  infer : InferMode
  compact : CompactConfig

/-- `SamplerConfig`.  `config_model.py:87-104`. -/
def readSampler (L : Lax) (K : Codes) (y : Yaml) : Except LoadErr SamplerConfig := do
  let d ← asMap y
  forbid [str! "output", str! "filters", str! "multiplicity", str! "infer_foreign_keys", str! "compact"] d
  let output ← want (.directory (str! "output")) (readOutput L) (dget d (str! "output"))
  let filters ← want [] (asDict (asList (readFilter L K))) (dget d (str! "filters"))
  let mult ← want {} (readMult L) (dget d (str! "multiplicity"))
  let infer ← want .none (readLiteral inferModes) (dget d (str! "infer_foreign_keys"))
  let compact ← want {} (readCompact L) (dget d (str! "compact"))
  .ok { output := output, filters := filters, mult := mult, infer := infer, compact := compact }

/-! ### The whole configuration -/

/-- `SubsetterConfig` (`config_model.py:107-110`). -/
structure Config where
  source : DbConfig
  planner : Option PlannerConfig
  sampler : Option SamplerConfig

/-- `SubsetterConfig`.  `config_model.py:107-110`. -/
def readConfig (L : Lax) (K : Codes) (y : Yaml) : Except LoadErr Config := do
  let d ← asMap y
  forbid [str! "source", str! "planner", str! "sampler"] d
  let source ← want noDb (readDb L) (dget d (str! "source"))
  let planner ← want none (asOpt (readPlanner L K.float)) (dget d (str! "planner"))
  let sampler ← want none (asOpt (readSampler L K)) (dget d (str! "sampler"))
  .ok { source := source, planner := planner, sampler := sampler }

/-- `_get_config` (`__main__.py:101-145`) for the data trees of the files; `-v` is left out. -/
def getConfig (L : Lax) (K : Codes) (files : List Yaml) : Except LoadErr Config := readConfig L K (mergeFiles files)

/-- What a run to a database uses of the section `sampler` and the arguments of the command
(`sampler.py:333-341,393-404,588-592`); `sub` is `re.sub`, of which errors in patterns are not modelled. -/
def runConfig (sub : Str → Str → Str → Str) (C : SamplerConfig) (truncate create : Bool) : RunConfig :=
  match C.output with
  | .directory _ => { infer := C.infer, filters := C.filters, compact := C.compact, mult := C.mult, remap := id, truncate := truncate, create := create }
  | .database _ remap strategy merge =>
    { infer := C.infer, filters := C.filters, compact := C.compact, mult := C.mult, remap := fun n => remap.foldl (fun n x => sub x.1 x.2 n) n, strategy := strategy, merge := merge, truncate := truncate, create := create }

end Subsetter
