import Verif.Model.Py
import Verif.Model.Str

/-
Model of the connection settings (`/repo/subsetter/common.py:30-221`).

Environment variables are a dict. Python's `int` on strings is a parameter. `sa.engine.URL.create` and
`sa.create_engine` are represented by what is passed to them; the driver name is represented by its dialect.
-/
namespace Subsetter

/-- `DatabaseDialect` (`common.py:8-12`). -/
inductive DbDialect where
  | mysql
  | postgres
  | sqlite
  deriving DecidableEq, Repr

/-- The name of a dialect as it occurs in the environment.  `common.py:8-12,41`. -/
def dialectOf (s : Str) : Option DbDialect :=
  if s = str! "mysql" then some .mysql
  else if s = str! "postgres" then some .postgres
  else if s = str! "sqlite" then some .sqlite
  else none

/-- `IsolationLevel` (`common.py:79-84`). -/
inductive Isolation where
  | readCommitted
  | readUncommitted
  | repeatableRead
  | serializable
  deriving DecidableEq, Repr

/-- `SSLServerConfig.verify` (`common.py:95`). -/
inductive Verify where
  | none
  | cert
  | identity
  deriving DecidableEq, Repr

/-- `SSLConfig` (`common.py:88-99`). `require` and `verify` are `none` if they are not set in the configuration
(`exclude_unset`); `require` can also be set to null. -/
structure SslConfig where
  require : Option (Option Bool)
  verify : Option Verify
  cert : Option Str
  key : Option Str
  rootcert : Option Str
  deriving DecidableEq, Repr

/-- `DatabaseConfig` (`common.py:157-167`) without `echo`. -/
structure DbConfig where
  dialect : Option DbDialect
  host : Option Str
  port : Option Int
  database : Option Str
  username : Option Str
  password : Option Str
  sessionSqls : List Str
  sqliteDatabases : Dict Str Str
  isolation : Option Isolation
  ssl : SslConfig
  deriving DecidableEq, Repr

/-- The arguments of `sa.engine.URL.create` (`common.py:52-76`). -/
structure Url where
  driver : DbDialect
  host : Option Str
  port : Option Int
  database : Option Str
  username : Option Str
  password : Option Str
  charset : Option Str
  deriving DecidableEq, Repr

/-- Exceptions while connecting.  `common.py:43,67,155`. -/
inductive ConnErr where
  /-- `int` of a string that is no number -/
  | badPort
  | unsupportedDialect
  | sslUnsupported
  deriving DecidableEq, Repr

/-- Python's `x or y` on strings: the empty string is false.  `common.py:41-46`. -/
def orStr (x y : Option Str) : Option Str :=
  match x with
  | some (c :: s) => some (c :: s)
  | _ => y

/-- `port or …`: 0 is false.  `common.py:43,55,60`. -/
def truthyPort : Option Int → Option Int
  | some n => if n = 0 then none else some n
  | none => none

/-- `port or int(os.getenv(f"{env_prefix}PORT", "0"))` (`common.py:43`). -/
def envPort (int : Str → Option Int) (env : Dict Str Str) (pre : Str) (port : Option Int) : Except ConnErr (Option Int) :=
  match truthyPort port with
  | some n => .ok (some n)
  | none =>
    match int ((dget env (pre ++ str! "PORT")).getD (str! "0")) with
    | some n => .ok (some n)
    | none => .error .badPort

/-- `if not port: port = …` (`common.py:55-56, 60-61`). -/
def portOr (port : Option Int) (d : Int) : Option Int :=
  match truthyPort port with
  | some n => some n
  | none => some d

/-- `common.py:48-76`, after the environment was read; `dialect` is the name to connect with. -/
def makeUrl (dialect : Option (Option DbDialect)) (host : Option Str) (port : Option Int)
    (database username password : Option Str) : Except ConnErr Url :=
  match dialect.getD (some .mysql) with
  | some .mysql => .ok ⟨.mysql, host, portOr port 3306, none, username, password, some (str! "utf8mb4")⟩
  | some .postgres => .ok ⟨.postgres, host, portOr port 5432, orStr database none, username, password, none⟩
  | some .sqlite => .ok ⟨.sqlite, none, none, database, none, none, none⟩
  | none => .error .unsupportedDialect

/-- `dialect or os.getenv(f"{env_prefix}DIALECT", None)` (`common.py:41`); inside the result `none` is a name that is
no dialect. -/
def envDialect (env : Dict Str Str) (pre : Str) (dialect : Option DbDialect) : Option (Option DbDialect) :=
  match dialect with
  | some d => some (some d)
  | none => (dget env (pre ++ str! "DIALECT")).map dialectOf

/-- `database_url` (`common.py:30-76, 169-181`). -/
def databaseUrl (int : Str → Option Int) (env : Dict Str Str) (envPrefix : Option Str) (c : DbConfig) :
    Except ConnErr Url :=
  match envPrefix with
  | some pre =>
    match envPort int env pre c.port with
    | .error e => .error e
    | .ok port =>
      makeUrl (envDialect env pre c.dialect)
        (orStr c.host (some ((dget env (pre ++ str! "HOST")).getD (str! "localhost")))) port
        (orStr c.database (dget env (pre ++ str! "DATABASE")))
        (orStr c.username (dget env (pre ++ str! "USERNAME")))
        (orStr c.password (dget env (pre ++ str! "PASSWORD")))
  | none => makeUrl (c.dialect.map some) c.host c.port c.database c.username c.password

/-- The argument `connect_args`; values that are not set are left out (`common.py:123-153`). -/
inductive ConnectArgs where
  | none
  | postgres (sslmode : Str) (cert key rootcert : Option Str)
  | mysql (verifyIdentity : Option Bool) (verifyCert : Option Bool) (cert key rootcert : Option Str)
  deriving DecidableEq, Repr

/-- `os.getenv(f"{env_prefix}…")`: without a prefix the name begins with `None`.
`common.py:109,115,117-120`. -/
def sslEnv (env : Dict Str Str) (envPrefix : Option Str) (name : Str) : Option Str :=
  dget env (envPrefix.getD (str! "None") ++ name)

/-- `require` (`common.py:107-110`). -/
def sslRequired (env : Dict Str Str) (envPrefix : Option Str) (c : SslConfig) : Bool :=
  match c.require with
  | some r => r.getD false
  | none => (sslEnv env envPrefix (str! "SSL_REQUIRE")).getD [] != []

/-- `server_verify` (`common.py:114-116`); a word that is none of the three is compared like `none`. -/
def sslVerify (env : Dict Str Str) (envPrefix : Option Str) (c : SslConfig) : Verify :=
  match c.verify with
  | some v => v
  | none =>
    let s := (sslEnv env envPrefix (str! "SSL_SERVER_VERIFY")).getD (str! "none")
    if s = str! "identity" then .identity else if s = str! "cert" then .cert else .none

/-- `get_connect_args` (`common.py:101-155`). -/
def connectArgs (env : Dict Str Str) (envPrefix : Option Str) (c : SslConfig) (dialect : DbDialect) :
    Except ConnErr ConnectArgs :=
  if sslRequired env envPrefix c = false then .ok .none
  else
    let v := sslVerify env envPrefix c
    let cert := orStr (orStr c.cert (sslEnv env envPrefix (str! "SSL_CLIENT_CERT"))) none
    let key := orStr (orStr c.key (sslEnv env envPrefix (str! "SSL_CLIENT_KEY"))) none
    let root := orStr (orStr c.rootcert (sslEnv env envPrefix (str! "SSL_SERVER_ROOTCERT"))) none
    match dialect with
    | .postgres =>
      .ok (.postgres (match v with
        | .identity => str! "verify-full"
        | .cert => str! "verify-ca"
        | .none => str! "require") cert key root)
    | .mysql =>
      .ok (match v with
        | .identity => .mysql (some true) none cert key root
        | .cert => .mysql none (some true) cert key root
        | .none => .mysql none (some false) cert key root)
    | .sqlite => .error .sslUnsupported

/-- What `create_engine` and the listener for new connections get (`common.py:183-221`); `attach` are the sqlite
databases attached to each connection. -/
structure EngineArgs where
  url : Url
  isolation : Isolation
  connect : ConnectArgs
  attach : Dict Str Str
  sessionSqls : List Str
  deriving DecidableEq, Repr

/-- `isolation_level` (`common.py:187-192`). -/
def isolationLevel (c : DbConfig) : Isolation :=
  match c.isolation with
  | some l => l
  | none => if c.dialect = some .sqlite then .serializable else .readCommitted

/-- `database_engine` (`common.py:183-221`). -/
def databaseEngine (int : Str → Option Int) (env : Dict Str Str) (envPrefix : Option Str) (c : DbConfig) :
    Except ConnErr EngineArgs :=
  match databaseUrl int env envPrefix c with
  | .error e => .error e
  | .ok url =>
    match connectArgs env envPrefix c.ssl (c.dialect.getD .mysql) with
    | .error e => .error e
    | .ok args =>
      .ok ⟨url, isolationLevel c, args, if c.dialect = some .sqlite then c.sqliteDatabases else [], c.sessionSqls⟩

end Subsetter
