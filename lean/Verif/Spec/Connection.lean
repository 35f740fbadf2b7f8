import Verif.Model.Connection

/-
What the connection settings are meant to be.
-/
namespace Subsetter.Spec
open Subsetter

/-- `v` is the configured value if there is one, else the environment's, else the default; an empty configured
value counts as none. -/
def Chosen (cfg env dflt v : Option Str) : Prop :=
  (∀ x, cfg = some x → x ≠ [] → v = some x) ∧
  (cfg = none ∨ cfg = some [] → (∀ x, env = some x → v = some x) ∧ (env = none → v = dflt))

/-- Likewise for the port, where 0 counts as none. -/
def PortChosen (int : Str → Option Int) (cfg : Option Int) (env : Option Str) (dflt : Int) (v : Option Int) : Prop :=
  (∀ n, cfg = some n → n ≠ 0 → v = some n) ∧
  (cfg = none ∨ cfg = some 0 →
    (∀ s n, env = some s → int s = some n → n ≠ 0 → v = some n) ∧
    (env = none → v = some dflt) ∧ (∀ s, env = some s → int s = some 0 → v = some dflt))

/-- The word for a dialect. -/
def dialectWord : DbDialect → Str
  | .mysql => str! "mysql"
  | .postgres => str! "postgres"
  | .sqlite => str! "sqlite"

/-- The dialect of the connection. -/
def DialectChosen (cfg : Option DbDialect) (env : Option Str) (d : DbDialect) : Prop :=
  (∀ x, cfg = some x → d = x) ∧
  (cfg = none → (env = none → d = .mysql) ∧ ∀ s, env = some s → s = dialectWord d)

/-- The settings made for a connection fit a database of the dialect. -/
structure FitsDialect (c : DbConfig) (d : DbDialect) (a : EngineArgs) : Prop where
  postgres : ∀ m x y z, a.connect = .postgres m x y z → d = .postgres
  mysql : ∀ i v x y z, a.connect = .mysql i v x y z → d = .mysql
  isolation : c.isolation = none → a.isolation = if d = .sqlite then .serializable else .readCommitted
  attach : a.attach = if d = .sqlite then c.sqliteDatabases else []

/-- How far the connection is secured: 0 not at all, 1 encrypted, 2 the server's certificate is verified, 3 also its
name. -/
def security : ConnectArgs → Nat
  | .none => 0
  | .postgres m _ _ _ => if m = str! "verify-full" then 3 else if m = str! "verify-ca" then 2 else 1
  | .mysql i v _ _ _ => if i = some true then 3 else if v = some true then 2 else 1

/-- Client certificate, client key and root certificate given to the driver. -/
def sslFiles : ConnectArgs → Option Str × Option Str × Option Str
  | .none => (none, none, none)
  | .postgres _ c k r => (c, k, r)
  | .mysql _ _ c k r => (c, k, r)

/-- The verification asked for by the word used in configuration and environment. -/
def verifyLevel : Verify → Nat
  | .none => 1
  | .cert => 2
  | .identity => 3

def verifyWord : Verify → Str
  | .none => str! "none"
  | .cert => str! "cert"
  | .identity => str! "identity"

/-- The configuration, or else the environment, asks for verification `v`. -/
def AsksVerify (env : Dict Str Str) (pre : Str) (c : SslConfig) (v : Verify) : Prop :=
  c.verify = some v ∨ c.verify = none ∧ dget env (pre ++ str! "SSL_SERVER_VERIFY") = some (verifyWord v)

/-- The configuration, or else the environment, asks for encryption. -/
def AsksSsl (env : Dict Str Str) (pre : Str) (c : SslConfig) : Prop :=
  c.require = some (some true) ∨
    c.require = none ∧ ∃ s, dget env (pre ++ str! "SSL_REQUIRE") = some s ∧ s ≠ []

end Subsetter.Spec
