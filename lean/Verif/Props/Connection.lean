import Verif.Spec.Connection

/-
Properties C47 and C57: connection settings.
-/
namespace Subsetter.Props
open Subsetter Spec

theorem orStr_chosen (cfg env : Option Str) : Chosen cfg env none (orStr cfg env) := by
  rcases cfg with _ | _ | ⟨c, s⟩
  · exact ⟨(by intro x h; cases h), fun _ => ⟨fun x h => h, fun h => h⟩⟩
  · exact ⟨(by intro x h h'; cases h; exact absurd rfl h'), fun _ => ⟨fun x h => h, fun h => h⟩⟩
  · refine ⟨fun x h _ => h, fun h => ?_⟩
    rcases h with h | h <;> cases h

theorem orStr_chosen_default (cfg env : Option Str) (d : Str) :
    Chosen cfg env (some d) (orStr cfg (some (env.getD d))) := by
  rcases cfg with _ | _ | ⟨c, s⟩
  · exact ⟨(by intro x h; cases h), fun _ => ⟨(fun x h => by rw [h]; rfl), fun h => (by rw [h]; rfl)⟩⟩
  · exact ⟨(by intro x h h'; cases h; exact absurd rfl h'), fun _ => ⟨(fun x h => by rw [h]; rfl), fun h => (by rw [h]; rfl)⟩⟩
  · refine ⟨fun x h _ => h, fun h => ?_⟩
    rcases h with h | h <;> cases h

theorem dialectOf_eq {s : Str} {d : DbDialect} (h : dialectOf s = some d) : s = dialectWord d := by
  unfold dialectOf at h
  split at h
  · cases h; assumption
  · split at h
    · cases h; assumption
    · split at h
      · cases h; assumption
      · cases h

theorem port_chosen {int : Str → Option Int} (h0 : int (str! "0") = some 0) {env : Dict Str Str} {pre : Str}
    {cfg port : Option Int} (h : envPort int env pre cfg = .ok port) (d : Int) :
    PortChosen int cfg (dget env (pre ++ str! "PORT")) d (portOr port d) := by
  unfold envPort at h
  have ht : ∀ n : Int, n ≠ 0 → truthyPort (some n) = some n := fun n hn => by simp [truthyPort, hn]
  have hf : ∀ n : Int, n ≠ 0 → portOr (some n) d = some n := fun n hn => by simp [portOr, ht n hn]
  have hz : portOr (some 0) d = some d := rfl
  by_cases hc : cfg = none ∨ cfg = some 0
  · have : truthyPort cfg = none := by rcases hc with rfl | rfl <;> rfl
    rw [this] at h
    dsimp only at h
    split at h
    · rename_i n hn
      cases h
      refine ⟨fun m hm hm' => ?_, fun _ => ⟨?_, ?_, ?_⟩⟩
      · rcases hc with h | h
        · rw [h] at hm; cases hm
        · rw [h] at hm; cases hm; exact absurd rfl hm'
      · intro s m hs hi hm
        rw [hs, Option.getD_some, hi] at hn
        cases hn
        exact hf _ hm
      · intro hs
        rw [hs, Option.getD_none, h0] at hn
        cases hn
        exact hz
      · intro s hs hi
        rw [hs, Option.getD_some, hi] at hn
        cases hn
        exact hz
    · cases h
  · refine ⟨fun n hn hn' => ?_, fun h' => absurd h' hc⟩
    subst hn
    rw [ht n hn'] at h
    cases h
    exact hf n hn'

/-- C47. Every parameter of the connection URL is the configured one if given, else the environment's, else the
default. A URL for SQLite has only the database, one for MySQL no database. -/
theorem c47_precedence {int : Str → Option Int} (h0 : int (str! "0") = some 0) {env : Dict Str Str} {pre : Str}
    {c : DbConfig} {u : Url} (h : databaseUrl int env (some pre) c = .ok u) :
    DialectChosen c.dialect (dget env (pre ++ str! "DIALECT")) u.driver ∧
    (u.driver ≠ .sqlite →
      Chosen c.host (dget env (pre ++ str! "HOST")) (some (str! "localhost")) u.host ∧
      Chosen c.username (dget env (pre ++ str! "USERNAME")) none u.username ∧
      Chosen c.password (dget env (pre ++ str! "PASSWORD")) none u.password ∧
      PortChosen int c.port (dget env (pre ++ str! "PORT")) (if u.driver = .mysql then 3306 else 5432) u.port) ∧
    (u.driver ≠ .mysql → dget env (pre ++ str! "DATABASE") ≠ some [] →
      Chosen c.database (dget env (pre ++ str! "DATABASE")) none u.database) := by
  unfold databaseUrl at h
  dsimp only at h
  cases hp : envPort int env pre c.port with
  | error e => rw [hp] at h; cases h
  | ok port =>
    rw [hp] at h
    dsimp only at h
    unfold makeUrl at h
    have hdial : ∀ d, (envDialect env pre c.dialect).getD (some .mysql) = some d →
        DialectChosen c.dialect (dget env (pre ++ str! "DIALECT")) d := by
      intro d hd
      unfold envDialect at hd
      cases hc : c.dialect with
      | some x =>
        rw [hc] at hd
        cases hd
        exact ⟨fun y hy => by cases hy; rfl, fun h => by cases h⟩
      | none =>
        rw [hc] at hd
        refine ⟨fun y hy => (by cases hy), fun _ => ⟨fun he => ?_, fun s hs => ?_⟩⟩
        · rw [he] at hd; cases hd; rfl
        · rw [hs] at hd; exact dialectOf_eq hd
    have hhost := orStr_chosen_default c.host (dget env (pre ++ str! "HOST")) (str! "localhost")
    have huser := orStr_chosen c.username (dget env (pre ++ str! "USERNAME"))
    have hpass := orStr_chosen c.password (dget env (pre ++ str! "PASSWORD"))
    have hdb := orStr_chosen c.database (dget env (pre ++ str! "DATABASE"))
    split at h
    · rename_i hd
      cases h
      exact ⟨hdial _ hd, fun _ => ⟨hhost, huser, hpass, port_chosen h0 hp 3306⟩, fun h => absurd rfl h⟩
    · rename_i hd
      cases h
      refine ⟨hdial _ hd, fun _ => ⟨hhost, huser, hpass, port_chosen h0 hp 5432⟩, fun _ hne => ?_⟩
      have : orStr (orStr c.database (dget env (pre ++ str! "DATABASE"))) none =
          orStr c.database (dget env (pre ++ str! "DATABASE")) := by
        rcases c.database with _ | _ | ⟨x, s⟩
        · rcases hg : dget env (pre ++ str! "DATABASE") with _ | _ | ⟨y, t⟩
          · rfl
          · exact absurd hg hne
          · rfl
        · rcases hg : dget env (pre ++ str! "DATABASE") with _ | _ | ⟨y, t⟩
          · rfl
          · exact absurd hg hne
          · rfl
        · rfl
      show Chosen _ _ _ (orStr (orStr c.database _) none)
      rw [this]
      exact hdb
    · rename_i hd
      cases h
      exact ⟨hdial _ hd, fun h => absurd rfl h, fun _ _ => hdb⟩
    · cases h

/-- C47. A configured value never loses to the environment: without one of the configured values missing, the
environment has no influence on the URL. -/
theorem c47_environment_unused {int : Str → Option Int} {env env' : Dict Str Str} {pre : Str} {c : DbConfig}
    {d : DbDialect} {h u p db : Str} {n : Int} (hd : c.dialect = some d) (hh : c.host = some h) (hu : c.username = some u)
    (hp : c.password = some p) (hdb : c.database = some db) (hn : c.port = some n) (h1 : h ≠ []) (h2 : u ≠ [])
    (h3 : p ≠ []) (h4 : db ≠ []) (h5 : n ≠ 0) :
    databaseUrl int env (some pre) c = databaseUrl int env' (some pre) c := by
  have hor : ∀ (x y y' : Option Str) (s : Str), x = some s → s ≠ [] → orStr x y = orStr x y' := by
    rintro x y y' s rfl hs
    cases s with
    | nil => exact absurd rfl hs
    | cons => rfl
  unfold databaseUrl
  dsimp only
  have : ∀ e : Dict Str Str, envPort int e pre c.port = .ok (some n) := by
    intro e
    rw [hn]
    simp [envPort, truthyPort, h5]
  rw [this, this]
  dsimp only
  have hed : ∀ e : Dict Str Str, envDialect e pre c.dialect = some (some d) := by intro e; rw [hd]; rfl
  rw [hed, hed, hor c.host _ (some ((dget env' (pre ++ str! "HOST")).getD (str! "localhost"))) h hh h1,
    hor c.database _ (dget env' (pre ++ str! "DATABASE")) db hdb h4,
    hor c.username _ (dget env' (pre ++ str! "USERNAME")) u hu h2,
    hor c.password _ (dget env' (pre ++ str! "PASSWORD")) p hp h3]

/-- C47, second half. The SSL and session settings fit the dialect of the URL if the dialect is configured, or if the
environment does not name one other than MySQL. Missing: a dialect that comes from the environment, see
`c47_environment_dialect`. -/
theorem c47_consistent_partial {int : Str → Option Int} {env : Dict Str Str} {pre : Str} {c : DbConfig}
    {a : EngineArgs} (h : databaseEngine int env (some pre) c = .ok a)
    (hd : c.dialect ≠ none ∨ dget env (pre ++ str! "DIALECT") = none ∨
      dget env (pre ++ str! "DIALECT") = some (str! "mysql")) :
    FitsDialect c a.url.driver a := by
  unfold databaseEngine at h
  cases hu : databaseUrl int env (some pre) c with
  | error e => rw [hu] at h; cases h
  | ok u =>
    rw [hu] at h
    dsimp only at h
    have hdrv : u.driver = c.dialect.getD .mysql := by
      unfold databaseUrl at hu
      dsimp only at hu
      cases hp : envPort int env pre c.port with
      | error e => rw [hp] at hu; cases hu
      | ok port =>
        rw [hp] at hu
        dsimp only at hu
        have hed : (envDialect env pre c.dialect).getD (some .mysql) = some (c.dialect.getD .mysql) := by
          unfold envDialect
          cases hc : c.dialect with
          | some d => rfl
          | none =>
            rcases hd with hd | hd | hd
            · exact absurd hc hd
            · rw [hd]; rfl
            · rw [hd]; rfl
        unfold makeUrl at hu
        rw [hed] at hu
        cases hd' : c.dialect.getD .mysql <;> rw [hd'] at hu <;> cases hu <;> rfl
    cases hc : connectArgs env (some pre) c.ssl (c.dialect.getD .mysql) with
    | error e => rw [hc] at h; cases h
    | ok args =>
      rw [hc] at h
      cases h
      have hsq : c.dialect = some .sqlite ↔ c.dialect.getD .mysql = .sqlite := by
        cases c.dialect with
        | none => exact ⟨(fun h => by cases h), (fun h => by cases h)⟩
        | some d => exact ⟨(fun h => by cases h; rfl), (fun h => by rw [show d = .sqlite from h])⟩
      rw [← hdrv] at hc hsq
      refine ⟨?_, ?_, ?_, ?_⟩
      · intro m x y z (he : args = _)
        subst he
        unfold connectArgs at hc
        split at hc
        · cases hc
        · dsimp only at hc
          cases hdd : u.driver with
          | postgres => rfl
          | mysql => rw [hdd] at hc; dsimp only at hc; split at hc <;> cases hc
          | sqlite => rw [hdd] at hc; cases hc
      · intro i v x y z (he : args = _)
        subst he
        unfold connectArgs at hc
        split at hc
        · cases hc
        · dsimp only at hc
          cases hdd : u.driver with
          | postgres => rw [hdd] at hc; cases hc
          | mysql => rfl
          | sqlite => rw [hdd] at hc; cases hc
      · intro hi
        show isolationLevel c = _
        unfold isolationLevel
        rw [hi]
        dsimp only
        simp only [hsq]
      · show (if c.dialect = some .sqlite then _ else _) = _
        simp only [hsq]

def vxSsl : SslConfig := ⟨some (some true), some .identity, none, none, some (str! "/ca")⟩
def vxConfig : DbConfig := ⟨none, none, none, none, some (str! "u"), none, [], [(str! "x", str! "/x.db")], none, vxSsl⟩
def vxInt (s : Str) : Option Int := if s = str! "0" then some 0 else if s = str! "15" then some 15 else none

/-- The settings for a configured PostgreSQL connection. -/
example : databaseEngine vxInt [(str! "S_HOST", str! "h"), (str! "S_USERNAME", str! "v"), (str! "S_DATABASE", str! "d")]
    (some (str! "S_")) { vxConfig with dialect := some .postgres } =
    .ok ⟨⟨.postgres, some (str! "h"), some 5432, some (str! "d"), some (str! "u"), none, none⟩, .readCommitted,
      .postgres (str! "verify-full") none none (some (str! "/ca")), [], []⟩ := by decide

/-- C47. If the dialect comes from the environment, the SSL arguments are nevertheless those for MySQL; an SQLite
connection is opened with an isolation level SQLite does not have, and without its attached databases. -/
theorem c47_environment_dialect :
    (∃ a, databaseEngine vxInt [(str! "S_DIALECT", str! "postgres")] (some (str! "S_")) vxConfig = .ok a ∧
      a.url.driver = .postgres ∧ a.connect = .mysql (some true) none none none (some (str! "/ca"))) ∧
    (∃ a, databaseEngine vxInt [(str! "S_DIALECT", str! "sqlite")] (some (str! "S_"))
        { vxConfig with ssl := ⟨none, none, none, none, none⟩ } = .ok a ∧
      a.url.driver = .sqlite ∧ a.isolation = .readCommitted ∧ a.attach = []) :=
  ⟨⟨_, rfl, by decide, by decide⟩, ⟨_, rfl, by decide, by decide, by decide⟩⟩

/-- C47. Variables set to the empty string are not the same as variables that are not set. -/
theorem c47_empty_variables :
    databaseUrl vxInt [(str! "S_DIALECT", [])] (some (str! "S_")) vxConfig = .error .unsupportedDialect ∧
    databaseUrl vxInt [(str! "S_PORT", [])] (some (str! "S_")) vxConfig = .error .badPort ∧
    (∃ u, databaseUrl vxInt [(str! "S_HOST", [])] (some (str! "S_")) vxConfig = .ok u ∧ u.host = some []) :=
  ⟨by decide, by decide, _, rfl, by decide⟩

/-- C57. A connection for which encryption is asked is encrypted and verifies the server as far as asked for. Missing:
verification that is asked for without encryption, see `c57_verify_without_require`. -/
theorem c57_secured_partial {int : Str → Option Int} {env : Dict Str Str} {pre : Str} {c : DbConfig} {a : EngineArgs}
    (h : databaseEngine int env (some pre) c = .ok a) (hs : AsksSsl env pre c.ssl) :
    1 ≤ security a.connect ∧ ∀ v, AsksVerify env pre c.ssl v → security a.connect = verifyLevel v := by
  unfold databaseEngine at h
  cases hu : databaseUrl int env (some pre) c with
  | error e => rw [hu] at h; cases h
  | ok u =>
    rw [hu] at h
    dsimp only at h
    cases hc : connectArgs env (some pre) c.ssl (c.dialect.getD .mysql) with
    | error e => rw [hc] at h; cases h
    | ok args =>
      rw [hc] at h
      cases h
      show 1 ≤ security args ∧ _
      have hreq : sslRequired env (some pre) c.ssl = true := by
        unfold sslRequired sslEnv
        rcases hs with hs | ⟨hs, s, h1, h2⟩
        · rw [hs]; rfl
        · rw [hs]
          dsimp only [Option.getD_some]
          rw [h1]
          simpa using h2
      have hver : ∀ v, AsksVerify env pre c.ssl v → sslVerify env (some pre) c.ssl = v := by
        intro v hv
        unfold sslVerify sslEnv
        rcases hv with hv | ⟨hv, h1⟩
        · rw [hv]
        · rw [hv]
          dsimp only [Option.getD_some]
          rw [h1]
          cases v <;> decide
      have hsec : security args = verifyLevel (sslVerify env (some pre) c.ssl) := by
        unfold connectArgs at hc
        rw [if_neg (by rw [hreq]; simp)] at hc
        dsimp only at hc
        generalize sslVerify env (some pre) c.ssl = v at hc
        generalize c.dialect.getD .mysql = d at hc
        cases d with
        | mysql => cases v <;> cases hc <;> rfl
        | postgres => cases v <;> cases hc <;> rfl
        | sqlite => cases hc
      rw [hsec]
      refine ⟨?_, fun v hv => by rw [hver v hv]⟩
      cases sslVerify env (some pre) c.ssl <;> decide

theorem orStr_none_chosen (cfg : Option Str) {env : Option Str} (he : env ≠ some []) :
    Chosen cfg env none (orStr (orStr cfg env) none) := by
  have : orStr (orStr cfg env) none = orStr cfg env := by
    rcases cfg with _ | _ | ⟨x, s⟩
    · rcases env with _ | _ | ⟨y, t⟩
      · rfl
      · exact absurd rfl he
      · rfl
    · rcases env with _ | _ | ⟨y, t⟩
      · rfl
      · exact absurd rfl he
      · rfl
    · rfl
  rw [this]
  exact orStr_chosen cfg env

/-- C57. The certificates and keys given to the driver are the configured ones, or else those of the environment. -/
theorem c57_files {int : Str → Option Int} {env : Dict Str Str} {pre : Str} {c : DbConfig} {a : EngineArgs}
    (h : databaseEngine int env (some pre) c = .ok a) (hs : AsksSsl env pre c.ssl)
    (h1 : dget env (pre ++ str! "SSL_CLIENT_CERT") ≠ some []) (h2 : dget env (pre ++ str! "SSL_CLIENT_KEY") ≠ some [])
    (h3 : dget env (pre ++ str! "SSL_SERVER_ROOTCERT") ≠ some []) :
    Chosen c.ssl.cert (dget env (pre ++ str! "SSL_CLIENT_CERT")) none (sslFiles a.connect).1 ∧
    Chosen c.ssl.key (dget env (pre ++ str! "SSL_CLIENT_KEY")) none (sslFiles a.connect).2.1 ∧
    Chosen c.ssl.rootcert (dget env (pre ++ str! "SSL_SERVER_ROOTCERT")) none (sslFiles a.connect).2.2 := by
  have hne : a.connect ≠ .none := by
    intro e
    have := (c57_secured_partial h hs).1
    rw [e] at this
    exact absurd this (by decide)
  unfold databaseEngine at h
  cases hu : databaseUrl int env (some pre) c with
  | error e => rw [hu] at h; cases h
  | ok u =>
    rw [hu] at h
    dsimp only at h
    cases hc : connectArgs env (some pre) c.ssl (c.dialect.getD .mysql) with
    | error e => rw [hc] at h; cases h
    | ok args =>
      rw [hc] at h
      cases h
      replace hne : args ≠ .none := hne
      show Chosen _ _ _ (sslFiles args).1 ∧ Chosen _ _ _ (sslFiles args).2.1 ∧ Chosen _ _ _ (sslFiles args).2.2
      have g1 := orStr_none_chosen c.ssl.cert h1
      have g2 := orStr_none_chosen c.ssl.key h2
      have g3 := orStr_none_chosen c.ssl.rootcert h3
      unfold connectArgs at hc
      split at hc
      · cases hc; exact absurd rfl hne
      · dsimp only at hc
        generalize sslVerify env (some pre) c.ssl = v at hc
        generalize c.dialect.getD .mysql = d at hc
        cases d with
        | mysql => cases v <;> cases hc <;> exact ⟨g1, g2, g3⟩
        | postgres => cases hc; exact ⟨g1, g2, g3⟩
        | sqlite => cases hc

/-- C57. If encryption is switched off in the configuration, the environment does not switch it on, and without
either there is none. -/
theorem c57_not_asked {int : Str → Option Int} {env : Dict Str Str} {pre : Str} {c : DbConfig} {a : EngineArgs}
    (h : databaseEngine int env (some pre) c = .ok a) :
    a.connect = .none ↔ ¬ AsksSsl env pre c.ssl := by
  constructor
  · intro hn hs
    have := (c57_secured_partial h hs).1
    rw [hn] at this
    exact absurd this (by decide)
  · intro hn
    unfold databaseEngine at h
    cases hu : databaseUrl int env (some pre) c with
    | error e => rw [hu] at h; cases h
    | ok u =>
      rw [hu] at h
      dsimp only at h
      have hreq : sslRequired env (some pre) c.ssl = false := by
        unfold sslRequired sslEnv
        rcases hr : c.ssl.require with _ | _ | _ | _
        · dsimp only [Option.getD_some]
          rcases he : dget env (pre ++ str! "SSL_REQUIRE") with _ | _ | ⟨x, s⟩
          · rfl
          · rfl
          · exact absurd (.inr ⟨hr, _, he, (by simp)⟩) hn
        · rfl
        · rfl
        · exact absurd (.inl hr) hn
      unfold connectArgs at h
      rw [if_pos hreq] at h
      cases h
      rfl

/-- Encryption and verification asked for by the environment. -/
example : AsksSsl [(str! "S_SSL_REQUIRE", str! "1")] (str! "S_") ⟨none, none, none, none, none⟩ ∧
    AsksVerify [(str! "S_SSL_SERVER_VERIFY", str! "cert")] (str! "S_") ⟨none, none, none, none, none⟩ .cert :=
  ⟨.inr ⟨rfl, str! "1", by decide, by decide⟩, .inr ⟨rfl, by decide⟩⟩

/-- C57. Verification without `require` is ignored: the connection is not even encrypted. -/
theorem c57_verify_without_require :
    ∃ a, databaseEngine vxInt [] (some (str! "S_")) { vxConfig with ssl := { vxSsl with require := none } } = .ok a ∧
      AsksVerify [] (str! "S_") { vxSsl with require := none } .identity ∧ security a.connect = 0 :=
  ⟨_, rfl, .inl rfl, by decide⟩

/-- C57. In the environment any word switches encryption on, also `false`, and a misspelt verification is none. -/
theorem c57_words_unchecked :
    (∃ a, databaseEngine vxInt [(str! "S_SSL_REQUIRE", str! "false")] (some (str! "S_"))
      { vxConfig with ssl := ⟨none, none, none, none, none⟩ } = .ok a ∧ security a.connect = 1) ∧
    (∃ a, databaseEngine vxInt [(str! "S_SSL_SERVER_VERIFY", str! "full")] (some (str! "S_"))
      { vxConfig with ssl := ⟨some (some true), none, none, none, none⟩ } = .ok a ∧ security a.connect = 1) :=
  ⟨⟨_, rfl, by decide⟩, ⟨_, rfl, by decide⟩⟩

end Subsetter.Props
