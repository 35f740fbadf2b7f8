import Verif.Model.Sql
import Verif.Model.Config

/-
Model of writing a plan to a file and reading it again: `_main_plan` and `_main_sample` of
`/repo/subsetter/__main__.py:148-197`, and the pydantic models of `/repo/subsetter/plan_model.py`.

A file is represented by what `yaml.safe_load` returns for it. The text syntax of YAML is not modelled: the trees
`yaml.dump` is given are the trees `yaml.safe_load` returns, except that `sort_keys=True` changes the order of keys.
`sql_params` are not modelled. `code` tells which database value a float literal is.
-/
namespace Subsetter

/-! ### Reading -/

/-- Validation errors; `extra` is an unknown key where these are forbidden; `fuel` is an artefact of the model, proved unreachable.
`__main__.py:178-185,131-138`, `config_model.py:10-11`. -/
inductive LoadErr where
  | missing
  | type
  | tag
  | extra
  | fuel
  deriving DecidableEq, Repr

/-- A field of type `str`.  `plan_model.py:17-18,54,205,398`. -/
def asStr : Yaml → Except LoadErr Str
  | .leaf (.str s) => .ok s
  | _ => .error .type

/-- A field of type `bool`. Strings and numbers pydantic takes for booleans are not accepted here.
`plan_model.py:19,84,239,249`. -/
def asBool : Yaml → Except LoadErr Bool
  | .leaf (.bool b) => .ok b
  | _ => .error .type

/-- The field `limit: Optional[int]` when not null. Negative limits are not modelled.
`plan_model.py:247`. -/
def asNat : Yaml → Except LoadErr Nat
  | .leaf (.int i) => if 0 ≤ i then .ok i.toNat else .error .type
  | _ => .error .type

/-- A field of type `float`; integers are accepted.  `plan_model.py:187`. -/
def asFloat : Yaml → Except LoadErr Rat
  | .leaf (.float q) => .ok q
  | .leaf (.int i) => .ok i
  | _ => .error .type

/-- `SQLLiteralType` (`common.py:18`): no alternative accepts a boolean as it is, `int` accepts it as a number. -/
def asVal (code : Rat → Nat) : Yaml → Except LoadErr Val
  | .leaf (.str s) => .ok (.str s)
  | .leaf (.int i) => .ok (.int i)
  | .leaf (.float q) => .ok (.other (code q))
  | .leaf (.bool b) => .ok (.int (if b then 1 else 0))
  | _ => .error .type

/-- A field of type `List[...]`.  `plan_model.py:82,111,149,237-238,244,339,415`. -/
def asList {α : Type} (f : Yaml → Except LoadErr α) : Yaml → Except LoadErr (List α)
  | .seq l => l.mapM f
  | _ => .error .type

/-- A field of type `Optional[...]`.  `plan_model.py:206,244,246-248,398-400`. -/
def asOpt {α : Type} (f : Yaml → Except LoadErr α) : Yaml → Except LoadErr (Option α)
  | .leaf .null => .ok none
  | y => do
    let a ← f y
    .ok (some a)

/-- A model is validated from a dict.  `__main__.py:178`, `plan_model.py:413`. -/
def asMap : Yaml → Except LoadErr Items
  | .map d => .ok d
  | _ => .error .type

/-- The value for a field with an alias, given `populate_by_name`: the alias is looked up first.
`plan_model.py:17-21,245,251`. -/
def lookupField (d : Items) (key name : Str) : Option Yaml :=
  match dget d key with
  | some y => some y
  | none => dget d name

/-- A field without default.  `plan_model.py:17-18,54-55,82-83`. -/
def need {α : Type} (f : Yaml → Except LoadErr α) : Option Yaml → Except LoadErr α
  | none => .error .missing
  | some y => f y

/-- A field with default `a`.  `plan_model.py:19,53,84,239,249,415`. -/
def want {α : Type} (a : α) (f : Yaml → Except LoadErr α) : Option Yaml → Except LoadErr α
  | none => .ok a
  | some y => f y

/-- `SQLTableIdentifier` (`plan_model.py:16-21`). -/
def loadTableId (y : Yaml) : Except LoadErr TableId := do
  let d ← asMap y
  let schema ← need asStr (lookupField d (str! "schema") (str! "table_schema"))
  let name ← need asStr (lookupField d (str! "table") (str! "table_name"))
  let sampled ← want false asBool (dget d (str! "sampled"))
  .ok ⟨schema, name, sampled⟩

/-- `SQLKnownOperator` (`common.py:17`). -/
def asOp (y : Yaml) : Except LoadErr Op := do
  let s ← asStr y
  if s = str! "<" then .ok .lt
  else if s = str! ">" then .ok .gt
  else if s = str! "=" then .ok .eq
  else if s = str! "<>" then .ok .ne
  else if s = str! "!=" then .ok .ne
  else if s = str! "like" then .ok .like
  else if s = str! "not like" then .ok .notLike
  else .error .type

/-- `SQLLeftJoin` (`plan_model.py:235-239`); it has no aliases. -/
def loadJoin (y : Yaml) : Except LoadErr Join := do
  let d ← asMap y
  let right ← need loadTableId (dget d (str! "right"))
  let l ← need (asList asStr) (dget d (str! "left_columns"))
  let r ← need (asList asStr) (dget d (str! "right_columns"))
  let h ← want true asBool (dget d (str! "half_unique"))
  .ok ⟨right, l, r, h⟩

/-- The discriminator of a union: the dict is inspected for the alias of `type_`.
`plan_model.py:231,392`. -/
def loadTag (y : Yaml) : Except LoadErr (Str × Items) := do
  let d ← asMap y
  match dget d (str! "type") with
  | none => .error .tag
  | some t =>
    match asStr t with
    | .error _ => .error .tag
    | .ok s => .ok (s, d)

/-- `SQLWhereClauseOperator` (`plan_model.py:52-56`). -/
def loadOpClause (code : Rat → Nat) (d : Items) : Except LoadErr Where := do
  let o ← want .eq asOp (dget d (str! "operator"))
  let c ← need asStr (dget d (str! "column"))
  let v ← need (asVal code) (dget d (str! "value"))
  .ok (.op o c v)

mutual
/-- `SQLWhereClause` (`plan_model.py:221-232`). -/
def loadWhere (code : Rat → Nat) : Nat → Yaml → Except LoadErr Where
  | 0, _ => .error .fuel
  | n + 1, y => do
    let (s, d) ← loadTag y
    if s = str! "false" then .ok .false_
    else if s = str! "true" then .ok .true_
    else if s = str! "operator" then loadOpClause code d
    else if s = str! "in" then do
      -- `SQLWhereClauseIn` (`plan_model.py:80-84`)
      let cols ← need (asList asStr) (dget d (str! "columns"))
      let neg ← want false asBool (dget d (str! "negated"))
      match dget d (str! "values") with
      | none => .error .missing
      | some v =>
        match asList (asList (asVal code)) v with
        | .ok vals => .ok (.inVals cols vals neg)
        | .error _ => do
          let st ← loadStmt code n v
          .ok (.inStmt cols st neg)
    else if s = str! "and" then do
      let cs ← need (asList (loadWhere code n)) (dget d (str! "conditions"))
      .ok (.and cs)
    else if s = str! "or" then do
      let cs ← need (asList (loadWhere code n)) (dget d (str! "conditions"))
      .ok (.or cs)
    else if s = str! "random" then do
      let q ← need asFloat (dget d (str! "threshold"))
      .ok (.random q 0)
    else if s = str! "sql" then do
      let t ← need asStr (dget d (str! "sql"))
      .ok (.sql t)
    else .error .tag

/-- `SQLStatementSelect` (`plan_model.py:242-251`); `type` has been checked. -/
def loadSel (code : Rat → Nat) : Nat → Items → Except LoadErr Sel
  | 0, _ => .error .fuel
  | n + 1, d => do
    let columns ← want none (asOpt (asList asStr)) (dget d (str! "columns"))
    let from_ ← need loadTableId (lookupField d (str! "from") (str! "from_"))
    let where_ ← want none (asOpt (loadWhere code n)) (dget d (str! "where"))
    let limit ← want none (asOpt asNat) (dget d (str! "limit"))
    let joins ← want none (asOpt (asList loadJoin)) (dget d (str! "joins"))
    let outer ← want false asBool (dget d (str! "joins_outer"))
    .ok (.mk columns from_ where_ limit joins outer 0)

/-- An item of `statements`: no union, so only the literal `select` is accepted as its type.
`plan_model.py:243,339`. -/
def loadItem (code : Rat → Nat) : Nat → Yaml → Except LoadErr Sel
  | 0, _ => .error .fuel
  | n + 1, y => do
    let d ← asMap y
    let s ← need asStr (lookupField d (str! "type") (str! "type_"))
    if s = str! "select" then loadSel code n d else .error .type

/-- `SQLStatement` (`plan_model.py:387-393`). -/
def loadStmt (code : Rat → Nat) : Nat → Yaml → Except LoadErr Stmt
  | 0, _ => .error .fuel
  | n + 1, y => do
    let (s, d) ← loadTag y
    if s = str! "select" then do
      let q ← loadSel code n d
      .ok (.select q)
    else if s = str! "union" then do
      let l ← need (asList (loadItem code n)) (dget d (str! "statements"))
      .ok (.union l)
    else .error .tag
end

mutual
/-- Nesting of a document, the fuel of `loadStmt`.  `__main__.py:178`. -/
def Yaml.depth : Yaml → Nat
  | .leaf _ => 0
  | .seq l => Yaml.depths l + 1
  | .map d => itemsDepth d + 1
/-- Nesting of the elements of a list.  `__main__.py:178`. -/
def Yaml.depths : List Yaml → Nat
  | [] => 0
  | y :: ys => max y.depth (Yaml.depths ys)
/-- Nesting of the items of a dict.  `__main__.py:178`. -/
def itemsDepth : List (Str × Yaml) → Nat
  | [] => 0
  | x :: d => max (pairDepth x) (itemsDepth d)
/-- Nesting of an item of a dict.  `__main__.py:178`. -/
def pairDepth : Str × Yaml → Nat
  | (_, y) => y.depth
end

/-- `SQLTableQuery` (`plan_model.py:396-400`); if neither field is set, `build` raises an error (line 410), here
the query is not accepted. -/
def loadQuery (code : Rat → Nat) (y : Yaml) : Except LoadErr TableQuery := do
  let d ← asMap y
  let sql ← want none (asOpt asStr) (dget d (str! "sql"))
  let st ← want none (asOpt (loadStmt code (3 * y.depth + 3))) (dget d (str! "statement"))
  match sql with
  | some t => .ok (.sql t)
  | none =>
    match st with
    | some st => .ok (.statement st)
    | none => .error .missing

/-- The values of a dict.  `plan_model.py:414`. -/
def loadItems {α : Type} (f : Yaml → Except LoadErr α) : Items → Except LoadErr (Dict Str α)
  | [] => .ok []
  | (k, y) :: d => do
    let a ← f y
    let rest ← loadItems f d
    .ok ((k, a) :: rest)

/-- A field of type `Dict[str, ...]`.  `plan_model.py:206,399,414`. -/
def asDict {α : Type} (f : Yaml → Except LoadErr α) : Yaml → Except LoadErr (Dict Str α)
  | .map d => loadItems f d
  | _ => .error .type

/-- `SubsetPlan.model_validate` (`plan_model.py:413-415`, `__main__.py:178`). -/
def loadPlan (code : Rat → Nat) (y : Yaml) : Except LoadErr Plan := do
  let d ← asMap y
  let queries ← need (asDict (loadQuery code)) (dget d (str! "queries"))
  let passthrough ← want [] (asList asStr) (dget d (str! "passthrough"))
  .ok ⟨queries, passthrough⟩

/-! ### Writing

`plan.model_dump(exclude_unset=True, by_alias=True)` (`__main__.py:161`) writes the fields that were set when the
object was made. The model's plans do not record which fields were set, so writing is a relation: a field with a
default may be missing if its value is the default. The order of keys is left open. -/

/-- A field that was set.  `__main__.py:161`. -/
def Set' (d : Items) (key : Str) (P : Yaml → Prop) : Prop := ∃ y, dget d key = some y ∧ P y

/-- A field that may be unset if it has the default value.  `__main__.py:161`. -/
def Unset (d : Items) (key : Str) (isDefault : Prop) (P : Yaml → Prop) : Prop :=
  (dget d key = none ∧ isDefault) ∨ Set' d key P

/-- A string.  `__main__.py:160-166`. -/
def DumpsStr (s : Str) (y : Yaml) : Prop := y = .leaf (.str s)
/-- A boolean.  `__main__.py:160-166`. -/
def DumpsBool (b : Bool) (y : Yaml) : Prop := y = .leaf (.bool b)
/-- A natural number.  `__main__.py:160-166`. -/
def DumpsNat (n : Nat) (y : Yaml) : Prop := y = .leaf (.int n)

/-- A list.  `__main__.py:160-166`. -/
def DumpsList {α : Type} (P : α → Yaml → Prop) (l : List α) (y : Yaml) : Prop :=
  ∃ ys, y = .seq ys ∧ List.Forall₂ P l ys

/-- A value or `None`.  `__main__.py:160-166`. -/
def DumpsOpt {α : Type} (P : α → Yaml → Prop) : Option α → Yaml → Prop
  | none, y => y = .leaf .null
  | some a, y => P a y

/-- A literal.  `__main__.py:160-166`, `common.py:18`. -/
def DumpsVal (code : Rat → Nat) : Val → Yaml → Prop
  | .null, _ => False
  | .int i, y => y = .leaf (.int i)
  | .str s, y => y = .leaf (.str s)
  | .other n, y => ∃ q, code q = n ∧ y = .leaf (.float q)

/-- An operator; `!=` may be written in two ways.  `__main__.py:160-166`, `common.py:17`. -/
def DumpsOp : Op → Yaml → Prop
  | .lt, y => y = .leaf (.str (str! "<"))
  | .gt, y => y = .leaf (.str (str! ">"))
  | .eq, y => y = .leaf (.str (str! "="))
  | .ne, y => y = .leaf (.str (str! "<>")) ∨ y = .leaf (.str (str! "!="))
  | .like, y => y = .leaf (.str (str! "like"))
  | .notLike, y => y = .leaf (.str (str! "not like"))

/-- `SQLTableIdentifier`.  `__main__.py:160-166`, `plan_model.py:16-21`. -/
def DumpsTableId (t : TableId) (y : Yaml) : Prop :=
  ∃ d, y = .map d ∧ Set' d (str! "schema") (DumpsStr t.schema) ∧ Set' d (str! "table") (DumpsStr t.name) ∧
    Unset d (str! "sampled") (t.sampled = false) (DumpsBool t.sampled)

/-- `SQLLeftJoin`.  `__main__.py:160-166`, `plan_model.py:235-239`. -/
def DumpsJoin (j : Join) (y : Yaml) : Prop :=
  ∃ d, y = .map d ∧ Set' d (str! "right") (DumpsTableId j.right) ∧
    Set' d (str! "left_columns") (DumpsList DumpsStr j.leftColumns) ∧
    Set' d (str! "right_columns") (DumpsList DumpsStr j.rightColumns) ∧
    Unset d (str! "half_unique") (j.halfUnique = true) (DumpsBool j.halfUnique)

mutual
/-- Conditions. The tag of `random` has no counterpart in the code and is 0.
`__main__.py:160-166`, `plan_model.py:27-232`. -/
def DumpsWhere (code : Rat → Nat) : Where → Yaml → Prop
  | .false_, y => ∃ d, y = .map d ∧ Set' d (str! "type") (DumpsStr (str! "false"))
  | .true_, y => ∃ d, y = .map d ∧ Set' d (str! "type") (DumpsStr (str! "true"))
  | .op o c v, y => ∃ d, y = .map d ∧ Set' d (str! "type") (DumpsStr (str! "operator")) ∧
      Unset d (str! "operator") (o = .eq) (DumpsOp o) ∧ Set' d (str! "column") (DumpsStr c) ∧
      Set' d (str! "value") (DumpsVal code v)
  | .inVals cols vals neg, y => ∃ d, y = .map d ∧ Set' d (str! "type") (DumpsStr (str! "in")) ∧
      Set' d (str! "columns") (DumpsList DumpsStr cols) ∧
      Set' d (str! "values") (DumpsList (DumpsList (DumpsVal code)) vals) ∧
      Unset d (str! "negated") (neg = false) (DumpsBool neg)
  | .inStmt cols st neg, y => ∃ d, y = .map d ∧ Set' d (str! "type") (DumpsStr (str! "in")) ∧
      Set' d (str! "columns") (DumpsList DumpsStr cols) ∧
      Set' d (str! "values") (DumpsStmt code st) ∧
      Unset d (str! "negated") (neg = false) (DumpsBool neg)
  | .and cs, y => ∃ d ys, y = .map d ∧ Set' d (str! "type") (DumpsStr (str! "and")) ∧
      dget d (str! "conditions") = some (.seq ys) ∧ DumpsWheres code cs ys
  | .or cs, y => ∃ d ys, y = .map d ∧ Set' d (str! "type") (DumpsStr (str! "or")) ∧
      dget d (str! "conditions") = some (.seq ys) ∧ DumpsWheres code cs ys
  | .random q tag, y => ∃ d, y = .map d ∧ Set' d (str! "type") (DumpsStr (str! "random")) ∧
      Set' d (str! "threshold") (fun y => y = .leaf (.float q)) ∧ tag = 0
  | .sql t, y => ∃ d, y = .map d ∧ Set' d (str! "type") (DumpsStr (str! "sql")) ∧ Set' d (str! "sql") (DumpsStr t)
/-- `conditions`.  `__main__.py:160-166`, `plan_model.py:111,149`. -/
def DumpsWheres (code : Rat → Nat) : List Where → List Yaml → Prop
  | [], ys => ys = []
  | c :: cs, ys => ∃ z zs, ys = z :: zs ∧ DumpsWhere code c z ∧ DumpsWheres code cs zs
/-- `where`.  `__main__.py:160-166`, `plan_model.py:246`. -/
def DumpsOptWhere (code : Rat → Nat) : Option Where → Yaml → Prop
  | none, y => y = .leaf .null
  | some w, y => DumpsWhere code w y
/-- Selects. The tag has no counterpart in the code and is 0.
`__main__.py:160-166`, `plan_model.py:242-251`. -/
def DumpsSel (code : Rat → Nat) : Sel → Yaml → Prop
  | .mk columns from_ where_ limit joins outer tag, y =>
    ∃ d, y = .map d ∧ Set' d (str! "type") (DumpsStr (str! "select")) ∧
      Unset d (str! "columns") (columns = none) (DumpsOpt (DumpsList DumpsStr) columns) ∧
      Set' d (str! "from") (DumpsTableId from_) ∧
      Unset d (str! "where") (where_ = none) (DumpsOptWhere code where_) ∧
      Unset d (str! "limit") (limit = none) (DumpsOpt DumpsNat limit) ∧
      Unset d (str! "joins") (joins = none) (DumpsOpt (DumpsList DumpsJoin) joins) ∧
      Unset d (str! "joins_outer") (outer = false) (DumpsBool outer) ∧ tag = 0
/-- `statements`.  `__main__.py:160-166`, `plan_model.py:339`. -/
def DumpsSels (code : Rat → Nat) : List Sel → List Yaml → Prop
  | [], ys => ys = []
  | s :: ss, ys => ∃ z zs, ys = z :: zs ∧ DumpsSel code s z ∧ DumpsSels code ss zs
/-- `SQLStatement`.  `__main__.py:160-166`, `plan_model.py:337-342,387-393`. -/
def DumpsStmt (code : Rat → Nat) : Stmt → Yaml → Prop
  | .select s, y => DumpsSel code s y
  | .union ss, y => ∃ d ys, y = .map d ∧ Set' d (str! "type") (DumpsStr (str! "union")) ∧
      dget d (str! "statements") = some (.seq ys) ∧ DumpsSels code ss ys
end

/-- The other field of a query is `None`.  `__main__.py:160-166`, `plan_model.py:396-400`. -/
def DumpsQuery (code : Rat → Nat) : TableQuery → Yaml → Prop
  | .sql t, y => ∃ d, y = .map d ∧ Set' d (str! "sql") (DumpsStr t) ∧
      Unset d (str! "statement") True (fun y => y = .leaf .null)
  | .statement st, y => ∃ d, y = .map d ∧ Unset d (str! "sql") True (fun y => y = .leaf .null) ∧
      Set' d (str! "statement") (DumpsStmt code st)

/-- The file written for a plan; the keys of `queries` come in some order.
`__main__.py:160-166`, `plan_model.py:413-415`. -/
def DumpsPlan (code : Rat → Nat) (p : Plan) (y : Yaml) : Prop :=
  ∃ d, y = .map d ∧
    Set' d (str! "queries") (fun z => ∃ qs zs, z = .map zs ∧ qs.Perm p.queries ∧
      List.Forall₂ (fun (q : Str × TableQuery) (z : Str × Yaml) => z.1 = q.1 ∧ DumpsQuery code q.2 z.2) qs zs) ∧
    Unset d (str! "passthrough") (p.passthrough = []) (DumpsList DumpsStr p.passthrough)

end Subsetter
