import Verif.Model.SqlAst

/-
Model of the `build` methods of `/repo/subsetter/plan_model.py`: the statements made from a plan.
-/
namespace Subsetter

/-- What is used of an `sa.Table`.  `plan_model.py:254,258,269,274,299`. -/
structure TableObj where
  obj : SqlObj
  columns : List Str
  primaryKey : List Str

/-- What `sql_build_context` looks tables up in (`metadata.py:210-225`): the tables of the source, the temporary tables
by number of the copy, and whether they can be opened twice in a statement. -/
structure BuildCtx where
  source : Key → Option TableObj
  temp : Key → Nat → Option TableObj
  reopen : Bool

/-- `reference_count` of the context and the number of the next anonymous alias.
`metadata.py:211,218-221`, `plan_model.py:267`. -/
structure BuildState where
  counts : Dict Key Nat
  fresh : Nat

/-- Exceptions of `build`: a table or column that does not exist.
`metadata.py:222-223`, `plan_model.py:61,89,258,274,283,289`. -/
inductive BuildErr where
  | keyError
  deriving DecidableEq, Repr

/-- `_context` (`metadata.py:213-223`). -/
def BuildCtx.call (X : BuildCtx) (t : TableId) (s : BuildState) : Except BuildErr (TableObj × BuildState) :=
  if t.sampled then
    let i := if X.reopen then 0 else (dget s.counts t.key).getD 0
    match X.temp t.key i with
    | none => .error .keyError
    | some o => .ok (o, if X.reopen then s else ⟨dset s.counts t.key (i + 1), s.fresh⟩)
  else
    match X.source t.key with
    | none => .error .keyError
    | some o => .ok (o, s)

/-- `table_obj.columns[c]`, of the table under the name `n`.
`plan_model.py:61,89,258,274,283`. -/
def TableObj.col (o : TableObj) (n : Name) (c : Str) : Except BuildErr Col :=
  if c ∈ o.columns then .ok ⟨n, c⟩ else .error .keyError

/-- `table.c[l] == right.c[r] for l, r in zip(...)` (`plan_model.py:273-278, 289-294`). -/
def joinOn (o r : TableObj) (n : Name) : List (Str × Str) → Except BuildErr (List (Col × Col))
  | [] => .ok []
  | e :: es =>
    match o.col (.obj o.obj) e.1 with
    | .error x => .error x
    | .ok a =>
      match r.col n e.2 with
      | .error x => .error x
      | .ok b =>
        match joinOn o r n es with
        | .error x => .error x
        | .ok l => .ok ((a, b) :: l)

/-- What the loop over the joins has collected (`plan_model.py:262-295`): `joined`, `joined_cols` and
`exists_constraints`. -/
structure Joined where
  from_ : From
  cols : List Col
  conds : List Cond
  /-- whether `joined is not table_obj` -/
  any : Bool

/-- The loop over the joins (`plan_model.py:266-295`). -/
def buildJoins (X : BuildCtx) (o : TableObj) (outer : Bool) :
    List Join → Joined → BuildState → Except BuildErr (Joined × BuildState)
  | [], J, s => .ok (J, s)
  | j :: js, J, s =>
    match X.call j.right s with
    | .error e => .error e
    | .ok (r, s1) =>
      let n := Name.alias s1.fresh
      match joinOn o r n (j.leftColumns.zip j.rightColumns) with
      | .error e => .error e
      | .ok on =>
        if j.halfUnique && !o.primaryKey.isEmpty then
          match j.rightColumns.mapM (r.col n) with
          | .error e => .error e
          | .ok cs => buildJoins X o outer js ⟨.join J.from_ r.obj n on outer, J.cols ++ cs, J.conds, true⟩ ⟨s1.counts, s1.fresh + 1⟩
        else
          buildJoins X o outer js ⟨J.from_, J.cols, J.conds ++ [.exists_ r.obj n (on.map fun e => .eq e.1 e.2)], J.any⟩
            ⟨s1.counts, s1.fresh + 1⟩

/-- The condition added for the joins (`plan_model.py:301-305`); an empty `sa.or_` is left out. -/
def joinWhere (outer : Bool) (J : Joined) : List Cond :=
  if outer then
    let cs := J.conds ++ J.cols.map .notNull
    if cs.isEmpty then [] else [.or cs]
  else if J.conds.isEmpty then [] else [.and J.conds]

/-- The columns selected (`plan_model.py:256-260`). -/
def buildItems (o : TableObj) : Option (List Str) → Except BuildErr (List Item)
  | some (c :: cs) =>
    match (c :: cs).mapM (o.col (.obj o.obj)) with
    | .error e => .error e
    | .ok xs => .ok (xs.map fun x => .col x x.name)
  | _ => .ok (o.columns.map fun c => .col ⟨.obj o.obj, c⟩ c)

/-- FROM, JOIN and GROUP BY of a select (`plan_model.py:262-299`). -/
def buildFrom (X : BuildCtx) (o : TableObj) (outer : Bool) (joins : Option (List Join)) (s : BuildState) :
    Except BuildErr (From × List Cond × Option (List Col) × BuildState) :=
  match joins with
  | some (j :: js) =>
    match buildJoins X o outer (j :: js) ⟨.table o.obj, [], [], false⟩ s with
    | .error e => .error e
    | .ok (J, s1) =>
      .ok (J.from_, joinWhere outer J, if J.any then some (o.primaryKey.map fun c => ⟨.obj o.obj, c⟩) else none, s1)
  | _ => .ok (.table o.obj, [], none, s)

mutual
/-- `SQLWhereClause*.build(context, table_obj)` (`plan_model.py:32-214`); `t` is the identifier of the table. -/
def Where.build (X : BuildCtx) (t : TableId) (o : TableObj) : Where → BuildState → Except BuildErr (Cond × BuildState)
  | .false_, s => .ok (.false_, s)
  | .true_, s => .ok (.true_, s)
  | .op x c v, s =>
    match o.col (.obj o.obj) c with
    | .error e => .error e
    | .ok c' => .ok (.cmp x c' v, s)
  | .inVals cs vs neg, s =>
    match cs.mapM (o.col (.obj o.obj)) with
    | .error e => .error e
    | .ok cs' => .ok (if neg then .not (.inVals cs' vs) else .inVals cs' vs, s)
  | .inStmt cs st neg, s =>
    match cs.mapM (o.col (.obj o.obj)) with
    | .error e => .error e
    | .ok cs' =>
      match Stmt.build X st s with
      | .error e => .error e
      | .ok (q, s1) => .ok (if neg then .not (.inQuery cs' q) else .inQuery cs' q, s1)
  | .and cs, s =>
    match Where.builds X t o cs s with
    | .error e => .error e
    | .ok (l, s1) => .ok (if cs.isEmpty then .true_ else .and l, s1)
  | .or cs, s =>
    match Where.builds X t o cs s with
    | .error e => .error e
    | .ok (l, s1) => .ok (if cs.isEmpty then .false_ else .or l, s1)
  | .random thr tag, s => .ok (.random thr t tag, s)
  | .sql x, s => .ok (.text x t (.obj o.obj), s)
/-- `build` of the conditions of a clause, in order.  `plan_model.py:118,156`. -/
def Where.builds (X : BuildCtx) (t : TableId) (o : TableObj) :
    List Where → BuildState → Except BuildErr (List Cond × BuildState)
  | [], s => .ok ([], s)
  | w :: ws, s =>
    match Where.build X t o w s with
    | .error e => .error e
    | .ok (c, s1) =>
      match Where.builds X t o ws s1 with
      | .error e => .error e
      | .ok (l, s2) => .ok (c :: l, s2)
/-- `SQLStatementSelect.build` (`plan_model.py:253-314`). -/
def Sel.build (X : BuildCtx) : Sel → BuildState → Except BuildErr (Query × BuildState)
  | .mk cols t none limit joins outer tag, s =>
    match X.call t s with
    | .error e => .error e
    | .ok (o, s1) =>
      match buildItems o cols with
      | .error e => .error e
      | .ok items =>
        match buildFrom X o outer joins s1 with
        | .error e => .error e
        | .ok (f, cs, g, s2) => .ok (.select items f cs g (limit.map fun n => (n, t, tag)), s2)
  | .mk cols t (some w) limit joins outer tag, s =>
    match X.call t s with
    | .error e => .error e
    | .ok (o, s1) =>
      match buildItems o cols with
      | .error e => .error e
      | .ok items =>
        match buildFrom X o outer joins s1 with
        | .error e => .error e
        | .ok (f, cs, g, s2) =>
          match Where.build X t o w s2 with
          | .error e => .error e
          | .ok (c, s3) => .ok (.select items f (cs ++ [c]) g (limit.map fun n => (n, t, tag)), s3)
/-- `build` of the statements of a union, in order.  `plan_model.py:345`. -/
def Sel.builds (X : BuildCtx) : List Sel → BuildState → Except BuildErr (List Query × BuildState)
  | [], s => .ok ([], s)
  | x :: xs, s =>
    match Sel.build X x s with
    | .error e => .error e
    | .ok (q, s1) =>
      match Sel.builds X xs s1 with
      | .error e => .error e
      | .ok (l, s2) => .ok (q :: l, s2)
/-- `SQLStatementUnion.build` (`plan_model.py:344-345`). -/
def Stmt.build (X : BuildCtx) : Stmt → BuildState → Except BuildErr (Query × BuildState)
  | .select x, s => Sel.build X x s
  | .union xs, s =>
    match Sel.builds X xs s with
    | .error e => .error e
    | .ok (l, s1) => .ok (.union l, s1)
end

/-- `SQLTableQuery.build` (`plan_model.py:402-410`) with a fresh context. -/
def TableQuery.build (X : BuildCtx) : TableQuery → Except BuildErr (Query × BuildState)
  | .sql x => .ok (.text x, ⟨[], 0⟩)
  | .statement st => st.build X ⟨[], 0⟩

end Subsetter
