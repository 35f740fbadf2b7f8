import Verif.Model.Py
import Verif.Model.Str

/-
Model of `/repo/subsetter/filters.py`.

Rows are lists of values of an arbitrary type `V`.  What filters obtain from outside (random number
generator, Faker, uuid, plugins) is described by `Outside σ V`: `σ` is the state of the outside world.
-/
namespace Subsetter

/-- Exceptions raised while constructing or running filters.
`filters.py:52-68,160,303,353,487-504,622,630`. -/
inductive FilterErr where
  /-- `filters.py:53` -/
  | noColumn
  /-- `filters.py:58` -/
  | duplicateColumn (c : Str)
  /-- `filters.py:65` -/
  | missingColumn (c : Str)
  /-- `filters.py:353` -/
  | constantLength
  /-- `filters.py:303` -/
  | emptyAlphabet
  /-- `filters.py:484-504` -/
  | pluginLoad (p : Nat)
  /-- `filters.py:622` -/
  | multiplexColumn
  /-- `filters.py:630` -/
  | multiplexOmit
  /-- `filters.py:160` -/
  | cannotZero
  /-- row shorter than the column list -/
  | indexError
  /-- exception raised by a generator, a plugin or a comparison -/
  | outside (n : Nat)
  deriving DecidableEq, Repr

/-- `alphabet` of a random string (`filters.py:277-287`). -/
inductive Alphabet where
  | alnum | hex | hexLower | hexUpper | digit | alpha | alphaLower | alphaUpper | custom
  deriving DecidableEq, Repr

/-- The generators: `FilterRandomInt`, `FilterRandomFloat`, `FilterRandomString`, `FilterUuid` and the
Faker filters (`filters.py:203-463`).  Float bounds are opaque. -/
inductive GenKind where
  | randomInt (low high : Int)
  | randomFloat (low high : Nat)
  | randomString (length : Int) (alphabet : Str)
  | uuid
  | fake (what : Nat) (unique : Bool)
  deriving DecidableEq, Repr

/-- The outside world.
`filters.py:149-160,231-232,263-264,326-327,371-372,409-410,484-506,563-587`. -/
structure Outside (σ V : Type) where
  /-- one value from a generator -/
  gen : GenKind → σ → Except FilterErr (V × σ)
  /-- whether a plugin can be loaded and instantiated -/
  pluginOk : Nat → Bool
  /-- a call of a plugin; it may return any number of values -/
  plugin : Nat → List V → σ → Except FilterErr (List V × σ)
  /-- `None` -/
  none : V
  /-- the `isinstance` chain of `FilterZero` (`filters.py:149-160`); `Option.none`: unknown type -/
  zero : V → Option V
  /-- `MultiplexCondition.match` (`filters.py:563-587`); conditions are numbered -/
  holds : Nat → V → Except FilterErr Bool

/-- `SimpleFilterConfig` (`filters.py:521-553`). -/
inductive SimpleCfg (V : Type) where
  | zero (columns : List Str)
  | omit (columns : List Str)
  | null (columns : List Str)
  | constant (columns : List Str) (values : List V)
  | randomInt (columns : List Str) (low high : Int)
  | randomFloat (columns : List Str) (low high : Nat)
  | randomString (columns : List Str) (length : Int) (alphabet : Alphabet) (custom : Option Str)
  | uuid (columns : List Str)
  | fake (columns : List Str) (what : Nat) (unique : Bool)
  | plugin (columns : List Str) (p : Nat)

/-- `FilterConfig` (`filters.py:643-649`): a simple filter or a multiplexer. -/
inductive FilterCfg (V : Type) where
  | simple (c : SimpleCfg V)
  | multiplex (column : Str) (conditions : List (Nat × SimpleCfg V))

/-- What a `FilterColumns` instance does with the values of its columns.
`filters.py:137-518`. -/
inductive Act (V : Type) where
  | zero
  | null
  | constant (values : List V)
  | gen (g : GenKind)
  | plugin (p : Nat)

/-- Instances of `FilterColumns` and `FilterOmit`.  `filters.py:72-92,163-186`. -/
inductive SimpleView (V : Type) where
  | columns (colsIn : List Str) (indices : List Nat) (act : Act V)
  | omit (colsIn colsOut : List Str) (indices : List Nat)

/-- Instances of `FilterView`.  `filters.py:35-46`. -/
inductive View (V : Type) where
  | simple (v : SimpleView V)
  | multiplex (colsIn : List Str) (index : Nat) (conditions : List (Nat × SimpleView V))

/-- `FilterViewChain` (`filters.py:95-103`). -/
structure Chain (V : Type) where
  colsIn : List Str
  colsOut : List Str
  views : List (View V)

/-- First repeated element (`filters.py:55-58`). -/
def firstDup : List Str → List Str → Option Str
  | _, [] => none
  | seen, c :: cs => if c ∈ seen then some c else firstDup (c :: seen) cs

/-- `{column: index for index, column in enumerate(columns_in)}` looked up (`filters.py:60,63`): the
last index counts. -/
def lastIndex (c : Str) : List Str → Option Nat
  | [] => none
  | d :: ds =>
    match lastIndex c ds with
    | some i => some (i + 1)
    | none => if d = c then some 0 else none

/-- Loop `filters.py:62-68`. -/
def actIndices (colsIn : List Str) : List Str → Except FilterErr (List Nat)
  | [] => .ok []
  | c :: cs =>
    match lastIndex c colsIn with
    | none => .error (.missingColumn c)
    | some i =>
      match actIndices colsIn cs with
      | .error e => .error e
      | .ok is => .ok (i :: is)

/-- `_validate_and_index` (`filters.py:49-69`). -/
def validateAndIndex (colsIn colsAct : List Str) : Except FilterErr (List Nat) :=
  if colsAct.isEmpty then .error .noColumn
  else
    match firstDup [] colsAct with
    | some c => .error (.duplicateColumn c)
    | none => actIndices colsIn colsAct

/-- `FilterColumns.__init__` (`filters.py:73-79`). -/
def mkColumns {V : Type} (colsIn colsAct : List Str) (a : Act V) : Except FilterErr (SimpleView V) :=
  match validateAndIndex colsIn colsAct with
  | .error e => .error e
  | .ok is => .ok (.columns colsIn is a)

/-- `FilterOmit.__init__` (`filters.py:173-182`).  Every output column is an input column, so the
dictionary lookup does not fail. -/
def mkOmit {V : Type} (colsIn colsAct : List Str) : SimpleView V :=
  let out := colsIn.filter fun c => decide (c ∉ colsAct)
  .omit colsIn out (out.filterMap fun c => lastIndex c colsIn)

/-- `_ALPHABET_MAP` (`filters.py:267-276`). -/
def alphabetMap : Alphabet → Option Str
  | .alnum => some (str! "abcdefghijklmnopqrstuvwxyzABCDEFGHIJKLMNOPQRSTUVWXYZ0123456789")
  | .hex => some (str! "0123456789abcdef")
  | .hexLower => some (str! "0123456789abcdef")
  | .hexUpper => some (str! "0123456789ABCDEF")
  | .digit => some (str! "0123456789")
  | .alpha => some (str! "abcdefghijklmnopqrstuvwxyzABCDEFGHIJKLMNOPQRSTUVWXYZ")
  | .alphaLower => some (str! "abcdefghijklmnopqrstuvwxyz")
  | .alphaUpper => some (str! "ABCDEFGHIJKLMNOPQRSTUVWXYZ")
  | .custom => none

/-- `_ALPHABET_MAP.get(self.alphabet, self.custom_alphabet)` (`filters.py:301`). -/
def alphabetOf (a : Alphabet) (custom : Option Str) : Option Str :=
  match alphabetMap a with
  | some s => some s
  | none => custom

/-- `construct_filter` of the simple filters (`filters.py:137-506`). -/
def constructSimple {σ V : Type} (W : Outside σ V) (colsIn : List Str) :
    SimpleCfg V → Except FilterErr (SimpleView V)
  | .zero cs => mkColumns colsIn cs .zero
  | .omit cs => .ok (mkOmit colsIn cs)
  | .null cs => mkColumns colsIn cs .null
  | .constant cs vs =>
    match mkColumns colsIn cs (.constant vs) with
    | .error e => .error e
    | .ok v => if vs.length = cs.length then .ok v else .error .constantLength
  | .randomInt cs l h => mkColumns colsIn cs (.gen (.randomInt l h))
  | .randomFloat cs l h => mkColumns colsIn cs (.gen (.randomFloat l h))
  | .randomString cs n a custom =>
    match alphabetOf a custom with
    | none => .error .emptyAlphabet
    | some s =>
      if s.isEmpty then .error .emptyAlphabet else mkColumns colsIn cs (.gen (.randomString n s))
  | .uuid cs => mkColumns colsIn cs (.gen .uuid)
  | .fake cs w u => mkColumns colsIn cs (.gen (.fake w u))
  | .plugin cs p =>
    if W.pluginOk p then mkColumns colsIn cs (.plugin p) else .error (.pluginLoad p)

/-- `columns_out` of a simple view.  `filters.py:39-42,177-180`. -/
def SimpleView.colsOut {V : Type} : SimpleView V → List Str
  | .columns cs _ _ => cs
  | .omit _ out _ => out

/-- `condition_filters` (`filters.py:624-627`). -/
def constructConds {σ V : Type} (W : Outside σ V) (colsIn : List Str) :
    List (Nat × SimpleCfg V) → Except FilterErr (List (Nat × SimpleView V))
  | [] => .ok []
  | (n, c) :: cs =>
    match constructSimple W colsIn c with
    | .error e => .error e
    | .ok v =>
      match constructConds W colsIn cs with
      | .error e => .error e
      | .ok vs => .ok ((n, v) :: vs)

/-- `self.columns_in.index(column)` (`filters.py:620`): the first index. -/
def firstIndex (c : Str) : List Str → Option Nat
  | [] => none
  | d :: ds => if d = c then some 0 else (firstIndex c ds).map (· + 1)

/-- `construct_filter` of any filter, with `FilterMultiplex.__init__` (`filters.py:607-632`). -/
def constructView {σ V : Type} (W : Outside σ V) (colsIn : List Str) :
    FilterCfg V → Except FilterErr (View V)
  | .simple c =>
    match constructSimple W colsIn c with
    | .error e => .error e
    | .ok v => .ok (.simple v)
  | .multiplex column conds =>
    match firstIndex column colsIn with
    | none => .error .multiplexColumn
    | some i =>
      match constructConds W colsIn conds with
      | .error e => .error e
      | .ok vs =>
        if vs.all fun v => decide (v.2.colsOut = colsIn) then .ok (.multiplex colsIn i vs)
        else .error .multiplexOmit

/-- `columns_out` of a view.  `filters.py:39-42,177-180,616`. -/
def View.colsOut {V : Type} : View V → List Str
  | .simple v => v.colsOut
  | .multiplex cs _ _ => cs

/-- The loop of `FilterViewChain.construct_filter` (`filters.py:122-125`): views and final columns. -/
def constructLoop {σ V : Type} (W : Outside σ V) :
    List Str → List (FilterCfg V) → Except FilterErr (List (View V) × List Str)
  | cols, [] => .ok ([], cols)
  | cols, c :: cs =>
    match constructView W cols c with
    | .error e => .error e
    | .ok v =>
      match constructLoop W v.colsOut cs with
      | .error e => .error e
      | .ok (vs, out) => .ok (v :: vs, out)

/-- `FilterViewChain.construct_filter` (`filters.py:112-126`). -/
def constructFilter {σ V : Type} (W : Outside σ V) (colsIn : List Str) (cfgs : List (FilterCfg V)) :
    Except FilterErr (Chain V) :=
  match constructLoop W colsIn cfgs with
  | .error e => .error e
  | .ok (vs, out) => .ok ⟨colsIn, out, vs⟩

/-- `n` values from a generator.  `filters.py:232,264,327,372,410`. -/
def draws {σ V : Type} (W : Outside σ V) (g : GenKind) : Nat → σ → Except FilterErr (List V × σ)
  | 0, s => .ok ([], s)
  | n + 1, s =>
    match W.gen g s with
    | .error e => .error e
    | .ok (v, s') =>
      match draws W g n s' with
      | .error e => .error e
      | .ok (vs, s'') => .ok (v :: vs, s'')

/-- The values of `FilterZero.filter_values` (`filters.py:147-160`). -/
def zeroAll {σ V : Type} (W : Outside σ V) : List V → Except FilterErr (List V)
  | [] => .ok []
  | v :: vs =>
    match W.zero v with
    | none => .error .cannotZero
    | some z =>
      match zeroAll W vs with
      | .error e => .error e
      | .ok zs => .ok (z :: zs)

/-- `filter_values` of the `FilterColumns` subclasses.
`filters.py:147-160,199-200,231-232,263-264,326-327,357-358,371-372,409-410,517-518`. -/
def Act.run {σ V : Type} (W : Outside σ V) (a : Act V) (vals : List V) (s : σ) :
    Except FilterErr (List V × σ) :=
  match a with
  | .zero =>
    match zeroAll W vals with
    | .error e => .error e
    | .ok zs => .ok (zs, s)
  | .null => .ok (vals.map fun _ => W.none, s)
  | .constant vs => .ok (vs, s)
  | .gen g => draws W g vals.length s
  | .plugin p => W.plugin p vals s

/-- `[values[index] for index in indices]`.  `filters.py:84,186`. -/
def pick {V : Type} (vals : List V) : List Nat → Except FilterErr (List V)
  | [] => .ok []
  | i :: is =>
    match vals[i]? with
    | none => .error .indexError
    | some v =>
      match pick vals is with
      | .error e => .error e
      | .ok vs => .ok (v :: vs)

/-- `for index, value in zip(indices, news): values[index] = value` (`filters.py:86-87`). -/
def place {V : Type} (vals : List V) : List Nat → List V → List V
  | i :: is, v :: vs => place (vals.set i v) is vs
  | _, _ => vals

/-- `filter_view` of `FilterColumns` and `FilterOmit` (`filters.py:81-88,184-186`). -/
def SimpleView.run {σ V : Type} (W : Outside σ V) (v : SimpleView V) (vals : List V) (s : σ) :
    Except FilterErr (List V × σ) :=
  match v with
  | .columns _ is a =>
    match pick vals is with
    | .error e => .error e
    | .ok old =>
      match a.run W old s with
      | .error e => .error e
      | .ok (new, s') => .ok (place vals is new, s')
  | .omit _ _ is =>
    match pick vals is with
    | .error e => .error e
    | .ok out => .ok (out, s)

/-- The loop over conditions of `FilterMultiplex.filter_view` (`filters.py:637-640`). -/
def runConds {σ V : Type} (W : Outside σ V) (x : V) (vals : List V) (s : σ) :
    List (Nat × SimpleView V) → Except FilterErr (List V × σ)
  | [] => .ok (vals, s)
  | (n, v) :: rest =>
    match W.holds n x with
    | .error e => .error e
    | .ok true => v.run W vals s
    | .ok false => runConds W x vals s rest

/-- `filter_view` of a view (`filters.py:634-640` for multiplexers). -/
def View.run {σ V : Type} (W : Outside σ V) (v : View V) (vals : List V) (s : σ) :
    Except FilterErr (List V × σ) :=
  match v with
  | .simple v => v.run W vals s
  | .multiplex _ i conds =>
    match vals[i]? with
    | none => .error .indexError
    | some x => runConds W x vals s conds

/-- The loop of `FilterViewChain.filter_view` (`filters.py:105-109`). -/
def runViews {σ V : Type} (W : Outside σ V) :
    List (View V) → List V → σ → Except FilterErr (List V × σ)
  | [], vals, s => .ok (vals, s)
  | v :: vs, vals, s =>
    match v.run W vals s with
    | .error e => .error e
    | .ok (vals', s') => runViews W vs vals' s'

/-- `FilterViewChain.filter_view` (`filters.py:105-109`). -/
def Chain.run {σ V : Type} (W : Outside σ V) (c : Chain V) (vals : List V) (s : σ) :
    Except FilterErr (List V × σ) := runViews W c.views vals s

/-! ### The values of `FilterZero` -/

/-- Python values as far as `FilterZero` distinguishes them; floats and times are opaque numbers with 0
for `0.0` and the epoch, time zones are numbered.  `filters.py:149-160`. -/
inductive PyVal where
  | none
  | str (s : Str)
  | bool (b : Bool)
  | int (i : Int)
  | float (n : Int)
  | datetime (t : Int) (tz : Option Nat)
  | other (n : Nat)
  deriving DecidableEq, Repr

/-- One step of `FilterZero.filter_values` (`filters.py:149-160`); `bool` is a subclass of `int`. -/
def zeroValue : PyVal → Option PyVal
  | .none => some .none
  | .str _ => some (.str [])
  | .bool _ => some (.int 0)
  | .int _ => some (.int 0)
  | .float _ => some (.float 0)
  | .datetime _ tz => some (.datetime 0 tz)
  | .other _ => Option.none

end Subsetter
