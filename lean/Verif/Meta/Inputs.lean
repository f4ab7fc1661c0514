import Verif.Line
import Verif.Meta.Py

/-!
# Binding of arguments to inputs: `btalib/meta/inputs.py`, `btalib/config.py`, `btalib/meta/lines.py` (MetaLine)
-/

namespace Bta.Meta

open Py

/-- A value of `OHLC_INDICES` (config.py:12-19, 29-30): a column number or, if the user configures it, a column name. -/
inductive ColRef where
  | num (i : Int)
  | str (s : String)
deriving DecidableEq, Repr

/-- The part of config.py which is read when inputs are bound. (config.py:12-30) -/
structure Config where
  /-- `OHLC_FIRST` (config.py:21) -/
  ohlcFirst : Bool
  /-- `OHLC_INDICES` (config.py:12-19) -/
  indices : Dict String ColRef
deriving Repr

/-- config.py:12-21 -/
def defaultConfig : Config where
  ohlcFirst := false
  indices := [("open", .num 0), ("high", .num 1), ("low", .num 2), ("close", .num 3), ("volume", .num 4),
    ("openinterest", .num 5)]

/-- `set_input_indices(**kwargs)` (config.py:29-30) -/
def Config.setInputIndices (c : Config) (kw : List (String × ColRef)) : Config :=
  { c with indices := update c.indices kw }

/-- `config.OHLC_INDICES.get(clsinput, -1)` followed by the resolution of a configured column name
(inputs.py:111-119 and again 124-132). -/
def configIdx (cfg : Config) (cols : List String) (inp : String) : Except Err Int :=
  match get? cfg.indices inp with
  | none => .ok (-1)
  | some (.num i) => .ok i
  | some (.str s) =>
    match index? cols s with
    | some i => .ok i
    | none => .error (.colIdxStrNotFound inp s)

/-- One round of the loop, up to the decision on the column (inputs.py:108-132). -/
def wantedIdx (cfg : Config) (cols : List String) (free : List Int) (inp : String) : Except Err Int := do
  -- 109-119
  let i ← if cfg.ohlcFirst then configIdx cfg cols inp else .ok (-1)
  -- 121-132
  if i ∈ free then .ok i
  else
    match index? cols inp with
    | some j => .ok j
    | none => configIdx cfg cols inp

/-- Lines 134-137: `colindices.remove(inputidx)` or, if it is not there, the next free column (`pop`). (inputs.py:133-136) -/
def takeIdx (free : List Int) (i : Int) : Except Err (Int × List Int) :=
  match remove? free i with
  | some free' => .ok (i, free')
  | none =>
    match pop? free with
    | some (j, free') => .ok (j, free')
    | none => .error .indexError

/-- The loop over the inputs (inputs.py:105-138): the column number for each input. -/
def bindLoop (cfg : Config) (cols : List String) : List String → List Int → Except Err (List Int)
  | [], _ => .ok []
  | inp :: inps, free => do
    let i ← wantedIdx cfg cols free inp
    let (j, free') ← takeIdx free i
    let rest ← bindLoop cfg cols inps free'
    .ok (j :: rest)

/-- `list(range(len(cols) - 1, -1, -1))` (inputs.py:97) -/
def colIndices (n : Nat) : List Int := (List.range n).reverse.map Int.ofNat

/-- `_from_arg_dataframe` (inputs.py:87-140) up to the column numbers.  `top` says that no indicator is being evaluated
(`not metadata.callstack`); `cols` are the column names after `lower()` (91).  Column labels which are not strings, for
which `lower` does not exist, are not modelled. -/
def dataframeColumns (cfg : Config) (top : Bool) (cols inputs : List String) : Except Err (List Int) :=
  if !top then .error .pandasNotTopStack
  else if cols.length < inputs.length then .error .multiDimSmall
  else bindLoop cfg cols inputs (colIndices cols.length)

variable {V : Type}

/-- A pandas DataFrame: named columns, all of the same length. (used in inputs.py:59, 87-140) -/
structure Frame (V : Type) where
  cols : List (String × List V)

/-- What is passed as positional argument: a Series, a DataFrame, a Line or an indicator (its outputs).  Other objects
("store and pray", lines.py:443-449) are not modelled. -/
inductive Arg (V : Type) where
  | series (xs : List V)
  | frame (df : Frame V)
  | line (l : Line V)
  | holder (outs : List (Line V))

/-- `df.iloc[:, i]`, python indexing: negative numbers count from the end. (inputs.py:138, lines.py:419) -/
def Frame.iloc (df : Frame V) (i : Int) : Except Err (List V) :=
  let n : Int := df.cols.length
  let j := if i < 0 then i + n else i
  if 0 ≤ j ∧ j < n then
    match df.cols[j.toNat]? with
    | some c => .ok c.2
    | none => .error .indexError
  else .error .indexError

/-- `_line_from_dataframe` (lines.py:402-419): one column for a single input. `low` is `str.lower`. -/
def lineFromDataframe (cfg : Config) (low : String → String) (df : Frame V) (name : String) : Except Err (Line V) := do
  let cols := df.cols.map (fun c => low c.1)
  let idx ← match index? cols name with
    | some i => Except.ok (Int.ofNat i)
    | none =>
      match get? cfg.indices name with
      | none => .ok 0
      | some (.num i) => .ok i
      | some (.str _) => .error .typeError  -- `idx >= len(colnames)` with a str
  let idx := if idx ≥ cols.length then 0 else idx
  let xs ← df.iloc idx
  .ok (Line.ofSeries xs)

/-- `Input(val, name)` (`MetaLine.__call__`, lines.py:421-453). -/
def mkInput (cfg : Config) (low : String → String) (a : Arg V) (name : String) : Except Err (Line V) :=
  match a with
  | .holder outs => match outs with
    | [] => .error .indexError
    | l :: _ => .ok l
  | .line l => .ok l
  | .series xs => .ok (Line.ofSeries xs)
  | .frame df => lineFromDataframe cfg low df name

/-- The dictionary comprehension of inputs.py:52-53 and 76-77: `{name: Input(arg, name) for arg, name in zip(..)}`. -/
def mkInputs (cfg : Config) (low : String → String) : List (Arg V) → List String → Except Err (Dict String (Line V))
  | a :: as, n :: ns => do
    let l ← mkInput cfg low a n
    let rest ← mkInputs cfg low as ns
    .ok ((n, l) :: rest)
  | _, _ => .ok []

/-- `_from_arg_dataframe` (inputs.py:87-140): the columns as lines. -/
def fromFrame (cfg : Config) (low : String → String) (top : Bool) (df : Frame V) (inputs : List String) :
    Except Err (Dict String (Line V)) := do
  let idx ← dataframeColumns cfg top (df.cols.map (fun c => low c.1)) inputs
  (inputs.zip idx).mapM (fun p => do
    let xs ← df.iloc p.2
    .ok (p.1, Line.ofSeries xs))

/-- `LinesHolder.size` (linesholder.py:86-88), `Lines.size` (lines.py:645-647): `len(self[0])`, the number of *bars* of
the first output. -/
def holderSize (outs : List (Line V)) : Except Err Nat :=
  match outs with
  | [] => .error .indexError
  | l :: _ => .ok l.series.length

/-- `_from_arg_linesholder` (inputs.py:143-148) -/
def fromHolder (outs : List (Line V)) (inputs : List String) : Except Err (Dict String (Line V)) := do
  let n ← holderSize outs
  if n < inputs.length then .error .multiDimSmall
  else .ok (inputs.zip outs)

/-- What `_from_args` needs of the indicator class: the declared inputs (`cls.inputs`), `allowinputs`, and the list
`__slots__` of the generated Inputs class, which is shared by all instances and can be changed (inputs.py:82). -/
structure InCls where
  inputs : List String
  allow : Nat
  slots : List String
deriving DecidableEq, Repr

/-- A freshly created class (lines.py:87): the slots are the inputs. -/
def InCls.fresh (inputs : List String) (allow : Nat) : InCls := ⟨inputs, allow, inputs⟩

/-- Result of `_from_args`: the attributes set in the instance of Inputs, the remaining arguments and the class as it is
left behind. (inputs.py:80-84) -/
structure Bound (V : Type) where
  attrs : Dict String (Line V)
  rest : List (Arg V)
  cls : InCls

/-- `_from_args` (inputs.py:39-84). -/
def fromArgs (cfg : Config) (low : String → String) (top : Bool) (cls : InCls) (args : List (Arg V)) :
    Except Err (Bound V) :=
  match args with
  | [] => .error .oneInputNeeded
  | a :: as =>
    if cls.inputs.length ≤ (a :: as).length then do
      let d ← mkInputs cfg low ((a :: as).take cls.inputs.length) cls.inputs
      .ok ⟨d, (a :: as).drop cls.inputs.length, cls⟩
    else
      match a with
      | .frame df => do
        let d ← fromFrame cfg low top df cls.inputs
        .ok ⟨d, as, cls⟩
      | .holder outs => do
        let d ← fromHolder outs cls.inputs
        .ok ⟨d, as, cls⟩
      | _ =>
        if cls.allow = 0 then .error .multiDimType
        else do
          let d ← mkInputs cfg low ((a :: as).take cls.allow) cls.inputs
          .ok ⟨d, (a :: as).drop cls.allow, { cls with slots := cls.slots.take cls.allow }⟩

/-- `list(self.inputs)` (indicator.py:118, `Lines.__iter__` lines.py:648-649): one line for each slot; an attribute
which was not set is an AttributeError. -/
def inputLines (b : Bound V) : Except Err (List (Line V)) :=
  b.cls.slots.mapM (fun s => match get? b.attrs s with
    | some l => .ok l
    | none => .error .attributeError)

/-- The lines an indicator gets as `self.inputs` (indicator.py:114-119; `datas[0]` needs at least one). -/
def bindInputs (cfg : Config) (low : String → String) (top : Bool) (cls : InCls) (args : List (Arg V)) :
    Except Err (List (Line V) × List (Arg V) × InCls) := do
  let b ← fromArgs cfg low top cls args
  let ls ← inputLines b
  match ls with
  | [] => .error .indexError
  | _ => .ok (ls, b.rest, b.cls)

end Bta.Meta
