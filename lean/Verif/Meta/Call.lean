import Verif.Meta.Inputs
import Verif.Meta.Params
import Verif.Meta.Registry

/-!
# The call protocol: `MetaIndicator.__call__` (`btalib/indicator.py:79-181`)
-/

namespace Bta.Meta

open Py

/-! ## Order of the initialisers -/

section Inits

variable {F : Type} [DecidableEq F]

/-- `b.m` for the first class of the chain (most derived first): the nearest definition of a method (single
inheritance). (python attribute lookup, indicator.py:105, 140, 151) -/
def lookup : List (Option F) → Option F
  | [] => none
  | some f :: _ => some f
  | none :: l => lookup l

/-- `b.m for b in bases` (indicator.py:91-95): for every class of the chain what it finds. -/
def lookups : List (Option F) → List F
  | [] => []
  | l@(_ :: t) => (lookup l).toList ++ lookups t

/-- `reversed(list(dict.fromkeys(b.m for b in bases)))` (indicator.py:106, 140, 151) -/
def runOrder (chain : List (Option F)) : List F := (fromkeys (lookups chain)).reverse

end Inits

/-! ## ta-lib compatibility -/

/-- indicator.py:98: `kwargs.pop('_talib', False) or config.get_talib_compat()`: the flag and the keywords which remain. -/
def talibFlag (globalFlag : Bool) (kw : Dict String PyVal) : Bool × Dict String PyVal :=
  (((get? kw "_talib").getD (.bool false)).truthy || globalFlag, erase kw "_talib")

/-- One `_talib` method, as far as keywords are concerned: a sequence of `kwdict.setdefault(name, value)`. (the `_talib` methods of indicators/*.py) -/
abbrev Hook := List (String × PyVal)

/-- A `_talib` method at work. (indicator.py:139-141) -/
def runHook (kw : Dict String PyVal) (h : Hook) : Dict String PyVal := h.foldl (fun d p => setdefault d p.1 p.2) kw

/-- indicator.py:98, 138-141: the keywords which are then split into parameters and others.  `chain` are the hooks along
the classes (identified by their contents here; equal hooks have the same effect), most derived first. -/
def talibKwargs (globalFlag : Bool) (hooks : List Hook) (kw : Dict String PyVal) : Dict String PyVal :=
  let fk := talibFlag globalFlag kw
  if fk.1 then hooks.foldl runHook fk.2 else fk.2

/-! ## Keywords and positional arguments which are left over -/

/-- indicator.py:151-152: every distinct `__init__` along the chain is called with all that is left over; the call itself
raises TypeError if the function does not take them (too many positional arguments, an unknown keyword, or a keyword
which also comes by position). -/
def takes (r : Row) (npos : Nat) (kws : List String) : Bool :=
  if r.name = "Indicator" then true
  else decide (npos ≤ r.kws.length) && kws.all (fun k => (decide (k ∈ r.kws.drop npos) || (r.anykw && decide (k ∉ r.kws))))

/-- The first of the initialisers which does not take them, if there is. (indicator.py:151-152) -/
def initCheck (chain : List Row) (npos : Nat) (kws : List String) : Except Err Unit :=
  if (chain.reverse.filter (·.init)).all (fun r => takes r npos kws) then .ok () else .error .typeError

/-! ## Calls -/

variable {V : Type}

/-- What a class has for `__call__`: its inputs, `allowinputs`, and what its `_talib` appends to the list of slots of its
outputs (only stochrsi.py:77). -/
structure ClassInfo where
  inputs : List String
  allow : Nat
  appends : List String
deriving DecidableEq, Repr

/-- The state of the library which survives a call: the length of `metadata.callstack` and the lists `__slots__` of the
generated classes for inputs and outputs. (indicator.py:19, inputs.py:82, stochrsi.py:77) -/
structure Glob where
  stack : Nat
  inSlots : String → List String
  outSlots : String → List String

/-- Classes and configuration. (config.py, indicator.py:79-181) -/
structure World where
  cfg : Config
  low : String → String
  classes : String → ClassInfo
  talib : Bool
  retDf : Bool

/-- A call: the class, the positional arguments, the keywords. (indicator.py:79) -/
structure Call (V : Type) where
  cls : String
  args : List (Arg V)
  kw : Dict String PyVal

/-- What the initialisers see: the input lines, the arguments left over, the keywords and the ta-lib flag. (indicator.py:109-145) -/
structure View (V : Type) where
  lines : List (Line V)
  rest : List (Arg V)
  kw : Dict String PyVal
  talib : Bool

/-- The result of a call: the output lines, and whether it is returned as a DataFrame. (indicator.py:168-181) -/
structure Res (V : Type) where
  outs : List (Line V)
  df : Bool

/-- What initialisers do: calls of other indicators (whose initialisers are part of the tree), with the results at hand;
in the end outputs are set or an exception is raised.  No initialiser of the library catches exceptions. (indicator.py:151-152) -/
inductive Body (V : Type) where
  | ret (outs : Dict String (Line V))
  | raise (e : Err)
  | call (c : Call V) (inner : View V → Body V) (next : Res V → Body V)

def updSlots (f : String → List String) (c : String) (s : List String) : String → List String :=
  fun n => if n = c then s else f n

/-- The state when the initialisers start: inputs.py:82, indicator.py:139-141 (stochrsi.py:77), 148. -/
def enter (w : World) (c : Call V) (g : Glob) (k : InCls) : Glob :=
  ⟨g.stack + 1, updSlots g.inSlots c.cls k.slots,
    if (talibFlag w.talib c.kw).1 then updSlots g.outSlots c.cls (g.outSlots c.cls ++ (w.classes c.cls).appends)
    else g.outSlots⟩

/-- `__call__` (indicator.py:79-181).  `run` executes the initialisers.  Left out: the aliases (`data`, `d0`, ...).

* 98 the flag, 114-119 inputs: if this fails nothing has happened;
* 139-141 `_talib` (keywords are in `talibKwargs`);
* 148 `callstack.append`, 151-152 initialisers, 169 `_update_minperiod`, which needs all outputs, 173 `callstack.pop`:
  there is no `try`/`finally`, so the `pop` is not reached if one of them raises;
* 176-181 what is returned. -/
def invokeWith (w : World) (c : Call V) (g : Glob)
    (run : View V → Glob → Except Err (Dict String (Line V)) × Glob) : Except Err (Res V) × Glob :=
  let i := w.classes c.cls
  let fk := talibFlag w.talib c.kw
  match bindInputs w.cfg w.low (decide (g.stack = 0)) ⟨i.inputs, i.allow, g.inSlots c.cls⟩ c.args with
  | .error e => (.error e, g)
  | .ok (ls, rest, k) =>
    match run ⟨ls, rest, fk.2, fk.1⟩ (enter w c g k) with
    | (.error e, g2) => (.error e, g2)
    | (.ok outs, g2) =>
      match (g2.outSlots c.cls).mapM (get? outs) with
      | none => (.error .attributeError, g2)
      | some lines => (.ok ⟨lines, decide (g2.stack - 1 = 0) && w.retDf⟩, { g2 with stack := g2.stack - 1 })

/-- Execution of initialisers. (indicator.py:151-152) -/
def exec (w : World) : Body V → Glob → Except Err (Dict String (Line V)) × Glob
  | .ret outs, g => (.ok outs, g)
  | .raise e, g => (.error e, g)
  | .call c inner next, g =>
    match invokeWith w c g (fun v g => exec w (inner v) g) with
    | (.error e, g') => (.error e, g')
    | (.ok r, g') => exec w (next r) g'

/-- A call by the user, with the initialisers `inner`. (indicator.py:79-181) -/
def invoke (w : World) (c : Call V) (inner : View V → Body V) (g : Glob) : Except Err (Res V) × Glob :=
  invokeWith w c g (fun v g => exec w (inner v) g)

/-- A history of calls by the user, who goes on after exceptions. (repeated indicator.py:79-181) -/
def history (w : World) : List (Call V × (View V → Body V)) → Glob → Glob
  | [], g => g
  | (c, b) :: h, g => history w h (invoke w c b g).2

/-! ## Threads -/

/-- `metadata = threading.local()` (metadata.py:11): every thread has its own attributes.  They are set when the modules
are imported (indicator.py:17, lines.py:610-611), so in the importing thread only. -/
abbrev ThreadLocal := Nat → Option Nat

/-- The state with several threads: `callstack` is in the thread-local object, the classes are shared. (metadata.py:11, indicator.py:19) -/
structure MGlob where
  stackOf : ThreadLocal
  inSlots : String → List String
  outSlots : String → List String

/-- After `import btalib` in thread `t`. (indicator.py:19) -/
def MGlob.imported (t : Nat) (inSlots outSlots : String → List String) : MGlob :=
  ⟨fun s => if s = t then some 0 else none, inSlots, outSlots⟩

/-- A call in thread `t`: the first thing which needs `metadata` is the instance of the outputs (indicator.py:110,
`Lines.__init__` lines.py:632-633), which raises AttributeError in a thread which has no attributes there. -/
def mcall (w : World) (t : Nat) (c : Call V) (inner : View V → Body V) (g : MGlob) : Except Err (Res V) × MGlob :=
  match g.stackOf t with
  | none => (.error .attributeError, g)
  | some n =>
    let r := invoke w c inner ⟨n, g.inSlots, g.outSlots⟩
    (r.1, ⟨fun s => if s = t then some r.2.stack else g.stackOf s, r.2.inSlots, r.2.outSlots⟩)

/-- A schedule: calls of several threads in any order (a call of a thread without attributes stops before it touches
anything, so the calls which do something all are in one thread and do not overlap).  The results, in order. (repeated indicator.py:79-181) -/
def schedule (w : World) : List (Nat × Call V × (View V → Body V)) → MGlob → List (Nat × Except Err (Res V)) × MGlob
  | [], g => ([], g)
  | (t, c, b) :: l, g =>
    let r := mcall w t c b g
    let s := schedule w l r.2
    ((t, r.1) :: s.1, s.2)

end Bta.Meta
