import Verif.Meta.Call

/-!
# The settings of the library: `btalib/config.py`

The module has variables for four settings and functions which set and read them; `OHLC_INDICES` is a dictionary, so what
a reader gets could be the dictionary itself.  Therefore dictionaries are cells of a small memory here, and what users hold
are positions in it.
-/

namespace Bta.Meta

open Py

variable {V : Type}

/-- The variables of config.py, the dictionaries in memory, and the state of the classes.  `onoff` arguments are booleans
here (any python object can be passed, only its truth is used: inputs.py:108, indicator.py:98). (config.py:12-67) -/
structure Lib where
  /-- dictionaries: the first is `OHLC_INDICES` (config.py:12-19), the others have been made by `copy` -/
  mem : List (Dict String ColRef)
  /-- `OHLC_FIRST` (config.py:21) -/
  ohlcFirst : Bool
  /-- `RETVAL` (config.py:37) -/
  ret : String
  /-- `TALIB_COMPAT` (config.py:58) -/
  talib : Bool
  /-- what users hold: for each call of `get_input_indices` the position of the dictionary it returned -/
  held : List Nat
  /-- the state which calls of indicators change -/
  glob : Glob

/-- After `import btalib`. (config.py:12-21, 37, 58) -/
def Lib.init (g : Glob) : Lib := ⟨[defaultConfig.indices], defaultConfig.ohlcFirst, "", false, [], g⟩

/-- The dictionary at a position. (Python references) -/
def Lib.cell (s : Lib) (r : Nat) : Dict String ColRef := s.mem.getD r []

/-- `set_use_ohlc_indices_first(onoff=True)` (config.py:24-26) -/
def Lib.setOhlcFirst (s : Lib) (b : Bool := true) : Lib := { s with ohlcFirst := b }

/-- `set_input_indices(**kwargs)`: `OHLC_INDICES.update(kwargs)`. (config.py:29-30) -/
def Lib.setInputIndices (s : Lib) (kw : Dict String ColRef) : Lib := { s with mem := s.mem.set 0 (update (s.cell 0) kw) }

/-- `get_input_indices()`: `OHLC_INDICES.copy()`, a new dictionary. (config.py:33-34) -/
def Lib.getInputIndices (s : Lib) : Nat × Lib := (s.mem.length, { s with mem := s.mem ++ [s.cell 0] })

/-- `set_return(val)` (config.py:40-42) -/
def Lib.setReturn (s : Lib) (v : String) : Lib := { s with ret := v }

/-- `set_return_dataframe()` (config.py:45-47) -/
def Lib.setReturnDataframe (s : Lib) : Lib := { s with ret := "df" }

/-- `get_return_dataframe()` (config.py:54-55) -/
def Lib.getReturnDataframe (s : Lib) : Bool := decide (s.ret ∈ ["df", "dataframe"])

/-- `set_talib_compat(onoff=True)` (config.py:61-63) -/
def Lib.setTalibCompat (s : Lib) (b : Bool := true) : Lib := { s with talib := b }

/-- What calls read of the settings. (inputs.py:108-131, lines.py:411, indicator.py:98, 178) -/
def Lib.world (s : Lib) (low : String → String) (classes : String → ClassInfo) : World :=
  ⟨⟨s.ohlcFirst, s.cell 0⟩, low, classes, s.talib, s.getReturnDataframe⟩

/-- What a user can do: the functions of config.py, changing a dictionary which was returned (the `k`-th of them, by any
operation on dictionaries), and calls of indicators. (config.py:24-67, indicator.py:79) -/
inductive Act (V : Type) where
  | ohlcFirst (b : Bool)
  | inputIndices (kw : Dict String ColRef)
  | getInputIndices
  | edit (k : Nat) (f : Dict String ColRef → Dict String ColRef)
  | ret (v : String)
  | retDataframe
  | talib (b : Bool)
  | call (c : Call V) (inner : View V → Body V)

/-- One act. (config.py:24-67, indicator.py:79-181) -/
def Lib.act (low : String → String) (classes : String → ClassInfo) (s : Lib) : Act V → Lib
  | .ohlcFirst b => s.setOhlcFirst b
  | .inputIndices kw => s.setInputIndices kw
  | .getInputIndices => { s.getInputIndices.2 with held := s.held ++ [s.getInputIndices.1] }
  | .edit k f => match s.held[k]? with
    | none => s
    | some r => { s with mem := s.mem.set r (f (s.cell r)) }
  | .ret v => s.setReturn v
  | .retDataframe => s.setReturnDataframe
  | .talib b => s.setTalibCompat b
  | .call c inner => { s with glob := (invoke (s.world low classes) c inner s.glob).2 }

/-- A program: acts one after the other; the user goes on after exceptions. (repeated config.py:24-67, indicator.py:79-181) -/
def Lib.acts (low : String → String) (classes : String → ClassInfo) (s : Lib) (h : List (Act V)) : Lib :=
  h.foldl (Lib.act low classes) s

/-- The outcome of a call with these settings. (indicator.py:79-181) -/
def Lib.call (low : String → String) (classes : String → ClassInfo) (s : Lib) (c : Call V) (inner : View V → Body V) :
    Except Err (Res V) :=
  (invoke (s.world low classes) c inner s.glob).1

end Bta.Meta
