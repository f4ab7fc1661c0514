import Verif.Api
import Verif.Meta.Inputs
import Verif.Meta.Registry

/-!
# Calls of the library with python arguments

`Api.call` begins with the lines which are bound to the inputs.  Here is the call as a user writes it, with series, data frames,
lines and other indicators as arguments: `Api.invoke`.
-/

namespace Bta.Api

open Meta Py

/-- `cls.inputs` (inputs.py:31-36) -/
def inputNames (c : Cls) : List String := (inGen c.rows).lines

/-- `cls.outputs` (outputs.py:24-27) -/
def outputNames (c : Cls) : List String := (outGen c.rows).lines

/-- `cls.allowinputs`, along the bases (inputs.py:67-72, indicator.py:188) -/
def allowOf (c : Cls) : Nat := ((c.rows.map (·.allow)).find? (· ≠ 0)).getD 0

variable {V : Type} [PyFloat V]

/-- `btalib.<c>(*args, **kw)` with no indicator being evaluated, in a library whose classes are as they were created.
indicator.py:114-119 bind the inputs (with what is left of the arguments), 138-145 the parameters, 151-152 run the
initialisers.  An initialiser which takes positional arguments and gets some is `outside`. -/
def invoke (E : Env V) (cfg : Config) (low : String → String) (c : Cls) (args : List (Arg V)) (kw : Dict String PyVal) :
    Out (List (Line V)) := do
  let b ← lift (bindInputs cfg low true (InCls.fresh (inputNames c) (allowOf c)) args)
  match b.2.1 with
  | [] => call E c kw b.1
  | rest => do
    let r := fromKwargs ⟨c.defaults, []⟩ (talibKwargs E.talib c.hooks kw)
    lift (initCheck c.rows rest.length (keys r.2))
    .error .outside

end Bta.Api
