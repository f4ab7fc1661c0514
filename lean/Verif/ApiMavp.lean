import Verif.Api

/-!
# Calls of `mavp`

`Api.call` leaves out `mavp`, one of whose inputs is a line of integers.
-/

namespace Bta.Api

open Meta Py

variable {V : Type} [PyFloat V]

/-- `btalib.mavp(close, periods, **kw)` after the inputs have been bound (indicator.py:79-181, mavp.py:41-45 the parameters,
47-61 `__init__`).  `periods` is a line of integers with minimum period 1. -/
def callMavp (E : Env V) (kw : Dict String PyVal) (close : Line V) (periods : List Nat) : Out (Line V) := do
  let s ← resolve E.talib .mavp kw
  let p := get? s.params
  let lo ← nat p "minperiod"
  let hi ← nat p "maxperiod"
  let m ← maOf E p "_ma"
  lift (Ind.mavp m.run lo hi s.talib close periods)

end Bta.Api
