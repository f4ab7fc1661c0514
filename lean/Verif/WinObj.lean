import Verif.LineMore

/-!
# Window objects with a history

`line.rolling(..)`, `line.expanding(..)`, `line.ewm(..)` and `line._ewm(..)` give an object (`_MultiFunc_Op`, lines.py:207-397) which can be
kept, asked for several statistics, and whose statistics can be kept and called later.
-/

namespace Bta
open Line

variable {V : Type} [PyFloat V]

/-- `_MultiFunc_Op` (lines.py:210-308): `line` (`_line`), `pval` (`_pval`, `None` if the period was not given), `pearly`, `alphaP`
(`_alpha_p`), `minidx`, the data handed over to pandas (`trailer`), and the two attributes which change: `minperiod` and `seeded`
(`_is_seeded`). -/
structure Win (V : Type) where
  line : Line V
  pval : Option Int
  pearly : Int
  alphaP : Int
  minidx : Int
  trailer : List V
  minperiod : Int
  seeded : Bool

/-- `line.rolling(..)`, `line.expanding(..)` and `line.ewm(..)` (lines.py:210-251, 303-308): `pval` is what the constructor found -/
def Win.new (pval : Option Int) (a : Line V) : Win V :=
  ⟨a, pval, 0, 1, a.minperiod - 1, pyFrom a.series (a.minperiod - 1), a.minperiod, false⟩

/-- `line._ewm(..)` (lines.py:210-302, 308) -/
def Win.newEwm (c : EwmCfg) (a : Line V) : Except Err (Win V) :=
  match ewmNew c a with
  | .error e => .error e
  | .ok o => .ok ⟨a, some c.pval, c.pearly, c.alphaP, o.minidx, o.trailer, a.minperiod, false⟩

/-- What one can do with the object: read an attribute (`found`: pandas has such an operation), read `_seeded`, call an operation read before
(lines.py:359-397) -/
inductive WinEv (V : Type) where
  | get (found : Bool)
  | seeded
  | call (op : List V → Except Err (List V))

/-- `__getattr__` (lines.py:359-367): the minimum period grows first, then pandas is asked for the operation -/
def Win.get (w : Win V) : Win V :=
  match w.pval with
  | none => w
  | some p => if w.seeded then w else { w with minperiod := max (w.minperiod + (p - w.pearly - 1)) w.alphaP }

/-- `call_op` (lines.py:369-383): the minimum period is the one the object has when the operation is called -/
def Win.call (w : Win V) (op : List V → Except Err (List V)) : Except Err (Line V) :=
  match op w.trailer with
  | .error e => .error e
  | .ok r =>
    if r.length = w.line.series.length - pyStart w.line.series.length w.minidx then
      .ok (clone w.line (setFrom w.line.series.length nan w.minidx r) w.minperiod)
    else .error .valueError

/-- the object after something was done with it (lines.py:359-397): an attribute pandas does not have raises an AttributeError in 367, after
the change in 360-365; calling an operation changes nothing -/
def Win.step (w : Win V) : WinEv V → Win V
  | .get _ => w.get
  | .seeded => { w with seeded := true }
  | .call _ => w

/-- the object after a history (lines.py:359-397) -/
def Win.after (w : Win V) (h : List (WinEv V)) : Win V := h.foldl Win.step w

end Bta
