import Verif.Running
import Verif.Ind.Core

/-!
# The oscillators made of rolling sums, with the sums as pandas 1.0 computes them

`Ind.mfi`, `Ind.ultosc` and `Ind.cmo` with the loop of `Running.lean` in place of the sum of each window.
-/

namespace Bta
namespace Run
open Line Ind

variable {V : Type} [PyFloat V]

/-- `sumn`, `SumN` (mathop.py:254): `rolling(window=p).sum()` with values updated from bar to bar -/
def sumN (p : ℕ) (a : Line V) : Line V := rolling p (sum p) a

/-- `mfi` (mfi.py:39-44) -/
def mfi (p : Nat) (h l c v : Line V) : Line V :=
  let tprice := (h + l + c).divS (lit 3)
  let mfraw := tprice * v
  let flowpos := sumN p (mulB mfraw (gtL tprice (ago (-1) tprice)))
  let flowneg := sumN p (mulB mfraw (ltL tprice (ago (-1) tprice)))
  rsubS (lit 100) (rdivS (lit 100) (raddS (lit 1) (flowpos / flowneg)))

/-- `ultimateoscillator` (ultimateoscillator.py:41-54) -/
def ultosc (p1 p2 p3 : Nat) (f1 f2 f3 : V) (h l c : Line V) : Line V :=
  let bp := c - truelow 1 l c
  let tr := truerange 1 h l c
  let av1 := sumN p1 bp / sumN p1 tr
  let av2 := sumN p2 bp / sumN p2 tr
  let av3 := sumN p3 bp / sumN p3 tr
  let factor := lit 100 / (f1 + f2 + f3)
  rmulS (f1 * factor) av1 + rmulS (f2 * factor) av2 + rmulS (f3 * factor) av3

/-- `cmo` with its default summation (cmo.py:32-36) -/
def cmo (p : Nat) (a : Line V) : Except Err (Line V) := Ind.cmo (fun p a => .ok (sumN p a)) p a

end Run
end Bta
