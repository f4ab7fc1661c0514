import Verif.LineMore

/-!
# Reductions of a line

pandas' reductions of a whole line (`linesops._REDOPS`), to which `reduction_op` hands the delivered bars.
-/

set_option linter.unusedSectionVars false

namespace Bta

section Kernels
variable {V : Type} [PyFloat V]

/-- `Series.max()` (skipna): NaN without any value (pandas; linesops.py:135) -/
def maxSkipNa (xs : List V) : V := match xs.filter fun x => !isNaN x with
  | [] => nan
  | x :: xs => xs.foldl maxV x

/-- `Series.min()` (skipna): NaN without any value (pandas; linesops.py:139) -/
def minSkipNa (xs : List V) : V := match xs.filter fun x => !isNaN x with
  | [] => nan
  | x :: xs => xs.foldl minV x

/-- `Series.count()`: the number of bars which are not NaN (pandas; linesops.py:119) -/
def countNotNa (xs : List V) : ℕ := xs.countP fun x => !isNaN x

/-- helper of `idxBest`: `best` is the first of the best bars so far, with its label; `i` the label of the next bar -/
def idxGo (better : V → V → Bool) (best : Option (ℕ × V)) (i : ℕ) : List V → Option (ℕ × V)
  | [] => best
  | x :: xs => idxGo better (if isNaN x then best else match best with
      | none => some (i, x)
      | some (j, y) => if better x y then some (i, x) else some (j, y)) (i + 1) xs

/-- `Series.dot(other)` (pandas; linesops.py:121) -/
def dotL (xs ys : List V) : V := sumV (List.zipWith (· * ·) xs ys)

/-- helper of `firstValid`: the label of the first bar which is not NaN -/
def validGo (i : ℕ) : List V → Option ℕ
  | [] => none
  | x :: xs => if isNaN x then validGo (i + 1) xs else some i

end Kernels

namespace Line
variable {V : Type} [PyFloat V]

/-- `line.all()` of a line of tests (linesops.py:115; lines.py:165-178) -/
def allR (a : Line Bool) : Bool := a.reduce fun xs => xs.all id
/-- `line.any()` of a line of tests (linesops.py:116; lines.py:165-178) -/
def anyR (a : Line Bool) : Bool := a.reduce fun xs => xs.any id
/-- `line.sum()` of a line of tests: how often it is `True` (linesops.py:148; lines.py:165-178) -/
def sumB (a : Line Bool) : ℕ := a.reduce fun xs => xs.count true
/-- `line.max()` (linesops.py:135; lines.py:165-178) -/
def maxR (a : Line V) : V := a.reduce maxSkipNa
/-- `line.min()` (linesops.py:139; lines.py:165-178) -/
def minR (a : Line V) : V := a.reduce minSkipNa
/-- `line.count()` (linesops.py:119; lines.py:165-178) -/
def countR (a : Line V) : ℕ := a.reduce countNotNa
/-- `line.sum()` (linesops.py:148; lines.py:165-178) -/
def sumR (a : Line V) : V := a.reduce sumSkipNa
/-- `line.dot(other)` (linesops.py:121; lines.py:165-178) -/
def dotR (a b : Line V) : V := a.reduce2 dotL b
/-- `line.idxmax()` with the default index, whose labels are the numbers of the bars: the delivered part of the series keeps its labels; `none`
without any value (linesops.py:125; lines.py:165-178) -/
def idxmax (a : Line V) : Option ℕ :=
  (idxGo (fun x y => lt y x) none (pyStart a.series.length (a.minperiod - 1)) (pyFrom a.series (a.minperiod - 1))).map Prod.fst
/-- `line.idxmin()` (linesops.py:126; lines.py:165-178) -/
def idxmin (a : Line V) : Option ℕ :=
  (idxGo (fun x y => lt x y) none (pyStart a.series.length (a.minperiod - 1)) (pyFrom a.series (a.minperiod - 1))).map Prod.fst
/-- `line.first_valid_index()` with the default index (linesops.py:124; lines.py:165-178) -/
def firstValid (a : Line V) : Option ℕ := validGo (pyStart a.series.length (a.minperiod - 1)) (pyFrom a.series (a.minperiod - 1))

end Line
end Bta
