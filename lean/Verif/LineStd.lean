import Verif.Line

/-!
# More standard operations

The operations of `linesops._STDOPS` which may return another number of bars, and those which fill, cumulate or rank.
-/

set_option linter.unusedSectionVars false

namespace Bta

section Kernels
variable {V : Type} [PyFloat V]

/-- `Series.head(n)`, `n ≥ 0` (pandas; linesops.py:94) -/
def headL (n : Nat) (xs : List V) : List V := xs.take n

/-- `Series.tail(n)`, `n ≥ 0` (pandas; linesops.py:109) -/
def tailL (n : Nat) (xs : List V) : List V := xs.drop (xs.length - n)

/-- `Series.dropna()` (pandas; linesops.py:88) -/
def dropnaL (xs : List V) : List V := xs.filter fun x => !isNaN x

/-- pandas' notion of equal values for duplicates: NaN equals NaN -/
def sameV (x y : V) : Bool := eqv x y || (isNaN x && isNaN y)

/-- helper of `duplicatedL`: `seen` are the values so far -/
def duplicatedGo (seen : List V) : List V → List Bool
  | [] => []
  | x :: xs => (seen.any fun y => sameV y x) :: duplicatedGo (x :: seen) xs

/-- `Series.duplicated()`, `keep='first'` (pandas; linesops.py:89) -/
def duplicatedL (xs : List V) : List Bool := duplicatedGo [] xs

/-- `Series.drop_duplicates()`, `keep='first'` (pandas; linesops.py:87) -/
def dropDuplicatesL (xs : List V) : List V := ((List.zip xs (duplicatedL xs)).filter fun p => !p.2).map Prod.fst

/-- helper of `nlargestL`: insertion into a list sorted with `before` -/
def insertV (before : V → V → Bool) (x : V) : List V → List V
  | [] => [x]
  | y :: ys => if before y x then y :: insertV before x ys else x :: y :: ys

/-- `Series.sort_values()` of values without NaN -/
def sortV (before : V → V → Bool) (xs : List V) : List V := xs.foldr (insertV before) []

/-- `Series.nlargest(n)`: the greatest values in descending order, without NaN (pandas; linesops.py:100) -/
def nlargestL (n : Nat) (xs : List V) : List V := (sortV (fun y x => lt x y) (dropnaL xs)).take n

/-- `Series.nsmallest(n)` (pandas; linesops.py:104) -/
def nsmallestL (n : Nat) (xs : List V) : List V := (sortV (fun y x => lt y x) (dropnaL xs)).take n

/-- `Series.append(other)` (pandas; linesops.py:72) -/
def appendL (xs ys : List V) : List V := xs ++ ys

/-- cumulation without NaN, which stay where they are: `acc` is the value so far -/
def cumGo (f : V → V → V) (acc : Option V) : List V → List V
  | [] => []
  | x :: xs => if isNaN x then x :: cumGo f acc xs else
    let y := match acc with | none => x | some z => f z x
    y :: cumGo f (some y) xs

/-- `Series.cummax()` (pandas; linesops.py:82) -/
def cummaxL (xs : List V) : List V := cumGo maxV none xs
/-- `Series.cummin()` (pandas; linesops.py:83) -/
def cumminL (xs : List V) : List V := cumGo minV none xs
/-- `Series.cumprod()` (pandas; linesops.py:84) -/
def cumprodL (xs : List V) : List V := cumGo (· * ·) none xs

/-- `Series.bfill()`: the next value there is (pandas; linesops.py:76) -/
def bfillL : List V → List V
  | [] => []
  | x :: xs => (if isNaN x then (match bfillL xs with | [] => nan | y :: _ => y) else x) :: bfillL xs

/-- `Series.rank()`: the mean of the positions the value has among all values in ascending order (pandas; linesops.py:106) -/
def rankL (xs : List V) : List V := xs.map fun x =>
  if isNaN x then nan else lit ((2 * (xs.countP fun y => lt y x) + (xs.countP fun y => eqv y x) + 1 : ℕ) / 2)

/-- `Series.isin(values)`: NaN is in values with NaN (pandas; linesops.py:97) -/
def isinL (xs values : List V) : List Bool := xs.map fun x => values.any fun y => sameV y x

/-- `Series.replace(old, new)` with two numbers (pandas; linesops.py:105) -/
def replaceL (old new : V) (xs : List V) : List V := xs.map fun x => if sameV old x then new else x

/-- helper of `interpGo`: the first value which is not missing, and how many bars later it comes -/
def nextValue : List V → Option (V × ℕ)
  | [] => none
  | x :: xs => if isNaN x then (nextValue xs).map fun p => (p.1, p.2 + 1) else some (x, 1)

/-- helper of `interpolateL`: `prev` is the last value there was and `d` the number of bars since.  A missing bar is on the straight line to the
next value (`numpy.interp`: slope times distance plus value); without one it repeats the last value; before the first it stays missing. -/
def interpGo (prev : Option V) (d : ℕ) : List V → List V
  | [] => []
  | x :: xs => if isNaN x then
      (match prev, nextValue xs with
        | none, _ => nan
        | some p, none => p
        | some p, some (q, e) => (q - p) / lit ((d + e : ℕ) : ℚ) * lit (d : ℚ) + p) :: interpGo prev (d + 1) xs
    else x :: interpGo (some x) 1 xs

/-- `Series.interpolate()`, `method='linear'`, `limit_direction='forward'` (pandas; linesops.py:96) -/
def interpolateL (xs : List V) : List V := interpGo none 0 xs

end Kernels

namespace Line
variable {V α β γ : Type} [PyFloat V]

/-- `standard_op` (lines.py:137-162) for any pandas operation `g`: `result[minidx:] = r` (line 153) is a ValueError if `r` has another
number of bars than the slice.  (Simplified: no check for a line without any bars.) -/
def stdopE (g : List α → List β) (fill : β) (a : Line α) : Except Err (Line β) :=
  if (g (pyFrom a.series (a.minperiod - 1))).length = (pyFrom a.series (a.minperiod - 1)).length then .ok (stdop g fill 0 a)
  else .error .valueError

/-- the same with a series argument (`sargs`; lines.py:137-162, 546-575) -/
def stdop2E (g : List α → List β → List γ) (fill : γ) (a : Line α) (b : Line β) : Except Err (Line γ) :=
  let minidx := max a.minperiod b.minperiod - 1
  if (g (pyFrom a.series minidx) (pyFrom b.series minidx)).length = (pyFrom a.series minidx).length then .ok (stdop2 g fill a b)
  else .error .valueError

/-- `line.head(n)` (linesops.py:94) -/
def headOp (n : Nat) (a : Line V) : Except Err (Line V) := stdopE (headL n) nan a
/-- `line.tail(n)` (linesops.py:109) -/
def tailOp (n : Nat) (a : Line V) : Except Err (Line V) := stdopE (tailL n) nan a
/-- `line.dropna()` (linesops.py:88) -/
def dropna (a : Line V) : Except Err (Line V) := stdopE dropnaL nan a
/-- `line.drop_duplicates()` (linesops.py:87) -/
def dropDuplicates (a : Line V) : Except Err (Line V) := stdopE dropDuplicatesL nan a
/-- `line.nlargest(n)` (linesops.py:100) -/
def nlargest (n : Nat) (a : Line V) : Except Err (Line V) := stdopE (nlargestL n) nan a
/-- `line.nsmallest(n)` (linesops.py:104) -/
def nsmallest (n : Nat) (a : Line V) : Except Err (Line V) := stdopE (nsmallestL n) nan a
/-- `line.append(other)` (linesops.py:72) -/
def append (a b : Line V) : Except Err (Line V) := stdop2E appendL nan a b

/-- `line.cummax()` (linesops.py:82) -/
def cummax (a : Line V) : Line V := stdop cummaxL nan 0 a
/-- `line.cummin()` (linesops.py:83) -/
def cummin (a : Line V) : Line V := stdop cumminL nan 0 a
/-- `line.cumprod()` (linesops.py:84) -/
def cumprod (a : Line V) : Line V := stdop cumprodL nan 0 a
/-- `line.bfill()` (linesops.py:76) -/
def bfill (a : Line V) : Line V := stdop bfillL nan 0 a
/-- `line.ffill()` (linesops.py:90) -/
def ffill (a : Line V) : Line V := stdop ffillL nan 0 a
/-- `line.rank()` (linesops.py:106) -/
def rank (a : Line V) : Line V := stdop rankL nan 0 a
/-- `line.fillna(v)` (linesops.py:91) -/
def fillna (v : V) (a : Line V) : Line V := mapOp (fun x => if isNaN x then v else x) a
/-- `line.isna()` (linesops.py:98); `bool(nan)` is `True` in the warm-up -/
def isna (a : Line V) : Line Bool := stdop (List.map isNaN) true 0 a
/-- `line.notna()` (linesops.py:102); `bool(nan)` is `True` in the warm-up -/
def notna (a : Line V) : Line Bool := stdop (List.map fun x => !isNaN x) true 0 a
/-- `line.duplicated()` (linesops.py:89) -/
def duplicated (a : Line V) : Line Bool := stdop duplicatedL true 0 a
/-- `line.between(lo, hi)` with numbers, bounds included (linesops.py:75) -/
def between (lo hi : V) (a : Line V) : Line Bool := stdop (List.map fun x => le lo x && le x hi) true 0 a
/-- `line.where(cond)` with a boolean line (linesops.py:110) -/
def where_ (a : Line V) (c : Line Bool) : Line V := stdop2 (List.zipWith fun x b => if b then x else nan) nan a c
/-- `line.mask(cond)` with a boolean line (linesops.py:101) -/
def mask (a : Line V) (c : Line Bool) : Line V := stdop2 (List.zipWith fun x b => if b then nan else x) nan a c
/-- `line.combine_first(other)` (linesops.py:79) -/
def combineFirst (a b : Line V) : Line V := stdop2 (List.zipWith fun x y => if isNaN x then y else x) nan a b

/-- `line.isin(values)` with a list of numbers (linesops.py:97); `bool(nan)` is `True` in the warm-up -/
def isin (values : List V) (a : Line V) : Line Bool := stdop (fun xs => isinL xs values) true 0 a
/-- `line.isin(other)` with another line: the values are those of all bars of it from the common minimum period on (linesops.py:97) -/
def isinLine (a b : Line V) : Line Bool := stdop2 isinL true a b
/-- `line.replace(old, new)` with two numbers (linesops.py:105) -/
def replace (old new : V) (a : Line V) : Line V := stdop (replaceL old new) nan 0 a
/-- `line.apply(f)` with a function of numbers without memory (linesops.py:73) -/
def applyF (f : V → V) (a : Line V) : Line V := mapOp f a
/-- `line.combine(other, f)` with a function of numbers without memory (linesops.py:78) -/
def combine (f : V → V → V) (a b : Line V) : Line V := stdop2 (List.zipWith f) nan a b
/-- `line.interpolate()` (linesops.py:96) -/
def interpolate (a : Line V) : Line V := stdop interpolateL nan 0 a

end Line
end Bta
