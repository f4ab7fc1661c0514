import Verif.Num

/-!
# pandas / numpy kernels

Description of the third-party operations the library calls, on plain lists (a Series whose index is
not of integer type, hence positional access).  This file is part of the trusted base: it does not
model code of /repo but of pandas 1.0 / numpy 1.18 as the library uses it.
-/

set_option linter.unusedSectionVars false

namespace Bta

section Slicing
variable {α : Type}

/-- Normalised start (or stop) of a python slice on a sequence of length `n`: negative values count from
the end, everything is clamped to `0..n`. -/
def pyStart (n : Nat) (i : Int) : Nat :=
  if 0 ≤ i then min i.toNat n else ((n : Int) + i).toNat

/-- `s[i:]` -/
def pyFrom (s : List α) (i : Int) : List α := s.drop (pyStart s.length i)

/-- `s[i:j]` -/
def pySlice (s : List α) (i j : Int) : List α :=
  (s.take (pyStart s.length j)).drop (pyStart s.length i)

/-- `s[i]` with python's negative indices; `none` is an IndexError. -/
def pyGet (s : List α) (i : Int) : Option α :=
  if 0 ≤ i then s[i.toNat]? else if 0 ≤ (s.length : Int) + i then s[((s.length : Int) + i).toNat]? else none

/-- `result = pd.Series(fill, index=...); result[i:] = r` for a series of `n` bars.  `r` is always computed
from slices `[i:]` of series with the same index, hence it has as many elements as the slice assigned to. -/
def setFrom (n : Nat) (fill : α) (i : Int) (r : List α) : List α :=
  List.replicate (pyStart n i) fill ++ r

/-- `s[i:j] = val` (in place assignment of a scalar to a slice). -/
def pyFill (s : List α) (i j : Int) (val : α) : List α :=
  let a := pyStart s.length i
  let b := pyStart s.length j
  s.take a ++ List.replicate (b - a) val ++ s.drop (max a b)

end Slicing

section Kernels
variable {V : Type} [PyFloat V]

/-- `Series.shift(periods=k)`: `k > 0` moves towards later bars, `k < 0` towards earlier ones. -/
def shiftL (k : Int) (xs : List V) : List V :=
  if 0 ≤ k then List.replicate (min k.toNat xs.length) nan ++ xs.take (xs.length - k.toNat)
  else xs.drop (-k).toNat ++ List.replicate (min (-k).toNat xs.length) nan

/-- `Series.diff(periods=k)`, `k ≥ 0` -/
def diffL (k : Nat) (xs : List V) : List V :=
  List.replicate (min k xs.length) nan ++ List.zipWith (· - ·) (xs.drop k) xs

/-- helper of `ffillL`: `prev` is the last value seen -/
def ffillGo (prev : V) : List V → List V
  | [] => []
  | x :: xs => if isNaN x then prev :: ffillGo prev xs else x :: ffillGo x xs

/-- `Series.fillna(method='pad')` -/
def ffillL (xs : List V) : List V := ffillGo nan xs

/-- `Series.pct_change(periods=k)`: values are padded first, then `x[i]/x[i-k] - 1` -/
def pctChangeL (k : Nat) (xs : List V) : List V :=
  List.replicate (min k xs.length) nan ++
    List.zipWith (fun a b => a / b - lit 1) ((ffillL xs).drop k) (ffillL xs)

/-- helper of `cumsumL` -/
def cumsumGo (acc : V) : List V → List V
  | [] => []
  | x :: xs => if isNaN x then x :: cumsumGo acc xs else (acc + x) :: cumsumGo (acc + x) xs

/-- `Series.cumsum()` (skipna) -/
def cumsumL (xs : List V) : List V := cumsumGo (lit 0) xs

/-- The `w` values up to and including position `i`. -/
def window {α : Type} (w i : Nat) (xs : List α) : List α := (xs.take (i + 1)).drop (i + 1 - w)

/-- `Series.rolling(window=w).<agg>()`: nan for the first `w-1` bars, then the aggregation of the last `w` bars.
(pandas updates sums incrementally; here the exact value is described.) -/
def rollL {α : Type} (w : Nat) (agg : List α → V) (xs : List α) : List V :=
  (List.range xs.length).map fun i => if i + 1 < w then nan else agg (window w i xs)

/-- pandas windows: `min_periods = window`, infinities count as nan, so that each non finite value in the
window makes the result nan. -/
def whenAllFin (f : List V → V) (win : List V) : V := if win.all isFin then f win else nan

/-- sum of a list from the left -/
def sumV (win : List V) : V := win.foldl (· + ·) (lit 0)

/-- `rolling(w).sum()` on one window -/
def aggSum (win : List V) : V := whenAllFin sumV win

/-- `rolling(w).mean()` on one window -/
def aggMean (win : List V) : V := whenAllFin (fun l => sumV l / lit l.length) win

/-- greater of two (`a` unless `b > a`) -/
def maxV (a b : V) : V := if lt a b then b else a

/-- lesser of two (`a` unless `b < a`) -/
def minV (a b : V) : V := if lt b a then b else a

/-- `rolling(w).max()` on one window -/
def aggMax (win : List V) : V := whenAllFin (fun l => match l with | [] => nan | x :: xs => xs.foldl maxV x) win

/-- `rolling(w).min()` on one window -/
def aggMin (win : List V) : V := whenAllFin (fun l => match l with | [] => nan | x :: xs => xs.foldl minV x) win

/-- `rolling(w).var(ddof=d)` on one window: sum of squared deviations from the mean / (w - d); nan if `w ≤ d` -/
def aggVar (ddof : Nat) (win : List V) : V :=
  whenAllFin (fun l =>
    let m := sumV l / lit l.length
    if ddof < l.length then sumV (l.map fun x => (x - m) * (x - m)) / lit ((l.length : ℚ) - ddof) else nan) win

/-- position of the first best element; `bi` is the position of the best one so far, `i` the current position -/
def argGo (better : V → V → Bool) (best : V) (bi i : Nat) : List V → Nat
  | [] => bi
  | x :: xs => if better x best then argGo better x i (i + 1) xs else argGo better best bi (i + 1) xs

/-- `np.argmax`: position of the first maximum (0 for an empty list, where numpy raises) -/
def argmaxV : List V → Nat
  | [] => 0
  | x :: xs => argGo (fun y b => lt b y) x 0 1 xs

/-- `np.argmin`: position of the first minimum -/
def argminV : List V → Nat
  | [] => 0
  | x :: xs => argGo (fun y b => lt y b) x 0 1 xs

/-- `np.dot(x, weights)` -/
def dotV (xs ws : List V) : V := sumV (List.zipWith (· * ·) xs ws)

/-- `rolling(w).apply(func)` on one window: `func` is only called if all values are there -/
def aggApply (f : List V → V) (win : List V) : V := whenAllFin f win

/-- `rolling(w).corr(other)` on one window of pairs (pandas: covariance / product of the standard deviations, both with
`ddof=1`).  `sq` is the square root. -/
def aggCorr (sq : V → V) (win : List (V × V)) : V :=
  if win.all fun q => isFin q.1 && isFin q.2 then
    let xs := win.map Prod.fst
    let ys := win.map Prod.snd
    let n := lit win.length
    let cov := (sumV (List.zipWith (· * ·) xs ys) / n - (sumV xs / n) * (sumV ys / n)) * (n / (n - lit 1))
    cov / (sq (aggVar 1 xs) * sq (aggVar 1 ys))
  else nan

/-- `Series.sum()` (skipna) -/
def sumSkipNa (xs : List V) : V := sumV (xs.filter fun x => !isNaN x)

/-- `Series.mean()` (skipna); nan for an empty series -/
def meanSkipNa (xs : List V) : V :=
  let ys := xs.filter fun x => !isNaN x
  if ys.isEmpty then nan else sumV ys / lit ys.length

/-- loop of pandas' `ewma` kernel with `adjust=False, ignore_na=False, min_periods=0`.
`avg` is the weighted average so far, `oldwt` its weight. -/
def ewmGo (alpha avg oldwt : V) : List V → List V
  | [] => []
  | cur :: xs =>
    if isNaN avg then
      -- nothing observed yet: take the value (nan or not)
      cur :: ewmGo alpha cur oldwt xs
    else
      let wt := oldwt * (lit 1 - alpha)
      if isNaN cur then avg :: ewmGo alpha avg wt xs
      else
        let avg' := if eqv avg cur then avg else (wt * avg + alpha * cur) / (wt + alpha)
        avg' :: ewmGo alpha avg' (lit 1) xs

/-- windowed pandas operations replace infinities by nan first (`_prep_values`) -/
def prepL (xs : List V) : List V := xs.map fun x => if isFin x then x else nan

/-- `Series.ewm(alpha=alpha, adjust=False).mean()` -/
def ewmL (alpha : V) (xs : List V) : List V :=
  match prepL xs with
  | [] => []
  | x :: xs => x :: ewmGo alpha x (lit 1) xs

/-- loop of pandas' `ewma` kernel with `adjust=True, ignore_na=False, min_periods=0`: the weight of a new value is 1 and the
weight of the average so far grows by it. -/
def ewmAdjGo (alpha avg oldwt : V) : List V → List V
  | [] => []
  | cur :: xs =>
    if isNaN avg then cur :: ewmAdjGo alpha cur oldwt xs
    else
      let wt := oldwt * (lit 1 - alpha)
      if isNaN cur then avg :: ewmAdjGo alpha avg wt xs
      else
        let avg' := if eqv avg cur then avg else (wt * avg + lit 1 * cur) / (wt + lit 1)
        avg' :: ewmAdjGo alpha avg' (wt + lit 1) xs

/-- `Series.ewm(alpha=alpha, adjust=True).mean()` -/
def ewmAdjL (alpha : V) (xs : List V) : List V :=
  match prepL xs with
  | [] => []
  | x :: xs => x :: ewmAdjGo alpha x (lit 1) xs

/-- `Series.ewm(alpha=alpha, adjust=adjust).mean()` -/
def ewmMeanL : Bool → V → List V → List V
  | false => ewmL
  | true => ewmAdjL

/-- pandas: `alpha = 1 / (1 + com)` -/
def alphaOfCom (com : V) : V := lit 1 / (lit 1 + com)

/-- pandas: `com = (span - 1) / 2` -/
def comOfSpan (span : V) : V := (span - lit 1) / lit 2

/-- `Series.clip(lower=t)` on one element: nan stays nan -/
def clipLo (x t : V) : V := if le t x || isNaN x then x else t

/-- `Series.clip(upper=t)` on one element -/
def clipHi (x t : V) : V := if le x t || isNaN x then x else t

/-- helper of `replaceZeroL` -/
def replaceZeroGo (prev : V) : List V → List V
  | [] => []
  | x :: xs => if eqv x (lit 0) then prev :: replaceZeroGo prev xs else x :: replaceZeroGo x xs

/-- `Series.replace(to_replace=0.0, method='ffill')`: each zero takes the last non zero value, leading zeros stay -/
def replaceZeroL (xs : List V) : List V := replaceZeroGo (lit 0) xs

/-- a boolean used in arithmetic: `True` is 1.0 -/
def ofBool (b : Bool) : V := if b then lit 1 else lit 0

/-- `np.sign` on one element -/
def signV (x : V) : V :=
  if lt x (lit 0) then lit (-1) else if lt (lit 0) x then lit 1 else if isNaN x then nan else lit 0

end Kernels

end Bta
