import Verif.Line

/-!
# Rolling windows as pandas 1.0 computes them

`Kernel.lean` describes `rolling(w).sum()` etc. by the aggregation of each window.  pandas does not look at each window
again: it keeps some running values, adds the new bar to them and removes the bar which leaves the window
(`pandas/_libs/window/aggregations.pyx`).  Here are these loops.  `Props/Running.lean` compares both descriptions.

This file does not model code of /repo but of pandas 1.0, for the calls made in sma.py:28, mathop.py:97, 115, 254, var.py:28, stddev.py:28.
-/

namespace Bta
namespace Run

variable {V : Type} [PyFloat V] {σ : Type}

/-- the loop over the bars `0 .. i-1`: `step` gets the number of the bar, the running values, the new bar and, once the window is full, the bar
which leaves the window of `w` bars -/
def state (w : ℕ) (step : ℕ → σ → V → Option V → σ) (s0 : σ) (xs : List V) : ℕ → σ
  | 0 => s0
  | i + 1 => step i (state w step s0 xs i) (xs.getD i nan) (if w ≤ i then some (xs.getD (i - w) nan) else none)

/-- the loop with its output: no value in the first `w - 1` bars (`min_periods` is the window), infinities count as NaN
(`_prep_values`) -/
def loop (w : ℕ) (step : ℕ → σ → V → Option V → σ) (s0 : σ) (out : σ → V) (xs : List V) : List V :=
  (List.range xs.length).map fun i => if i + 1 < w then nan else out (state w step s0 (prepL xs) (i + 1))

/-! ## sum -/

/-- running values of `roll_sum_fixed`: number of observations, their sum -/
structure SumSt (V : Type) where
  nobs : ℕ
  sum : V
deriving DecidableEq

/-- `add_sum` -/
def SumSt.add (s : SumSt V) (v : V) : SumSt V := if isNaN v then s else ⟨s.nobs + 1, s.sum + v⟩
/-- `remove_sum` -/
def SumSt.remove (s : SumSt V) (v : V) : SumSt V := if isNaN v then s else ⟨s.nobs - 1, s.sum - v⟩
/-- one bar of `roll_sum_fixed` -/
def sumStep (_ : ℕ) (s : SumSt V) (v : V) : Option V → SumSt V
  | none => s.add v
  | some o => (s.add v).remove o
/-- `rolling(w).sum()` -/
def sum (w : ℕ) (xs : List V) : List V :=
  loop w sumStep ⟨0, lit 0⟩ (fun s => if w ≤ s.nobs then s.sum else nan) xs

/-! ## mean -/

/-- running values of `roll_mean_fixed`: number of observations, number of negative ones, their sum -/
structure MeanSt (V : Type) where
  nobs : ℕ
  neg : ℕ
  sum : V
deriving DecidableEq

/-- `add_mean`; `signbit` is `< 0` here (zeros have no sign) -/
def MeanSt.add (s : MeanSt V) (v : V) : MeanSt V :=
  if isNaN v then s else ⟨s.nobs + 1, if lt v (lit 0) then s.neg + 1 else s.neg, s.sum + v⟩
/-- `remove_mean` -/
def MeanSt.remove (s : MeanSt V) (v : V) : MeanSt V :=
  if isNaN v then s else ⟨s.nobs - 1, if lt v (lit 0) then s.neg - 1 else s.neg, s.sum - v⟩
/-- one bar of `roll_mean_fixed` -/
def meanStep (_ : ℕ) (s : MeanSt V) (v : V) : Option V → MeanSt V
  | none => s.add v
  | some o => (s.add v).remove o
/-- `calc_mean`: no negative mean of numbers which are not negative, and the other way round -/
def meanOut (w : ℕ) (s : MeanSt V) : V :=
  if w ≤ s.nobs then
    let r := s.sum / lit s.nobs
    if s.neg = 0 ∧ lt r (lit 0) = true then lit 0
    else if s.neg = s.nobs ∧ lt (lit 0) r = true then lit 0
    else r
  else nan
/-- `rolling(w).mean()` -/
def mean (w : ℕ) (xs : List V) : List V := loop w meanStep ⟨0, 0, lit 0⟩ (meanOut w) xs

/-! ## variance -/

/-- running values of `roll_var_fixed`: number of observations, their mean, sum of the squared distances from it -/
structure VarSt (V : Type) where
  nobs : ℕ
  mean : V
  ssq : V
deriving DecidableEq

/-- `add_var` (Welford's method) -/
def VarSt.add (s : VarSt V) (v : V) : VarSt V :=
  if isNaN v then s else
    let n := s.nobs + 1
    let delta := v - s.mean
    ⟨n, s.mean + delta / lit n, s.ssq + (lit ((n : ℚ) - 1) * (delta * delta)) / lit n⟩
/-- `remove_var` -/
def VarSt.remove (s : VarSt V) (v : V) : VarSt V :=
  if isNaN v then s else
    let n := s.nobs - 1
    if n = 0 then ⟨0, lit 0, lit 0⟩ else
      let delta := v - s.mean
      ⟨n, s.mean - delta / lit n, s.ssq - (lit ((n : ℚ) + 1) * (delta * delta)) / lit n⟩
/-- one observation added and another one removed -/
def VarSt.swap (s : VarSt V) (v o : V) : VarSt V :=
  let delta := v - o
  let o' := o - s.mean
  let m := s.mean + delta / lit s.nobs
  let v' := v - m
  ⟨s.nobs, m, s.ssq + (v' + o') * delta⟩
/-- one bar of `roll_var_fixed` -/
def varStep (_ : ℕ) (s : VarSt V) (v : V) : Option V → VarSt V
  | none => s.add v
  | some o => if isNaN v then s.remove o else if isNaN o then s.add v else s.swap v o
/-- `calc_var` -/
def varOut (w ddof : ℕ) (s : VarSt V) : V :=
  if w ≤ s.nobs ∧ ddof < s.nobs then
    if s.nobs = 1 then lit 0
    else
      let r := s.ssq / lit ((s.nobs : ℚ) - ddof)
      if lt r (lit 0) then lit 0 else r
  else nan
/-- `rolling(w).var(ddof=d)` -/
def var (ddof w : ℕ) (xs : List V) : List V := loop w varStep ⟨0, lit 0, lit 0⟩ (varOut w ddof) xs

/-- `rolling(w).std(ddof=d)`: square root of the variance; `sq` is `_zsqrt` -/
def std (sq : V → V) (ddof w : ℕ) (xs : List V) : List V := (var ddof w xs).map sq

/-! ## greatest and least -/

/-- running values of `_roll_min_max_fixed`: number of observations; the candidates, each with the number of the bar at which it
leaves the window; the first one is the greatest of the window -/
structure MaxSt (V : Type) where
  nobs : ℕ
  cand : List (V × ℕ)

/-- one bar of `_roll_min_max_fixed`; `better u v`: `u` takes the place of candidate `v` (`u >= v` for the greatest); `worst`
stands for NaN.  The ring buffer is a list here. -/
def maxStep (better : V → V → Bool) (worst : V) (w : ℕ) (i : ℕ) (s : MaxSt V) (v : V) (old : Option V) : MaxSt V :=
  let nobs := if isNaN v then s.nobs else s.nobs + 1
  let nobs := match old with
    | none => nobs
    | some o => if isNaN o then nobs else nobs - 1
  let a := if isNaN v then worst else v
  -- the first candidate leaves the window
  let c := match s.cand with
    | [] => []
    | (u, d) :: c => if d = i then c else (u, d) :: c
  -- candidates which the new bar beats are removed, from the last one on
  ⟨nobs, (c.reverse.dropWhile fun q => better a q.1).reverse ++ [(a, i + w)]⟩

/-- `calc_mm` -/
def maxOut (w : ℕ) (s : MaxSt V) : V :=
  if w ≤ s.nobs then
    match s.cand with
    | [] => nan
    | (u, _) :: _ => u
  else nan

/-- `rolling(w).max()`; `ninf` is -inf -/
def max (ninf : V) (w : ℕ) (xs : List V) : List V :=
  loop w (maxStep (fun u v => le v u) ninf w) ⟨0, []⟩ (maxOut w) xs
/-- `rolling(w).min()`; `pinf` is +inf -/
def min (pinf : V) (w : ℕ) (xs : List V) : List V :=
  loop w (maxStep (fun u v => le u v) pinf w) ⟨0, []⟩ (maxOut w) xs

/-! ## the calls made by the library -/

/-- `line.rolling(window=w).<agg>()` (lines.py:359-383) with one of the loops above in place of `rollL` -/
def rolling (w : ℕ) (kernel : List V → List V) (a : Line V) : Line V :=
  let minidx := a.minperiod - 1
  let mp := Max.max (a.minperiod + w - 1) 1
  Line.clone a (setFrom a.series.length nan minidx (kernel (pyFrom a.series minidx))) mp

end Run
end Bta
