import Verif.Line

/-!
# Lines with dates

`Line` is positional: all its operands have the same index.  Here series carry their dates (labels), to describe what happens to
operands whose dates are not the same, e.g. two instruments, or data of different length.
-/

set_option linter.unusedSectionVars false

namespace Bta

variable {V : Type} [PyFloat V]

/-- A series with dates, e.g. days. (a pandas Series with an index which is not of integer type; lines.py:456-457) -/
abbrev Dated (V : Type) := List (Int × V)

/-- the dates (`series.index`; lines.py:121) -/
def Dated.dates (s : Dated V) : List Int := s.map Prod.fst

/-- `a <op> b` of two pandas series with increasing dates (called in lines.py:128-129): if the dates are not the same both are extended
to the union of the dates (outer join) with NaN, and so is the result at dates which only one of them has. -/
def outer (f : V → V → V) : Dated V → Dated V → Dated V
  | [], b => b.map fun q => (q.1, nan)
  | (s, x) :: a, b =>
    ((b.takeWhile fun q => q.1 < s).map fun q => (q.1, nan)) ++
      match b.dropWhile fun q => q.1 < s with
      | [] => (s, nan) :: outer f a []
      | (t, y) :: b' => if t = s then (s, f x y) :: outer f a b' else (s, nan) :: outer f a ((t, y) :: b')

/-- `Line` (lines.py:456-459) with the dates of its series -/
structure DLine (V : Type) where
  /-- `_series` -/
  series : Dated V
  /-- `_minperiod` -/
  minperiod : Int
deriving DecidableEq, Repr

namespace DLine

/-- `binary_op` (lines.py:108-134) for arithmetic operators with a line as other operand: both series are capped by position (lines
125, 128), the operation aligns the dates, and `result[minidx:] = r` stores by position, which is a ValueError if the numbers of bars
differ.  (Simplified: pandas does not check the lengths if `self` has no bars at all.) -/
def binop (f : V → V → V) (a b : DLine V) : Except Err (DLine V) :=
  let minperiod := max a.minperiod b.minperiod
  let minidx := minperiod - 1
  let r := outer f (pyFrom a.series minidx) (pyFrom b.series minidx)
  if r.length = (pyFrom a.series minidx).length then
    .ok ⟨List.zip a.series.dates (setFrom a.series.length nan minidx (r.map Prod.snd)),
      if minperiod = 0 then a.minperiod else minperiod⟩
  else .error .valueError

/-- comparison operators (`<`, `>`, ...; lines.py:108-134, linesops.py:37-42): pandas compares only series with the same dates ("Can only
compare identically-labeled Series objects").  Booleans as numbers here; `bool(nan)` is `True` in the warm-up. -/
def cmpop (f : V → V → Bool) (a b : DLine V) : Except Err (List (Int × Bool) × Int) :=
  let minperiod := max a.minperiod b.minperiod
  let minidx := minperiod - 1
  if (pyFrom a.series minidx).map Prod.fst = (pyFrom b.series minidx).map Prod.fst then
    .ok (List.zip a.series.dates (setFrom a.series.length true minidx
      (List.zipWith (fun p q => f p.2 q.2) (pyFrom a.series minidx) (pyFrom b.series minidx))),
      if minperiod = 0 then a.minperiod else minperiod)
  else .error .valueError

end DLine
end Bta
