import Verif.Spec.Basic

/-!
# Statistics of the last `p` bars
-/

namespace Spec

variable {K : Type} [Field K]

/-- mean of the squared deviations from the mean of the last `p` values, with `p - ddof` in place of `p` -/
def winVar (ddof : ℕ) (x : ℕ → K) (p i : ℕ) : K :=
  (∑ k ∈ Finset.range p, (x (i - k) - winMean x p i) ^ 2) / ((p : K) - ddof)

/-- sum of the squared vertical distances of points `(X k, Y k)`, `k < p`, from the line `s * X + b` -/
def sse (X Y : ℕ → K) (p : ℕ) (s b : K) : K := ∑ k ∈ Finset.range p, (Y k - (s * X k + b)) ^ 2

/-- `s * X + b` is a line of least squares through the points -/
def LeastSquares {K : Type} [Field K] [LinearOrder K] (X Y : ℕ → K) (p : ℕ) (s b : K) : Prop :=
  ∀ s' b', sse X Y p s b ≤ sse X Y p s' b'

/-- the line with slope `s` and value `y` in bar `i` is a line of least squares for the data in the last `p` bars, i.e.
in bars `i - k` for `k < p`, where the line has the value `y - s * k` -/
def BestLine {K : Type} [Field K] [LinearOrder K] (x : ℕ → K) (p i : ℕ) (s y : K) : Prop :=
  ∀ s' y', ∑ k ∈ Finset.range p, (x (i - k) - (y - s * k)) ^ 2 ≤ ∑ k ∈ Finset.range p, (x (i - k) - (y' - s' * k)) ^ 2

end Spec
