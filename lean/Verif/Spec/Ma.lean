import Verif.Spec.Basic
import Verif.Spec.Lines
import Verif.Ind.Core

/-!
# Moving averages, as formulas

`x : ℕ → K` are the data, `b` the first bar with data, `p` the period, `i` the bar.
-/

namespace Spec

variable {K : Type} [Field K]

/-- linearly weighted mean: weight `p` for the newest bar down to 1 for the oldest -/
def wma (x : ℕ → K) (p i : ℕ) : K :=
  (∑ j ∈ Finset.range p, ((p - j : ℕ) : K) * x (i - j)) / (∑ j ∈ Finset.range p, ((p - j : ℕ) : K))

/-- triangular weights `1, 2, ..., 2, 1` (odd `p`) or `1, 2, .., h, h, .., 2, 1` (even `p`) -/
def triWeight (p k : ℕ) : ℕ := min (k + 1) (p - k)

/-- triangularly weighted mean of the last `p` values -/
def trima (x : ℕ → K) (p i : ℕ) : K :=
  (∑ k ∈ Finset.range p, (triWeight p k : K) * x (i - k)) / (∑ k ∈ Finset.range p, (triWeight p k : K))

end Spec

namespace Bta

variable {K : Type} [Field K] [LinearOrder K] [IsStrictOrderedRing K]

/-- `f` behaves as moving average with formula `F p x b i` (period, data, first bar with data, bar) which needs `e p` bars
more than its input: on any input line with enough bars, whatever is in its warm-up region. -/
def IsMA (f : MA (Ext K)) (F : ℕ → (ℕ → K) → ℕ → ℕ → K) (e : ℕ → ℕ) : Prop :=
  ∀ p, 1 ≤ p → ∀ (a : Line (Ext K)) (n m : ℕ) (x : ℕ → K), Holds a n m x → m + e p ≤ n →
    Gives (f p a) fun r => Shows r n (m + e p) (F p x (m - 1))

/-- The formula stays within any bounds of the data it can have seen. -/
def Averages (F : ℕ → (ℕ → K) → ℕ → ℕ → K) (e : ℕ → ℕ) : Prop :=
  ∀ p, 1 ≤ p → ∀ (x : ℕ → K) (b i : ℕ) (lo hi : K), b + e p ≤ i → (∀ j, b ≤ j → j ≤ i → lo ≤ x j ∧ x j ≤ hi) →
    lo ≤ F p x b i ∧ F p x b i ≤ hi

/-- Scaling and translating the data scales and translates the result. -/
def Affine (F : ℕ → (ℕ → K) → ℕ → ℕ → K) (e : ℕ → ℕ) : Prop :=
  ∀ p, 1 ≤ p → ∀ (x : ℕ → K) (b i : ℕ) (c d : K), b + e p ≤ i →
    F p (fun j => c * x j + d) b i = c * F p x b i + d

end Bta

namespace Spec

/-- `k`-fold application of an average with formula `F` needing `e p` bars more than its input -/
def iter {K : Type} (F : ℕ → (ℕ → K) → ℕ → ℕ → K) (e : ℕ → ℕ) (p : ℕ) (x : ℕ → K) (b : ℕ) : ℕ → ℕ → K
  | 0 => x
  | k + 1 => F p (iter F e p x b k) (b + k * e p)

variable {K : Type} [Field K]

/-- double exponential average -/
def dema (F : ℕ → (ℕ → K) → ℕ → ℕ → K) (e : ℕ → ℕ) (p : ℕ) (x : ℕ → K) (b i : ℕ) : K :=
  2 * iter F e p x b 1 i - iter F e p x b 2 i

/-- triple exponential average -/
def tema (F : ℕ → (ℕ → K) → ℕ → ℕ → K) (e : ℕ → ℕ) (p : ℕ) (x : ℕ → K) (b i : ℕ) : K :=
  3 * iter F e p x b 1 i - 3 * iter F e p x b 2 i + iter F e p x b 3 i

/-- Tillson's T3 with volume factor `v` -/
def t3 (v : K) (F : ℕ → (ℕ → K) → ℕ → ℕ → K) (e : ℕ → ℕ) (p : ℕ) (x : ℕ → K) (b i : ℕ) : K :=
  -v ^ 3 * iter F e p x b 6 i + (3 * v ^ 2 + 3 * v ^ 3) * iter F e p x b 5 i
    + (-6 * v ^ 2 - 3 * v - 3 * v ^ 3) * iter F e p x b 4 i + (1 + 3 * v + v ^ 3 + 3 * v ^ 2) * iter F e p x b 3 i

end Spec

namespace Bta
variable {K : Type} [Field K] [LinearOrder K] [IsStrictOrderedRing K]

/-- Greater data give a greater result. -/
def Mono (F : ℕ → (ℕ → K) → ℕ → ℕ → K) (e : ℕ → ℕ) : Prop :=
  ∀ p, 1 ≤ p → ∀ (x y : ℕ → K) (b i : ℕ), b + e p ≤ i → (∀ j, b ≤ j → j ≤ i → x j ≤ y j) → F p x b i ≤ F p y b i

/-- Non-negative data give a non-negative result. -/
def NonNeg (F : ℕ → (ℕ → K) → ℕ → ℕ → K) (e : ℕ → ℕ) : Prop :=
  ∀ p, 1 ≤ p → ∀ (x : ℕ → K) (b i : ℕ), b + e p ≤ i → (∀ j, b ≤ j → j ≤ i → 0 ≤ x j) → 0 ≤ F p x b i

/-- formulas of the simple, exponential, smoothed, weighted and triangular averages, and of the plain sum, in the
common shape -/
def smaF (p : ℕ) (x : ℕ → K) (_b i : ℕ) : K := Spec.winMean x p i
@[inherit_doc smaF] def emaF (p : ℕ) (x : ℕ → K) (b i : ℕ) : K := Spec.ema x b p i
@[inherit_doc smaF] def smmaF (p : ℕ) (x : ℕ → K) (b i : ℕ) : K := Spec.smma x b p i
@[inherit_doc smaF] def wmaF (p : ℕ) (x : ℕ → K) (_b i : ℕ) : K := Spec.wma x p i
@[inherit_doc smaF] def trimaF (p : ℕ) (x : ℕ → K) (_b i : ℕ) : K := Spec.trima x p i
@[inherit_doc smaF] def sumF (p : ℕ) (x : ℕ → K) (_b i : ℕ) : K := Spec.winSum x p i
/-- `p - 1`: number of bars such an average needs in addition to those of its input -/
def ext1 (p : ℕ) : ℕ := p - 1

end Bta
