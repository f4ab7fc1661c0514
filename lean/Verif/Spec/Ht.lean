import Verif.Spec.Basic

/-!
# Specification of the Hilbert transform discriminator (Ehlers, "Rocket Science for Traders")

In plain mathematics, independent of the model: a history is a function from "bars ago" to values and never
forgets anything; nothing is stored in buffers, arrays or windows.
-/

namespace Spec

/-- The functions the calculation takes from the mathematical library: arctangent, sine, cosine, the integer part and
the number of degrees of a radian. -/
structure Trig (K : Type) where
  atan : K → K
  sin : K → K
  cos : K → K
  int : K → ℕ
  deg : K

variable {K : Type} [Field K] [LinearOrder K] [IsStrictOrderedRing K]

/-- What is asked from them: the arctangent of a number which is not 0 is not 0; `int` drops the decimals. -/
structure Trig.Ok (T : Trig K) : Prop where
  deg : 0 < T.deg
  atan : ∀ x, x ≠ 0 → T.atan x ≠ 0
  int : ∀ x, 0 ≤ x → (T.int x : K) ≤ x ∧ x < T.int x + 1

/-- price smoothed with weights 4, 3, 2, 1 -/
def htWeighted (x : ℕ → K) (i : ℕ) : K := (4 * x i + 3 * x (i - 1) + 2 * x (i - 2) + x (i - 3)) / 10

/-- the smoothed price, counted from bar `o` on, and taken as 0 in the first `start` bars -/
def htPrice (x : ℕ → K) (o start j : ℕ) : K := if j < start then 0 else htWeighted x (o + j)

/-- history with a new value -/
def push (f : ℕ → K) (v : K) : ℕ → K
  | 0 => v
  | k + 1 => f k

/-- Hilbert transform of a history -/
def hilbert (f : ℕ → K) : K := 962 / 10000 * f 0 + 5769 / 10000 * f 2 - 5769 / 10000 * f 4 - 962 / 10000 * f 6

/-- Running values: histories of the detrended price, the in-phase and the quadrature component; smoothed components,
real and imaginary part of the discriminator, period and smoothed period. -/
structure Ht (K : Type) where
  det : ℕ → K
  i1 : ℕ → K
  q1 : ℕ → K
  i2 : K
  q2 : K
  re : K
  im : K
  period : K
  smooth : K

/-- at the beginning all is 0 -/
def Ht.zero : Ht K := ⟨fun _ => 0, fun _ => 0, fun _ => 0, 0, 0, 0, 0, 0, 0⟩

/-- period of the cycle before limits: 360 degrees by the phase angle per bar, the previous one if that is undefined -/
def htRaw (T : Trig K) (re im period1 : K) : K :=
  if re ≠ 0 ∧ im ≠ 0 then 360 / (T.deg * T.atan (im / re)) else period1

/-- limits of the change and of the value, and smoothing with the previous period -/
def htLimit (raw period1 : K) : K :=
  1 / 5 * min (max (max (min raw (3 / 2 * period1)) (67 / 100 * period1)) 6) 50 + 4 / 5 * period1

/-- one bar with price history `f` (smoothed price `f k` `k` bars ago) -/
def htNext (T : Trig K) (f : ℕ → K) (s : Ht K) : Ht K :=
  let adj := 75 / 1000 * s.period + 54 / 100
  let det := push s.det (hilbert f * adj)
  let i1 := push s.i1 (det 3)
  let q1 := push s.q1 (hilbert det * adj)
  let i2 := 1 / 5 * (i1 0 - hilbert q1 * adj) + 4 / 5 * s.i2
  let q2 := 1 / 5 * (q1 0 + hilbert i1 * adj) + 4 / 5 * s.q2
  let re := 1 / 5 * (i2 * s.i2 + q2 * s.q2) + 4 / 5 * s.re
  let im := 1 / 5 * (i2 * s.q2 - q2 * s.i2) + 4 / 5 * s.im
  let period := htLimit (htRaw T re im s.period) s.period
  { det, i1, q1, i2, q2, re, im, period, smooth := 33 / 100 * period + 67 / 100 * s.smooth }

/-- running values after `k` bars, the first of which is bar `start`, with prices `y` -/
def htRun (T : Trig K) (y : ℕ → K) (start : ℕ) : ℕ → Ht K
  | 0 => Ht.zero
  | k + 1 => htNext T (fun b => y (start + k - b)) (htRun T y start k)

/-- running values at bar `j ≥ start` -/
def htAt (T : Trig K) (y : ℕ → K) (start j : ℕ) : Ht K := htRun T y start (j + 1 - start)

/-- period of the dominant cycle in whole bars -/
def htBars (T : Trig K) (s : Ht K) : ℕ := T.int (s.smooth + 1 / 2)

/-- component of the price on the cycle of `d` bars ending at bar `j`, with wave `w` -/
def htComp (T : Trig K) (w : K → K) (y : ℕ → K) (j d : ℕ) : K :=
  ∑ k ∈ Finset.range d, w (k * (360 / T.deg) / d) * y (j - k)

/-- phase in degrees, given the two components, the smoothed period and the previous phase -/
def htPhase (T : Trig K) (smooth re im prev : K) : K :=
  let base := if im ≠ 0 then T.atan (re / im) * T.deg
    else if re < 0 then prev - 90 else if 0 < re then prev + 90 else prev
  let ph := base + 90 + 360 / smooth + (if im < 0 then 180 else 0)
  if 315 < ph then ph - 360 else ph

/-- phase after `k` bars, the first of which is bar `start` -/
def htPhRun (T : Trig K) (y : ℕ → K) (start : ℕ) : ℕ → K
  | 0 => 0
  | k + 1 =>
    let s := htRun T y start (k + 1)
    let d := htBars T s
    htPhase T s.smooth (htComp T T.sin y (start + k) d) (htComp T T.cos y (start + k) d) (htPhRun T y start k)

/-- phase at bar `j ≥ start` -/
def htPhAt (T : Trig K) (y : ℕ → K) (start j : ℕ) : K := htPhRun T y start (j + 1 - start)

/-- mean of the last `d` prices, 0 for `d = 0` -/
def htMean (x : ℕ → K) (d i : ℕ) : K := if d = 0 then 0 else winMean x d i

/-- mean over the dominant cycle after `k` bars of prices `y` (smoothed), `x` (not smoothed); 0 at the beginning -/
def htItRun (T : Trig K) (y x : ℕ → K) (start : ℕ) : ℕ → K
  | 0 => 0
  | k + 1 => htMean x (htBars T (htRun T y start (k + 1))) (start + k)

/-- trend line after `k` bars: weights 4, 3, 2, 1 on the last four means over the cycle -/
def htTlRun (T : Trig K) (y x : ℕ → K) (start k : ℕ) : K :=
  (4 * htItRun T y x start k + 3 * htItRun T y x start (k - 1) + 2 * htItRun T y x start (k - 2)
    + htItRun T y x start (k - 3)) / 10

/-- trend line at bar `j ≥ start` -/
def htTlAt (T : Trig K) (y x : ℕ → K) (start j : ℕ) : K := htTlRun T y x start (j + 1 - start)

/-- sine of the phase after `k` bars (0 at the beginning) -/
def htSinRun (T : Trig K) (y : ℕ → K) (start : ℕ) : ℕ → K
  | 0 => 0
  | k + 1 => T.sin (htPhRun T y start (k + 1) * (1 / T.deg))

/-- sine of the phase advanced by 45 degrees after `k` bars (0 at the beginning) -/
def htLeadRun (T : Trig K) (y : ℕ → K) (start : ℕ) : ℕ → K
  | 0 => 0
  | k + 1 => T.sin ((htPhRun T y start (k + 1) + 45) * (1 / T.deg))

/-- the two sine waves cross at bar `k + 1` of the run -/
def htCross (T : Trig K) (y : ℕ → K) (start k : ℕ) : Prop :=
  (htLeadRun T y start (k + 1) < htSinRun T y start (k + 1) ∧ htSinRun T y start k ≤ htLeadRun T y start k) ∨
  (htSinRun T y start (k + 1) < htLeadRun T y start (k + 1) ∧ htLeadRun T y start k ≤ htSinRun T y start k)

open Classical in
/-- bars since the last crossing, this bar included, after `k` bars -/
noncomputable def htDays (T : Trig K) (y : ℕ → K) (start : ℕ) : ℕ → ℕ
  | 0 => 0
  | k + 1 => (if htCross T y start k then 0 else htDays T y start k) + 1

/-- the market is in a trend at bar `k + 1` of the run: the price is away from the trend line by 1.5%, or else the
waves did not cross now nor in the last half cycle and the phase does not advance at the rate of the cycle -/
def htTrending (T : Trig K) (y x : ℕ → K) (start k : ℕ) : Prop :=
  let s := htRun T y start (k + 1)
  let line := htTlRun T y x start (k + 1)
  let dph := htPhRun T y start (k + 1) - htPhRun T y start k
  (line ≠ 0 ∧ 15 / 1000 ≤ |y (start + k) / line - 1|) ∨
  (¬ htCross T y start k ∧ ¬ (htDays T y start (k + 1) : K) < 1 / 2 * s.smooth ∧
    ¬ (67 / 100 * (360 / s.smooth) < dph ∧ dph < 3 / 2 * (360 / s.smooth)))

end Spec
