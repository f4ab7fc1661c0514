import Verif.Ind.Catalog

/-!
# Specification: the level of prices

`Ext.up k` adds an amount to a value, e.g. if prices are quoted with another base, or a price series is adjusted for a
dividend by a constant amount (back-adjusted futures contracts).
-/

set_option linter.unusedSectionVars false
set_option linter.unusedVariables false

namespace Bta

/-- addition of an amount; infinities and NaN stay -/
def Ext.up {K : Type} [Add K] (k : K) : Ext K → Ext K
  | .fin x => .fin (x + k)
  | e => e

end Bta

namespace Spec
open Bta

section
variable {K : Type} [Add K]

/-- the line with an amount added to each value, the minimum period kept -/
def raised (k : K) (a : Line (Ext K)) : Line (Ext K) := ⟨a.series.map (Ext.up k), a.minperiod⟩

end

variable {K : Type} [Field K] [LinearOrder K] [IsStrictOrderedRing K]

/-- seeds which are taken from the prices -/
def seedLevel : Line.Seed → Prop
  | .avg | .last | .none => True
  | _ => False

/-- The average of raised values is the average raised by the same amount: a real average, i.e. neither a sum, nor a rate of
change, nor an average which is started with something else than prices. -/
def keepsLevel : Avg (Ext K) → ℕ → Prop
  | .sma, _ => True
  | .ema s _, p => 1 ≤ p ∧ seedLevel s
  | .smma s, p => 1 ≤ p ∧ seedLevel s
  | .ewma _, p => 1 ≤ p
  | .wma, p => 1 ≤ p
  | .sumN, _ => False
  | .trima, p => True
  | .dema m, p => keepsLevel m p
  | .tema m, p => keepsLevel m p
  | .trix _, _ => False
  | .gdema m v, p => keepsLevel m p ∧ ∃ x, v = .fin x
  | .t3 v, p => 1 ≤ p ∧ ∃ x, v = .fin x
  | .t3gd m v, p => keepsLevel m p ∧ ∃ x, v = .fin x
  | .kama _ _ _ s, p => seedLevel s
  | .smacc _ _ _, _ => False

/-- what is added to input `i`: the amount for prices, nothing for volumes -/
def raiseIn (k : K) : Call (Ext K) → ℕ → K
  | .obv _ _, i => if i = 0 then k else 0
  | .mfi _, i | .ad, i | .adosc _ _ _, i => if i ≤ 2 then k else 0
  | _, _ => k

/-- What is added to the outputs: the amount for prices, nothing for differences, oscillators, indices and signals.  `none`:
not known (indicators which divide by a price or multiply with it, Hilbert transforms, mathematical functions). -/
def levelOut (k : K) : Call (Ext K) → Option (List K)
  | .avg .sumN p => some [p * k]
  | .avg (.trix _) _ | .avg (.smacc _ _ _) _ => none
  | .avg _ _ => some [k]
  | .add => some [k + k]
  | .sub => some [0]
  | .mult | .div => none
  | .max _ | .min _ => some [k]
  | .minmax _ => some [k, k]
  | .maxindex _ | .minindex _ | .maxindexAbs _ | .minindexAbs _ => some [0]
  | .minmaxindex _ _ => some [0, 0]
  | .avgprice (.fin d) => some [4 * k / d]
  | .typprice (.fin d) => some [3 * k / d]
  | .wclprice (.fin w) (.fin d) => some [(2 + w) * k / d]
  | .medprice (.fin d) => some [2 * k / d]
  | .avgprice _ | .typprice _ | .wclprice _ _ | .medprice _ => none
  | .macd _ _ _ _ _ _ => some [0, 0, 0]
  | .apo _ _ _ => some [0]
  | .ppo _ _ _ _ _ _ => none
  | .mom _ => some [0]
  | .roc _ | .rocp _ | .rocr _ | .rocr100 _ => none
  | .rsi _ _ _ | .cmo _ _ => some [0]
  | .mad _ | .cci _ _ _ | .var _ _ | .stddev _ _ _ => some [0]
  | .bbands _ _ _ _ => some [k, k, k]
  | .stochf _ _ _ | .stochastic _ _ _ _ _ => some [0, 0]
  | .williamsr _ | .stochrsi _ _ _ => some [0]
  | .stochrsiD _ _ _ _ _ => some [0, 0]
  | .midprice _ | .midpoint _ => some [k]
  | .bop => some [0]
  | .truelow _ => some [k]
  | .truerange _ | .atr _ _ _ => some [0]
  | .natr _ _ _ => none
  | .ultosc _ _ _ _ _ _ => some [0]
  | .mfi _ => none
  | .obv _ _ | .ad | .adosc _ _ _ => some [0]
  | .aroon _ => some [0, 0]
  | .aroonosc _ => some [0]
  | .linregSlope _ | .linregAngle _ _ _ => some [0]
  | .linregIntercept _ _ | .linreg _ | .tsf _ => some [k]
  | .beta _ _ _ => none
  | .correl _ _ => some [0]
  | .crossup _ | .crossdown _ | .crossover _ => some [0]
  | .plusDm _ _ _ | .minusDm _ _ _ => some [0]
  | .dm _ _ _ => some [0, 0]
  | .plusDi _ _ _ _ | .minusDi _ _ _ _ => some [0]
  | .di _ _ _ _ => some [0, 0]
  | .dx _ _ _ _ | .adx _ _ _ _ _ _ | .adxr _ _ _ _ _ _ _ => some [0]
  | .sar _ _ => some [k]
  | .sarext _ => none
  | .htDcperiod _ | .htDcphase _ | .htTrendmode _ | .htPhasor _ | .htSine _ | .htTrendline _ | .mama _ _ _ _ => none
  | .mathFn _ => none

/-- averages of prices which are given as parameters are averages, divisors are not zero, periods are positive -/
def levelParams : Call (Ext K) → Prop
  | .avg .sumN _ => True
  | .avg m p => keepsLevel m p
  | .avgprice d | .typprice d | .wclprice _ d | .medprice d => d ≠ .fin 0
  | .macd mf ma _ pf ps _ => keepsLevel mf pf ∧ keepsLevel ma ps
  | .apo ma pf ps => keepsLevel ma pf ∧ keepsLevel ma ps
  | .cci ma _ p => keepsLevel ma p
  | .bbands _ ma _ p => keepsLevel ma p
  | .linregIntercept _ p | .linreg p | .tsf p => 1 ≤ p
  | _ => True

end Spec
