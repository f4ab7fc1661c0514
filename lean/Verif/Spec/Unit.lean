import Verif.Ind.Catalog

/-!
# Specification: units of price and volume

`Ext.sc u` expresses a value in another unit: one old unit is `u` new ones (dollars in cents: `u = 100`).
-/

set_option linter.unusedSectionVars false
set_option linter.unusedVariables false

namespace Bta

/-- multiplication with a positive factor; infinities and NaN stay -/
def Ext.sc {K : Type} [Mul K] (u : K) : Ext K → Ext K
  | .fin x => .fin (u * x)
  | e => e

end Bta

namespace Spec
open Bta

section
variable {K : Type} [Mul K]

/-- the line in another unit: each value multiplied, the minimum period kept -/
def inUnit (u : K) (a : Line (Ext K)) : Line (Ext K) := ⟨a.series.map (Ext.sc u), a.minperiod⟩

end

/-- The average has the unit of its input: `trix`, which is a rate of change, does not occur in it. -/
def keepsUnit {V : Type} : Avg V → Prop
  | .trix _ => False
  | .dema m => keepsUnit m
  | .tema m => keepsUnit m
  | .gdema m _ => keepsUnit m
  | .t3gd m _ => keepsUnit m
  | _ => True

variable {K : Type} [Field K] [LinearOrder K] [IsStrictOrderedRing K]

/-- a square root: the root of a value in squared units is the root in units -/
def RootLike (sq : Ext K → Ext K) : Prop := ∀ (u : K) (x : Ext K), 0 < u → sq (Ext.sc (u * u) x) = Ext.sc u (sq x)

/-- The unit of input `k` if prices are in unit `u` and volumes in unit `v`; indicators of two unrelated series (`mult`, `div`,
`beta`, `correl`) may have the two inputs in different units. -/
def unitIn (u v : K) : Call (Ext K) → ℕ → K
  | .mult, k | .div, k | .beta _ _ _, k | .correl _ _, k | .obv _ _, k => if k = 0 then u else v
  | .mfi _, k | .ad, k | .adosc _ _ _, k => if k ≤ 2 then u else v
  | _, _ => u

/-- The units of the outputs; `none`: there is none (mathematical functions and the angle of a slope, or a start value which is
itself a price). -/
def unitsOut (u v : K) : Call (Ext K) → Option (List K)
  | .avg (.trix _) _ => some [1]
  | .avg _ _ => some [u]
  | .add | .sub => some [u]
  | .mult => some [u * v]
  | .div => some [u / v]
  | .max _ | .min _ => some [u]
  | .minmax _ => some [u, u]
  | .maxindex _ | .minindex _ | .maxindexAbs _ | .minindexAbs _ => some [1]
  | .minmaxindex _ _ => some [1, 1]
  | .avgprice _ | .typprice _ | .wclprice _ _ | .medprice _ => some [u]
  | .macd _ _ _ _ _ _ => some [u, u, u]
  | .apo _ _ _ => some [u]
  | .ppo _ _ _ _ _ _ => some [1, 1, 1]
  | .mom _ => some [u]
  | .roc _ | .rocp _ | .rocr _ | .rocr100 _ => some [1]
  | .rsi _ _ _ | .cmo _ _ => some [1]
  | .mad _ => some [u]
  | .cci _ _ _ => some [1]
  | .var _ _ => some [u * u]
  | .stddev _ _ _ => some [u]
  | .bbands _ _ _ _ => some [u, u, u]
  | .stochf _ _ _ | .stochastic _ _ _ _ _ => some [1, 1]
  | .williamsr _ | .stochrsi _ _ _ => some [1]
  | .stochrsiD _ _ _ _ _ => some [1, 1]
  | .midprice _ | .midpoint _ => some [u]
  | .bop => some [1]
  | .truelow _ | .truerange _ | .atr _ _ _ => some [u]
  | .natr _ _ _ | .ultosc _ _ _ _ _ _ | .mfi _ => some [1]
  | .obv _ _ | .ad | .adosc _ _ _ => some [v]
  | .aroon _ => some [1, 1]
  | .aroonosc _ => some [1]
  | .linregSlope _ | .linregIntercept _ _ | .linreg _ | .tsf _ => some [u]
  | .linregAngle _ _ _ => none
  | .beta true _ _ => some [1]
  | .beta false _ _ => some [v / u]
  | .correl _ _ => some [1]
  | .crossup _ | .crossdown _ | .crossover _ => some [1]
  | .plusDm _ _ _ | .minusDm _ _ _ => some [u]
  | .dm _ _ _ => some [u, u]
  | .plusDi _ _ _ _ | .minusDi _ _ _ _ => some [1]
  | .di _ _ _ _ => some [1, 1]
  | .dx _ _ _ _ | .adx _ _ _ _ _ _ | .adxr _ _ _ _ _ _ _ => some [1]
  | .sar _ _ => some [u]
  | .sarext P => if P.startval = .fin 0 then some [u] else none
  | .htDcperiod _ | .htDcphase _ | .htTrendmode _ => some [1]
  | .htPhasor _ => some [u, u]
  | .htSine _ => some [1, 1]
  | .htTrendline _ => some [u]
  | .mama _ _ _ _ => some [u, u]
  | .mathFn _ => none

/-- averages which are given as parameters keep units, square roots are square roots -/
def unitParams : Call (Ext K) → Prop
  | .avg (.trix m) _ => keepsUnit m
  | .avg m _ => keepsUnit m
  | .macd mf ma ms _ _ _ => keepsUnit mf ∧ keepsUnit ma ∧ keepsUnit ms
  | .apo ma _ _ => keepsUnit ma
  | .ppo _ ma ms _ _ _ => keepsUnit ma ∧ keepsUnit ms
  | .rsi ma _ _ => keepsUnit ma
  | .cmo s _ => keepsUnit s
  | .cci ma _ _ => keepsUnit ma
  | .stddev sq _ _ => RootLike sq
  | .bbands sq ma _ _ => RootLike sq ∧ keepsUnit ma
  | .stochf ma _ _ => keepsUnit ma
  | .stochastic ma ms _ _ _ => keepsUnit ma ∧ keepsUnit ms
  | .stochrsiD ma _ _ _ _ => keepsUnit ma
  | .atr ma _ _ | .natr ma _ _ | .adosc ma _ _ => keepsUnit ma
  | .correl sq _ => RootLike sq
  | .plusDm s _ _ | .minusDm s _ _ | .dm s _ _ => keepsUnit s
  | .plusDi s _ _ _ | .minusDi s _ _ _ | .di s _ _ _ | .dx s _ _ _ => keepsUnit s
  | .adx s m _ _ _ _ => keepsUnit s ∧ keepsUnit m
  | .adxr s m _ _ _ _ _ => keepsUnit s ∧ keepsUnit m
  | _ => True

end Spec
