import Verif.Ind.Catalog
import Verif.Spec.Unit

/-!
# Specification: charts turned upside down

All prices change their sign; what was the high of a bar is now the low and vice versa; volume stays.
-/

set_option linter.unusedSectionVars false
set_option linter.unusedVariables false

namespace Spec
open Bta

variable {V : Type} [PyFloat V]

/-- the line with the sign of each value changed -/
def neg (a : Line V) : Line V := ⟨a.series.map (fun x => -x), a.minperiod⟩

/-- The inputs of the chart turned upside down: signs changed; high and low exchanged; volume as it is. -/
def mirrorIn (c : Call V) (x : ℕ → Line V) (k : ℕ) : Line V :=
  match c with
  -- high, low, (close)
  | .midprice _ | .medprice _ | .typprice _ | .wclprice _ _ | .aroon _ | .aroonosc _ | .cci _ _ _ | .truerange _ | .atr _ _ _
  | .plusDm _ _ _ | .minusDm _ _ _ | .dm _ _ _ | .plusDi _ _ _ _ | .minusDi _ _ _ _ | .di _ _ _ _ | .dx _ _ _ _
  | .adx _ _ _ _ _ _ | .adxr _ _ _ _ _ _ _ | .sar _ _ =>
    if k = 0 then neg (x 1) else if k = 1 then neg (x 0) else neg (x k)
  -- open, high, low, close
  | .avgprice _ | .bop => if k = 1 then neg (x 2) else if k = 2 then neg (x 1) else neg (x k)
  -- high, low, close, volume
  | .ad | .adosc _ _ _ => if k = 0 then neg (x 1) else if k = 1 then neg (x 0) else if k = 2 then neg (x 2) else x k
  -- close, volume
  | .obv _ _ => if k = 0 then neg (x 0) else x k
  | _ => neg (x k)

/-- The call which says of the turned chart what a call says of the chart: rising for falling, highest for lowest; most
calls say it themselves. -/
def mirrorCall : Call V → Call V
  | .max p => .min p
  | .min p => .max p
  | .maxindex p => .minindex p
  | .minindex p => .maxindex p
  | .maxindexAbs p => .minindexAbs p
  | .minindexAbs p => .maxindexAbs p
  | .crossup s => .crossdown s
  | .crossdown s => .crossup s
  | .plusDm s ps q => .minusDm s ps q
  | .minusDm s ps q => .plusDm s ps q
  | .plusDi s ps q t => .minusDi s ps q t
  | .minusDi s ps q t => .plusDi s ps q t
  | c => c

/-- What becomes of the outputs: sign changed, unchanged, exchanged (rising for falling), or exchanged with the sign
changed; `none` for the calls of which nothing is claimed. -/
def mirrorOut : Call V → Option (List (Line V) → List (Line V))
  | .avg (.trix _) _ => none
  | .avg _ _ => some (List.map neg)
  | .max _ | .min _ | .crossup _ | .crossdown _ => some (List.map neg)
  | .add | .sub | .avgprice _ | .typprice _ | .wclprice _ _ | .medprice _ | .midprice _ | .midpoint _ => some (List.map neg)
  | .macd _ _ _ _ _ _ | .apo _ _ _ | .mom _ | .cci _ _ _ | .cmo _ _ | .bop | .ad | .adosc _ _ _ | .obv false _ => some (List.map neg)
  | .linregSlope _ | .linregIntercept _ _ | .linreg _ | .tsf _ | .aroonosc _ => some (List.map neg)
  | .htPhasor _ | .htTrendline _ | .mama _ _ _ _ => some (List.map neg)
  | .mult | .var _ _ | .stddev _ _ _ | .mad _ | .truerange _ | .atr _ _ _ | .dx _ _ _ _ | .adx _ _ _ _ _ _
  | .adxr _ _ _ _ _ _ _ | .correl _ _ | .beta false _ _ | .htDcperiod _ => some id
  | .maxindex _ | .minindex _ | .maxindexAbs _ | .minindexAbs _ => some id
  | .plusDm _ _ _ | .minusDm _ _ _ | .plusDi _ _ _ _ | .minusDi _ _ _ _ => some id
  | .dm _ _ _ | .di _ _ _ _ | .aroon _ | .minmaxindex _ _ => some List.reverse
  | .minmax _ => some fun r => (r.map neg).reverse
  | .bbands _ _ _ _ => some fun r => match r with
    | [mid, top, bot] => [neg mid, neg bot, neg top]
    | r => r
  | _ => none

/-- averages given as parameters have the unit of their input (`trix` does not) -/
def mirrorParams : Call V → Prop
  | .avg m _ => keepsUnit m
  | .macd mf ma ms _ _ _ => keepsUnit mf ∧ keepsUnit ma ∧ keepsUnit ms
  | .apo ma _ _ => keepsUnit ma
  | .cci ma _ _ => keepsUnit ma
  | .bbands _ ma _ _ => keepsUnit ma
  | .adosc ma _ _ => keepsUnit ma
  | _ => True

/-- the calls which do not depend on the order of a sum: all but `avgprice` (four prices) and `ad`, `adosc` (twice the close less low
and high) -/
def orderFree : Call V → Prop
  | .avgprice _ | .ad | .adosc _ _ _ => False
  | _ => True

variable {K : Type} [Field K] [LinearOrder K] [IsStrictOrderedRing K]

/-- The first two bars (from the first bar both lines have a value at) show a direction: the high rises, and by more than the low
falls, or the low falls, and by more than the high rises. -/
def directed (h l : Line (Ext K)) : Prop :=
  ∃ hi₁ lo₁ hi₂ lo₂ : K,
    h.series[(max h.minperiod l.minperiod - 1).toNat]? = some (.fin hi₁) ∧
    l.series[(max h.minperiod l.minperiod - 1).toNat]? = some (.fin lo₁) ∧
    h.series[(max h.minperiod l.minperiod - 1).toNat + 1]? = some (.fin hi₂) ∧
    l.series[(max h.minperiod l.minperiod - 1).toNat + 1]? = some (.fin lo₂) ∧
    (0 < hi₂ - hi₁ ∧ lo₁ - lo₂ < hi₂ - hi₁ ∨ 0 < lo₁ - lo₂ ∧ hi₂ - hi₁ < lo₁ - lo₂)

end Spec
