import Verif.Spec.Catalog

/-!
# How many bars each indicator needs

The minimum period of each output of each call, from the minimum periods `m 0, m 1, ...` of its inputs (1 for plain data).
-/

namespace Bta

variable {V : Type}

/-- The bars an average over `p` bars needs in addition to those of the line it is applied to. -/
def Spec.more : Avg V → ℕ → ℕ
  | .dema a, p => 2 * more a p
  | .tema a, p => 3 * more a p
  | .trix a, p => 3 * more a p + 1
  | .gdema a _, p => 2 * more a p
  | .t3 _, p => 6 * (p - 1)
  | .t3gd a _, p => 6 * more a p
  | .kama _ _ pvol _, p => max p (p - 1 + pvol)
  | .smacc _ early _, p => if early then p - 2 else p - 1
  | _, p => p - 1

/-- The greatest minimum period of the first two, three, four inputs. -/
def Spec.max2 (m : ℕ → ℕ) : ℕ := max (m 0) (m 1)
/-- (see `Spec.max2`) -/
def Spec.max3 (m : ℕ → ℕ) : ℕ := max (Spec.max2 m) (m 2)
/-- (see `Spec.max2`) -/
def Spec.max4 (m : ℕ → ℕ) : ℕ := max (Spec.max3 m) (m 3)

/-- First bar with a true range: the close of `q` bars ago is needed. -/
def Spec.trBars (m : ℕ → ℕ) (q : ℕ) : ℕ := max (Spec.max2 m) (m 2 + q)

/-- First bar with %K: the highest high and the lowest low of `p` bars and the close. -/
def Spec.kBars (m : ℕ → ℕ) (p : ℕ) : ℕ := max (Spec.max2 m + (p - 1)) (m 2)

/-- First bar with a directional indicator: the smoothed movement, and the smoothed true range, which counts one bar more
(C29). -/
def Spec.diBars (m : ℕ → ℕ) (q : ℕ) (smooth : ℕ) : ℕ := max (Spec.max2 m + q) (Spec.trBars m q + 1) + smooth

/-- The minimum period of each output. -/
def Spec.need (m : ℕ → ℕ) : Call V → List ℕ
  | .avg a p => [m 0 + Spec.more a p]
  | .add | .sub | .mult | .div => [Spec.max2 m]
  | .max p | .min p | .maxindex p | .minindex p | .mad p | .var _ p | .stddev _ _ p | .midpoint p | .linregSlope p
  | .linregAngle _ _ p | .linregIntercept _ p | .linreg p | .tsf p => [m 0 + (p - 1)]
  | .minmax p => [m 0 + (p - 1), m 0 + (p - 1)]
  | .maxindexAbs _ | .minindexAbs _ => [1]
  | .minmaxindex abs p => if abs then [1, 1] else [m 0 + (p - 1), m 0 + (p - 1)]
  | .avgprice _ | .bop | .ad => [Spec.max4 m]
  | .typprice _ | .wclprice _ _ => [Spec.max3 m]
  | .medprice _ => [Spec.max2 m]
  | .macd mf ma ms pf ps pg =>
    let macd := m 0 + max (Spec.more mf pf) (Spec.more ma ps)
    [macd, macd + Spec.more ms pg, macd + Spec.more ms pg]
  | .apo ma pf ps => [m 0 + max (Spec.more ma pf) (Spec.more ma ps)]
  | .ppo _ ma ms pf ps pg =>
    let ppo := m 0 + max (Spec.more ma pf) (Spec.more ma ps)
    [ppo, ppo + Spec.more ms pg, ppo + Spec.more ms pg]
  | .mom p | .roc p | .rocp p | .rocr p | .rocr100 p => [m 0 + p]
  | .rsi ma lookback p => [m 0 + lookback + Spec.more ma p]
  | .cmo sum p => [m 0 + 1 + Spec.more sum p]
  | .cci ma _ p => [Spec.max3 m + max (Spec.more ma p) (p - 1)]
  | .bbands _ ma _ p =>
    let band := m 0 + max (Spec.more ma p) (p - 1)
    [m 0 + Spec.more ma p, band, band]
  | .stochf ma p pf => [Spec.kBars m p, Spec.kBars m p + Spec.more ma pf]
  | .stochastic ma ms p pf ps => [Spec.kBars m p + Spec.more ma pf, Spec.kBars m p + Spec.more ma pf + Spec.more ms ps]
  | .williamsr p => [Spec.kBars m p]
  | .stochrsi p ph _ => [m 0 + p + (ph - 1)]
  | .stochrsiD ma p ph pf _ => [m 0 + p + (ph - 1), m 0 + p + (ph - 1) + Spec.more ma pf]
  | .midprice p => [Spec.max2 m + (p - 1)]
  | .truelow q => [max (m 0) (m 1 + q)]
  | .truerange q => [Spec.trBars m q]
  | .atr ma q p => [Spec.trBars m q + Spec.more ma p]
  | .natr ma q p => [Spec.trBars m q + Spec.more ma p]
  | .ultosc p1 p2 p3 _ _ _ => [Spec.trBars m 1 + (max p1 (max p2 p3) - 1)]
  | .mfi p => [max (Spec.max3 m + 1) (m 3) + (p - 1)]
  | .obv talib q => [max (m 0 + q - if talib then 1 else 0) (m 1)]
  | .adosc ma pf ps => [Spec.max4 m + max (Spec.more ma pf) (Spec.more ma ps)]
  | .aroon p => [m 1 + p, m 0 + p]
  | .aroonosc p => [Spec.max2 m + p]
  | .beta rets prets p => [Spec.max2 m + (if rets then prets else 0) + (p - 1)]
  | .correl _ p => [m 0 + (p - 1)]
  | .crossup _ | .crossdown _ | .crossover _ => [Spec.max2 m + 1]
  | .plusDm sm ps q | .minusDm sm ps q => [Spec.max2 m + q + Spec.more sm ps]
  | .dm sm ps q => [Spec.max2 m + q + Spec.more sm ps, Spec.max2 m + q + Spec.more sm ps]
  | .plusDi sm ps q _ | .minusDi sm ps q _ | .dx sm ps q _ => [Spec.diBars m q (Spec.more sm ps)]
  | .di sm ps q _ => [Spec.diBars m q (Spec.more sm ps), Spec.diBars m q (Spec.more sm ps)]
  | .adx sm ma ps q _ p => [Spec.diBars m q (Spec.more sm ps) + Spec.more ma p]
  | .adxr sm ma ps q talib p prating =>
    [Spec.diBars m q (Spec.more sm ps) + Spec.more ma p +
      ((match prating with | none => p | some 0 => p | some r => r) - if talib then 1 else 0)]
  | .sar _ _ | .sarext _ => [Spec.max2 m + 1]
  | .htDcperiod _ => [m 0 + 32]
  | .htPhasor _ => [m 0 + 32, m 0 + 32]
  | .htDcphase _ | .htTrendline _ | .htTrendmode _ => [m 0 + 63]
  | .htSine _ => [m 0 + 63, m 0 + 63]
  | .mama _ _ _ _ => [m 0 + 32, m 0 + 32]
  | .mathFn _ => [m 0]

end Bta
