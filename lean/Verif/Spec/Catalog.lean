import Verif.Ind.Catalog
import Verif.Meta.Registry

/-!
# What is claimed of every indicator of the library

The conditions on the parameters of a call (`Periods`, `Windowed`, `Seeded`) and the claims.
-/

namespace Bta

variable {V : Type} [PyFloat V]

/-- The periods given to an average are usable: at least 1, an offset of the seed not before the period, and an
"early" `smacc` (the smoothing of the directional movement) only with a period of at least 2 on data whose minimum period
`q` is at least 2. -/
def Avg.Periods : Avg V → (q p : ℕ) → Prop
  | .ema _ o, _, p => 1 ≤ p ∧ (o = 0 ∨ p ≤ o)
  | .dema m, _, p => m.Periods 1 p
  | .tema m, _, p => m.Periods 1 p
  | .trix m, _, p => m.Periods 1 p
  | .gdema m _, _, p => m.Periods 1 p
  | .t3gd m _, _, p => m.Periods 1 p
  | .smacc _ e _, q, p => 1 ≤ p ∧ (e = true → 2 ≤ p ∧ 2 ≤ q)
  | _, _, p => 1 ≤ p

/-- averages over a window: their value does not depend on older bars -/
def Avg.Windowed : Avg V → Prop
  | .sma => True
  | .wma => True
  | .sumN => True
  | .trima => True
  | .dema m => m.Windowed
  | .tema m => m.Windowed
  | .trix m => m.Windowed
  | .gdema m _ => m.Windowed
  | .t3gd m _ => m.Windowed
  | _ => False

/-- averages other than `ewma`, whose values start before its minimum period -/
def Avg.Seeded : Avg V → Prop
  | .ewma _ => False
  | .dema m => m.Seeded
  | .tema m => m.Seeded
  | .trix m => m.Seeded
  | .gdema m _ => m.Seeded
  | .t3gd m _ => m.Seeded
  | _ => True

/-- averages other than `kama`, which counts the bars of its seed twice on data which start late (C19) -/
def Avg.Delayable : Avg V → Prop
  | .kama _ _ _ _ => False
  | .dema m => m.Delayable
  | .tema m => m.Delayable
  | .trix m => m.Delayable
  | .gdema m _ => m.Delayable
  | .t3gd m _ => m.Delayable
  | _ => True

/-- the periods given to a call are usable -/
def Call.Periods : Call V → Prop
| .avg m p => m.Periods 1 p
  | .max p => 1 ≤ p
  | .min p => 1 ≤ p
  | .minmax p => 1 ≤ p
  | .maxindex p => 1 ≤ p
  | .minindex p => 1 ≤ p
  | .minmaxindex b p => b = true ∨ 1 ≤ p
  | .macd mf ma ms pf ps pg => mf.Periods 1 pf ∧ ma.Periods 1 ps ∧ ms.Periods 1 pg
  | .apo ma pf ps => ma.Periods 1 pf ∧ ma.Periods 1 ps
  | .ppo _ ma ms pf ps pg => ma.Periods 1 pf ∧ ma.Periods 1 ps ∧ ms.Periods 1 pg
  | .rsi ma _ p => ma.Periods 1 p
  | .cmo sum p => sum.Periods 1 p
  | .mad p => 1 ≤ p
  | .cci ma _ p => ma.Periods 1 p ∧ 1 ≤ p
  | .var _ p => 1 ≤ p
  | .stddev _ _ p => 1 ≤ p
  | .bbands _ ma _ p => ma.Periods 1 p ∧ 1 ≤ p
  | .stochf ma p pf => 1 ≤ p ∧ ma.Periods 1 pf
  | .stochastic ma ms p pf ps => 1 ≤ p ∧ ma.Periods 1 pf ∧ ms.Periods 1 ps
  | .williamsr p => 1 ≤ p
  | .stochrsi p ph _ => 1 ≤ p ∧ 1 ≤ ph
  | .stochrsiD ma p ph pf _ => 1 ≤ p ∧ 1 ≤ ph ∧ ma.Periods 1 pf
  | .midprice p => 1 ≤ p
  | .midpoint p => 1 ≤ p
  | .atr ma _ p => ma.Periods 1 p
  | .natr ma _ p => ma.Periods 1 p
  | .ultosc p1 p2 p3 _ _ _ => 1 ≤ p1 ∧ 1 ≤ p2 ∧ 1 ≤ p3
  | .mfi p => 1 ≤ p
  | .obv t q => t = true → 1 ≤ q
  | .adosc ma pf ps => ma.Periods 1 pf ∧ ma.Periods 1 ps
  | .linregSlope p => 1 ≤ p
  | .linregAngle _ _ p => 1 ≤ p
  | .linregIntercept _ p => 1 ≤ p
  | .linreg p => 1 ≤ p
  | .tsf p => 1 ≤ p
  | .beta _ _ p => 1 ≤ p
  | .correl _ p => 1 ≤ p
  | .plusDm sm ps q => 1 ≤ q ∧ sm.Periods 2 ps
  | .minusDm sm ps q => 1 ≤ q ∧ sm.Periods 2 ps
  | .dm sm ps q => 1 ≤ q ∧ sm.Periods 2 ps
  | .plusDi sm ps q _ => 1 ≤ q ∧ sm.Periods 2 ps
  | .minusDi sm ps q _ => 1 ≤ q ∧ sm.Periods 2 ps
  | .di sm ps q _ => 1 ≤ q ∧ sm.Periods 2 ps
  | .dx sm ps q _ => 1 ≤ q ∧ sm.Periods 2 ps
  | .adx sm ma ps q _ p => 1 ≤ q ∧ sm.Periods 2 ps ∧ ma.Periods 1 p
  | .adxr sm ma ps q _ p _ => 1 ≤ q ∧ sm.Periods 2 ps ∧ ma.Periods 1 p ∧ 1 ≤ p
  | _ => True

/-- calls whose value at a bar is calculated from a window of bars: no recursion, no sum from the first bar on, no
padding, no absolute index -/
def Call.Windowed : Call V → Prop
| .avg m _ => m.Windowed
  | .maxindexAbs _ => False
  | .minindexAbs _ => False
  | .minmaxindex b _ => b = false
  | .macd mf ma ms _ _ _ => mf.Windowed ∧ ma.Windowed ∧ ms.Windowed
  | .apo ma _ _ => ma.Windowed
  | .ppo _ ma ms _ _ _ => ma.Windowed ∧ ms.Windowed
  | .rsi ma _ _ => ma.Windowed
  | .cmo sum _ => sum.Windowed
  | .cci ma _ _ => ma.Windowed
  | .bbands _ ma _ _ => ma.Windowed
  | .stochf ma _ _ => ma.Windowed
  | .stochastic ma ms _ _ _ => ma.Windowed ∧ ms.Windowed
  | .stochrsi _ _ _ => False
  | .stochrsiD _ _ _ _ _ => False
  | .atr ma _ _ => ma.Windowed
  | .natr ma _ _ => ma.Windowed
  | .obv _ _ => False
  | .ad => False
  | .adosc _ _ _ => False
  | .beta rets _ _ => rets = false
  | .crossup s => s = true
  | .crossdown s => s = true
  | .plusDm sm _ _ => sm.Windowed
  | .minusDm sm _ _ => sm.Windowed
  | .dm sm _ _ => sm.Windowed
  | .plusDi sm _ _ _ => sm.Windowed
  | .minusDi sm _ _ _ => sm.Windowed
  | .di sm _ _ _ => sm.Windowed
  | .dx sm _ _ _ => sm.Windowed
  | .adx sm ma _ _ _ _ => sm.Windowed ∧ ma.Windowed
  | .adxr sm ma _ _ _ _ _ => sm.Windowed ∧ ma.Windowed
  | .sar _ _ => False
  | .sarext _ => False
  | .htDcperiod _ => False
  | .htPhasor _ => False
  | .htDcphase _ => False
  | .htSine _ => False
  | .htTrendline _ => False
  | .htTrendmode _ => False
  | .mama _ _ _ _ => False
  | _ => True

/-- calls which do not average with `ewma` -/
def Call.Seeded : Call V → Prop
| .avg m _ => m.Seeded
  | .macd mf ma ms _ _ _ => mf.Seeded ∧ ma.Seeded ∧ ms.Seeded
  | .apo ma _ _ => ma.Seeded
  | .ppo _ ma ms _ _ _ => ma.Seeded ∧ ms.Seeded
  | .rsi ma _ _ => ma.Seeded
  | .cmo sum _ => sum.Seeded
  | .cci ma _ _ => ma.Seeded
  | .bbands _ ma _ _ => ma.Seeded
  | .stochf ma _ _ => ma.Seeded
  | .stochastic ma ms _ _ _ => ma.Seeded ∧ ms.Seeded
  | .stochrsiD ma _ _ _ _ => ma.Seeded
  | .atr ma _ _ => ma.Seeded
  | .natr ma _ _ => ma.Seeded
  | .adosc ma _ _ => ma.Seeded
  | .plusDm sm _ _ => sm.Seeded
  | .minusDm sm _ _ => sm.Seeded
  | .dm sm _ _ => sm.Seeded
  | .plusDi sm _ _ _ => sm.Seeded
  | .minusDi sm _ _ _ => sm.Seeded
  | .di sm _ _ _ => sm.Seeded
  | .dx sm _ _ _ => sm.Seeded
  | .adx sm ma _ _ _ _ => sm.Seeded ∧ ma.Seeded
  | .adxr sm ma _ _ _ _ _ => sm.Seeded ∧ ma.Seeded
  | _ => True

/-- calls which do not average with `kama` or `mama` and do not give the number of a bar counted from the first bar -/
def Call.Delayable : Call V → Prop
| .avg m _ => m.Delayable
  | .macd mf ma ms _ _ _ => mf.Delayable ∧ ma.Delayable ∧ ms.Delayable
  | .apo ma _ _ => ma.Delayable
  | .ppo _ ma ms _ _ _ => ma.Delayable ∧ ms.Delayable
  | .rsi ma _ _ => ma.Delayable
  | .cmo sum _ => sum.Delayable
  | .cci ma _ _ => ma.Delayable
  | .bbands _ ma _ _ => ma.Delayable
  | .stochf ma _ _ => ma.Delayable
  | .stochastic ma ms _ _ _ => ma.Delayable ∧ ms.Delayable
  | .stochrsiD ma _ _ _ _ => ma.Delayable
  | .atr ma _ _ => ma.Delayable
  | .natr ma _ _ => ma.Delayable
  | .adosc ma _ _ => ma.Delayable
  | .plusDm sm _ _ => sm.Delayable
  | .minusDm sm _ _ => sm.Delayable
  | .dm sm _ _ => sm.Delayable
  | .plusDi sm _ _ _ => sm.Delayable
  | .minusDi sm _ _ _ => sm.Delayable
  | .di sm _ _ _ => sm.Delayable
  | .dx sm _ _ _ => sm.Delayable
  | .adx sm ma _ _ _ _ => sm.Delayable ∧ ma.Delayable
  | .adxr sm ma _ _ _ _ _ => sm.Delayable ∧ ma.Delayable
  | .maxindexAbs _ => False
  | .minindexAbs _ => False
  | .minmaxindex b _ => b = false
  | .mama _ _ _ _ => False
  | _ => True

/-- The Hilbert indicators whose loops go back a number of bars which is itself calculated (C41 is about these). -/
def Call.HtBack : Call V → Prop
  | .htDcphase _ => True
  | .htSine _ => True
  | .htTrendline _ => True
  | .htTrendmode _ => True
  | _ => False

/-- the classes of btalib/indicators which make the calculation -/
def Avg.names : Avg V → List String
  | .sma => ["sma"]
  | .ema _ _ => ["ema"]
  | .smma _ => ["smma"]
  | .ewma _ => ["ewma"]
  | .wma => ["wma"]
  | .sumN => ["sum"]
  | .trima => ["trima"]
  | .dema _ => ["dema"]
  | .tema _ => ["tema"]
  | .trix _ => ["trix"]
  | .gdema _ _ => ["gdema"]
  | .t3 _ => ["t3"]
  | .t3gd _ _ => ["t3"]
  | .kama _ _ _ _ => ["kama"]
  | .smacc _ _ _ => ["smacc"]

/-- the classes of btalib/indicators which make the calculation -/
def Call.names : Call V → List String
  | .avg m _ => m.names
  | .add => ["add"]
  | .sub => ["sub"]
  | .mult => ["mult"]
  | .div => ["div"]
  | .max _ => ["max"]
  | .min _ => ["min"]
  | .minmax _ => ["minmax"]
  | .maxindex _ => ["maxindex"]
  | .minindex _ => ["minindex"]
  | .maxindexAbs _ => ["maxindex"]
  | .minindexAbs _ => ["minindex"]
  | .minmaxindex _ _ => ["minmaxindex"]
  | .avgprice _ => ["avgprice"]
  | .typprice _ => ["typprice"]
  | .wclprice _ _ => ["wclprice"]
  | .medprice _ => ["medprice"]
  | .macd _ _ _ _ _ _ => ["macd"]
  | .apo _ _ _ => ["apo"]
  | .ppo false _ _ _ _ _ => ["ppo"]
  | .ppo true _ _ _ _ _ => ["ppofast"]
  | .mom _ => ["mom"]
  | .roc _ => ["roc"]
  | .rocp _ => ["rocp"]
  | .rocr _ => ["rocr"]
  | .rocr100 _ => ["rocr100"]
  | .rsi _ _ _ => ["rsi"]
  | .cmo _ _ => ["cmo"]
  | .mad _ => ["mad"]
  | .cci _ _ _ => ["cci"]
  | .var _ _ => ["var", "var_s"]
  | .stddev _ _ _ => ["stddev", "stddev_s"]
  | .bbands _ _ _ _ => ["bbands"]
  | .stochf _ _ _ => ["stochf"]
  | .stochastic _ _ _ _ _ => ["stochastic"]
  | .williamsr _ => ["williamsr"]
  | .stochrsi _ _ _ => ["stochrsi"]
  | .stochrsiD _ _ _ _ _ => []
  | .midprice _ => ["midprice"]
  | .midpoint _ => ["midpoint"]
  | .bop => ["bop"]
  | .truelow _ => ["truelow"]
  | .truerange _ => ["truerange"]
  | .atr _ _ _ => ["atr"]
  | .natr _ _ _ => ["natr"]
  | .ultosc _ _ _ _ _ _ => ["ultimateoscillator"]
  | .mfi _ => ["mfi"]
  | .obv _ _ => ["obv"]
  | .ad => ["ad"]
  | .adosc _ _ _ => ["adosc"]
  | .aroon _ => ["aroon"]
  | .aroonosc _ => ["aroonosc"]
  | .linregSlope _ => ["linearreg_slope"]
  | .linregAngle _ _ _ => ["linearreg_angle"]
  | .linregIntercept _ _ => ["linearreg_intercept"]
  | .linreg _ => ["linearreg"]
  | .tsf _ => ["tsf"]
  | .beta _ _ _ => ["beta"]
  | .correl _ _ => ["correl"]
  | .crossup _ => ["crossup"]
  | .crossdown _ => ["crossdown"]
  | .crossover _ => ["crossover"]
  | .plusDm _ _ _ => ["plus_dm"]
  | .minusDm _ _ _ => ["minus_dm"]
  | .dm _ _ _ => ["dm"]
  | .plusDi _ _ _ _ => ["plus_di"]
  | .minusDi _ _ _ _ => ["minus_di"]
  | .di _ _ _ _ => ["di"]
  | .dx _ _ _ _ => ["dx"]
  | .adx _ _ _ _ _ _ => ["adx"]
  | .adxr _ _ _ _ _ _ _ => ["adxr"]
  | .sar _ _ => ["sar"]
  | .sarext _ => ["sarext"]
  | .htDcperiod _ => ["ht_dcperiod"]
  | .htPhasor _ => ["ht_phasor"]
  | .htDcphase _ => ["ht_dcphase"]
  | .htSine _ => ["ht_sine"]
  | .htTrendline _ => ["ht_trendline"]
  | .htTrendmode _ => ["ht_trendmode"]
  | .mama _ _ _ _ => ["mama"]
  | .mathFn _ => ["sin", "cos", "tan", "sinh", "cosh", "tanh", "asin", "acos", "atan", "ceil", "exp", "floor", "ln",
      "log10", "sqrt"]

/-- The functions the library takes from numpy: `F` for the Hilbert family, square root, arc tangent, degrees of a radian, and
one of math.py. -/
structure Spec.NumFns (V : Type) where
  F : HtFns V
  sqrt : V → V
  arctan : V → V
  rad2deg : V
  fn : V → V

/-- A call of each class with its default parameters (the `params` in the files of btalib/indicators). -/
def Spec.defaults (N : Spec.NumFns V) : List (Call V) :=
  let ema : Avg V := .ema .avg 0
  let smacc : Avg V := .smacc false false .sum
  [.avg .sma 30, .avg ema 30, .avg (.smma .avg) 30, .avg (.ewma false) 30, .avg .wma 30, .avg .sumN 30, .avg .trima 30,
   .avg (.dema ema) 30, .avg (.tema ema) 30, .avg (.trix ema) 30, .avg (.gdema ema (lit 0.7)) 5, .avg (.t3 (lit 0.7)) 5,
   .avg (.kama (lit 2) (lit 30) 1 .avg) 30, .avg smacc 14,
   .add, .sub, .mult, .div, .max 30, .min 30, .minmax 30, .maxindex 30, .minindex 30, .minmaxindex false 30,
   .avgprice (lit 4), .typprice (lit 3), .wclprice (lit 2) (lit 4), .medprice (lit 2),
   .macd ema ema ema 12 26 9, .apo ema 12 26, .ppo false ema ema 12 26 9, .ppo true ema ema 12 26 9,
   .mom 10, .roc 12, .rocp 12, .rocr 12, .rocr100 12, .rsi (.smma .avg) 1 14, .cmo .sumN 14, .mad 20,
   .cci .sma (lit 0.015) 20, .var 0 5, .stddev N.sqrt 0 20, .bbands N.sqrt .sma (lit 2) 20,
   .stochf .sma 14 3, .stochastic .sma .sma 14 3 3, .williamsr 14, .stochrsi 14 14 (lit 1),
   .midprice 14, .midpoint 14, .bop, .truelow 1, .truerange 1, .atr (.smma .avg) 1 14, .natr (.smma .avg) 1 14,
   .ultosc 7 14 28 (lit 4) (lit 2) (lit 1), .mfi 14, .obv false 1, .ad, .adosc ema 3 10, .aroon 14, .aroonosc 14,
   .linregSlope 14, .linregAngle N.arctan N.rad2deg 14, .linregIntercept false 14, .linreg 14, .tsf 14,
   .beta true 1 5, .correl N.sqrt 30, .crossup false, .crossdown false, .crossover false,
   .plusDm smacc 14 1, .minusDm smacc 14 1, .dm smacc 14 1, .plusDi smacc 14 1 false, .minusDi smacc 14 1 false,
   .di smacc 14 1 false, .dx smacc 14 1 false, .adx smacc (.smma .avg) 14 1 false 14,
   .adxr smacc (.smma .avg) 14 1 false 14 none, .sar (lit 0.02) (lit 0.2),
   .sarext ⟨lit 0, lit 0.02, lit 0.2, lit 0.02, lit 0.2, lit 0⟩,
   .htDcperiod N.F, .htPhasor N.F, .htDcphase N.F, .htSine N.F, .htTrendline N.F, .htTrendmode N.F,
   .mama N.F N.arctan (lit 0.5) (lit 0.05), .mathFn N.fn]

/-- Names of the outputs which the class declares or inherits (btalib/meta/lines.py:19-105 through outputs.py:24-27). -/
def Spec.declaredOutputs (cls : String) : List String := (Meta.outGen (Meta.libChain cls)).lines

/-- The inputs: `n` bars each, minimum period at least 1 (1 for a `Series`). -/
structure Spec.Data (n : ℕ) (x : ℕ → Line V) : Prop where
  len : ∀ k, (x k).series.length = n
  pos : ∀ k, 1 ≤ (x k).minperiod

/-- The inputs, where what they hold before their minimum period is NaN (a `Series` has no such bars). -/
structure Spec.CleanData (n : ℕ) (x : ℕ → Line V) : Prop extends Spec.Data n x where
  pre : ∀ k i : ℕ, (i : Int) + 1 < (x k).minperiod → i < n → (x k).series[i]? = some nan

/-- The same inputs with bars added at the end. -/
structure Spec.MoreBars (x x' : ℕ → Line V) : Prop where
  mp : ∀ k, (x' k).minperiod = (x k).minperiod
  ser : ∀ k, (x k).series = (x' k).series.take (x k).series.length

/-- The same inputs without the first `k` bars. -/
structure Spec.LaterBars (k : ℕ) (x x' : ℕ → Line V) : Prop where
  mp : ∀ j, (x' j).minperiod = (x j).minperiod
  ser : ∀ j, (x' j).series = (x j).series.drop k

/-- An output does not change when bars are added: same minimum period, same values at the bars there were. -/
structure Spec.Kept (o o' : Line V) : Prop where
  mp : o'.minperiod = o.minperiod
  len : o.series.length ≤ o'.series.length
  val : ∀ i, i < o.series.length → o'.series[i]? = o.series[i]?

/-- An output does not depend on the first `k` bars: `o'`, calculated without them, has the same minimum period, and from
it on the same value at the same bar (number `i` in `o'`, `i + k` in `o`). -/
structure Spec.SameLater (k : ℕ) (o o' : Line V) : Prop where
  mp : o'.minperiod = o.minperiod
  len : o.series.length = o'.series.length + k
  val : ∀ i : ℕ, o'.minperiod ≤ (i : Int) + 1 → i < o'.series.length → o.series[i + k]? = o'.series[i]?

/-- The line `l'` is the line `l` put off by `k` bars: `k` bars more in front, a minimum period `k` bars later, and then the
same values. -/
structure Spec.PutOff {α : Type} (k : ℕ) (l l' : Line α) : Prop where
  mp : l'.minperiod = l.minperiod + k
  len : l'.series.length = l.series.length + k
  val : ∀ i, i < l.series.length → l'.series[i + k]? = l.series[i]?

/-- What a line has delivered, from its minimum period on, as data of its own. -/
def Spec.delivered {α : Type} (l : Line α) : List α := l.series.drop (l.minperiod.toNat - 1)

/-- An output has a value (or NaN) for each of the `n` bars, and nothing before its minimum period. -/
structure Spec.StartsAtMinperiod (n : ℕ) (o : Line V) : Prop where
  len : o.series.length = n
  pos : 1 ≤ o.minperiod
  pre : ∀ i : ℕ, (i : Int) + 1 < o.minperiod → i < n → o.series[i]? = some nan

end Bta
