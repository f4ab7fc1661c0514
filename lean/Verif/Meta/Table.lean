import Verif.Meta.Py

/-!
# The class definitions of the library

Written by `tools/gentable.py` from the text of `btalib/indicators/*.py`; modules in the order of
`btalib/indicators/__init__.py:14-90`, classes in the order of the modules.
-/

namespace Bta.Meta

/-- An access in an `__init__`, in the order of evaluation: `self.i.<name>` (`ifiread`: in a branch only),
`self.o.<name> = ..` (`ifset`: in one branch only), `self.o.<name>`; the name `[0]` stands for `self.o[0]`. -/
inductive Acc where
  | iread (n : String)
  | ifiread (n : String)
  | set (n : String)
  | ifset (n : String)
  | get (n : String)
deriving DecidableEq, Repr

/-- One class statement.  `base`: the (only) base class; `inputs`, `outputs`, `group`: the class attributes, if there are;
`iext`: `inputs_extend`; `groups`: the class attribute with this (misspelt) name; `alias`, `allow` (`allowinputs`),
`params` (names);
`init`: whether the class has an `__init__`; `kws`: its arguments; `anykw`: whether it has `**kwargs`;
`acc`: the accesses to `self.i` and `self.o` in `__init__`; `hook`: whether it has a `_talib`; `sets`: the names given to
`kwdict.setdefault` in it. -/
structure Row where
  name : String
  mod : String
  base : String
  inputs : Option (List String)
  iext : List String
  outputs : Option (List String)
  alias : List String
  group : Option (List String)
  groups : Option (List String)
  allow : Nat
  params : List String
  init : Bool
  kws : List String
  anykw : Bool
  acc : List Acc
  hook : Bool
  sets : List String
deriving DecidableEq, Repr

/-- `btalib/indicator.py:187-208` -/
def indicatorRow : Row :=
  ⟨"Indicator", "indicator", "", some ["close"], [], none, [], none, none, 0, [], true, [], true, [], true, []⟩

/-- indicators/price.py:10-30 -/
def row_avgprice : Row :=
  ⟨"avgprice", "price", "Indicator", (some ["open", "high", "low", "close"]), [], (some ["avg"]), ["AvgPrice", "AveragePrice", "AVGPrice", "AVGPRICE"],
    (some ["price"]), none, 0, ["divisor"], true, [], false,
    [.iread "open", .iread "high", .iread "low", .iread "close", .set "avg"], false, []⟩

/-- indicators/price.py:33-52 -/
def row_typprice : Row :=
  ⟨"typprice", "price", "Indicator", (some ["high", "low", "close"]), [], (some ["tp"]), ["typicalprice", "TypicalPrice", "TypPrice", "TYPPRICE"],
    (some ["price"]), none, 0, ["divisor"], true, [], false,
    [.iread "high", .iread "low", .iread "close", .set "tp"], false, []⟩

/-- indicators/price.py:55-77 -/
def row_wclprice : Row :=
  ⟨"wclprice", "price", "Indicator", (some ["high", "low", "close"]), [], (some ["wcl"]), ["WCLPrice", "WeightedClosePrice", "WCLPRICE", "weightedcloseprice"],
    (some ["price"]), none, 0, ["weight", "divisor"], true, [], false,
    [.iread "close", .iread "high", .iread "low", .set "wcl"], false, []⟩

/-- indicators/price.py:80-100 -/
def row_medprice : Row :=
  ⟨"medprice", "price", "Indicator", (some ["high", "low"]), [], (some ["med"]), ["WCLPrice", "WeightedClosePrice", "WCLPRICE", "weightedcloseprice"],
    (some ["price"]), none, 0, ["divisor"], true, [], false,
    [.iread "high", .iread "low", .set "med"], false, []⟩

/-- indicators/mathop.py:16-29 -/
def row_add : Row :=
  ⟨"add", "mathop", "Indicator", (some ["input1", "input2"]), [], (some ["add"]), ["ADD"],
    (some ["mathop"]), none, 0, [], true, [], false,
    [.iread "input1", .iread "input2", .set "add"], false, []⟩

/-- indicators/mathop.py:32-45 -/
def row_div : Row :=
  ⟨"div", "mathop", "Indicator", (some ["input1", "input2"]), [], (some ["div"]), ["DIV"],
    (some ["mathop"]), none, 0, [], true, [], false,
    [.iread "input1", .iread "input2", .set "div"], false, []⟩

/-- indicators/mathop.py:48-61 -/
def row_mult : Row :=
  ⟨"mult", "mathop", "Indicator", (some ["input1", "input2"]), [], (some ["mult"]), ["MULT"],
    (some ["mathop"]), none, 0, [], true, [], false,
    [.iread "input1", .iread "input2", .set "mult"], false, []⟩

/-- indicators/mathop.py:64-77 -/
def row_sub : Row :=
  ⟨"sub", "mathop", "Indicator", (some ["input1", "input2"]), [], (some ["sub"]), ["SUB"],
    (some ["mathop"]), none, 0, [], true, [], false,
    [.iread "input1", .iread "input2", .set "sub"], false, []⟩

/-- indicators/mathop.py:82-97 -/
def row_max : Row :=
  ⟨"max", "mathop", "Indicator", none, [], (some ["max"]), ["highest", "Highest", "maxn", "MaxN", "MAX"],
    (some ["mathop"]), none, 0, ["period"], true, [], false,
    [.set "max"], false, []⟩

/-- indicators/mathop.py:100-115 -/
def row_min : Row :=
  ⟨"min", "mathop", "Indicator", none, [], (some ["min"]), ["lowest", "Lowest", "minn", "MinN", "MIN"],
    (some ["mathop"]), none, 0, ["period"], true, [], false,
    [.set "min"], false, []⟩

/-- indicators/mathop.py:118-135 -/
def row_minmax : Row :=
  ⟨"minmax", "mathop", "Indicator", none, [], (some ["min", "max"]), ["MINMAX"],
    (some ["mathop"]), none, 0, ["period"], true, [], false,
    [.set "min", .set "max"], false, []⟩

/-- indicators/mathop.py:138-171 -/
def row_maxindex : Row :=
  ⟨"maxindex", "mathop", "Indicator", none, [], (some ["maxindex"]), ["MAXINDEX"],
    (some ["mathop"]), none, 0, ["period", "_absidx"], true, [], false,
    [.set "maxindex"], true, ["_absidx"]⟩

/-- indicators/mathop.py:174-207 -/
def row_minindex : Row :=
  ⟨"minindex", "mathop", "Indicator", none, [], (some ["minindex"]), ["MININDEX"],
    (some ["mathop"]), none, 0, ["period", "_absidx"], true, [], false,
    [.set "minindex"], true, ["_absidx"]⟩

/-- indicators/mathop.py:210-236 -/
def row_minmaxindex : Row :=
  ⟨"minmaxindex", "mathop", "Indicator", none, [], (some ["minindex", "maxindex"]), ["MINMAXINDEX"],
    (some ["mathop"]), none, 0, ["period", "_absidx"], true, [], true,
    [.set "minindex", .set "maxindex"], true, ["_absidx", "_talib"]⟩

/-- indicators/mathop.py:239-254 -/
def row_sum : Row :=
  ⟨"sum", "mathop", "Indicator", none, [], (some ["sum"]), ["sumn", "Sum", "SumN", "SUM"],
    (some ["mathop"]), none, 0, ["period"], true, [], false,
    [.set "sum"], false, []⟩

/-- indicators/math.py:16-23 -/
def row__mathrad : Row :=
  ⟨"_mathrad", "math", "Indicator", none, [], none, [],
    (some ["math"]), none, 0, ["degrees"], true, [], false,
    [.set "[0]"], false, []⟩

/-- indicators/math.py:28-41 -/
def row_sin : Row :=
  ⟨"sin", "math", "_mathrad", none, [], (some ["sin"]), ["SIN", "sine"],
    none, none, 0, [], false, [], false,
    [], false, []⟩

/-- indicators/math.py:44-57 -/
def row_cos : Row :=
  ⟨"cos", "math", "_mathrad", none, [], (some ["cos"]), ["COS", "cosine"],
    none, none, 0, [], false, [], false,
    [], false, []⟩

/-- indicators/math.py:60-73 -/
def row_tan : Row :=
  ⟨"tan", "math", "_mathrad", none, [], (some ["tan"]), ["TAN", "tangent"],
    none, none, 0, [], false, [], false,
    [], false, []⟩

/-- indicators/math.py:78-91 -/
def row_sinh : Row :=
  ⟨"sinh", "math", "_mathrad", none, [], (some ["sinh"]), ["SINH", "cosecant"],
    none, none, 0, [], false, [], false,
    [], false, []⟩

/-- indicators/math.py:94-107 -/
def row_cosh : Row :=
  ⟨"cosh", "math", "_mathrad", none, [], (some ["cosh"]), ["COSH", "secant"],
    none, none, 0, [], false, [], false,
    [], false, []⟩

/-- indicators/math.py:110-123 -/
def row_tanh : Row :=
  ⟨"tanh", "math", "_mathrad", none, [], (some ["tanh"]), ["TANH", "cotangent"],
    none, none, 0, [], false, [], false,
    [], false, []⟩

/-- indicators/math.py:128-142 -/
def row_asin : Row :=
  ⟨"asin", "math", "_mathrad", none, [], (some ["asin"]), ["ASIN", "arcsin", "arcsine"],
    none, none, 0, [], false, [], false,
    [], false, []⟩

/-- indicators/math.py:145-159 -/
def row_acos : Row :=
  ⟨"acos", "math", "_mathrad", none, [], (some ["acos"]), ["ACOS", "arccos", "arccosine"],
    none, none, 0, [], false, [], false,
    [], false, []⟩

/-- indicators/math.py:162-176 -/
def row_atan : Row :=
  ⟨"atan", "math", "_mathrad", none, [], (some ["atan"]), ["ATAN", "arctan", "arctangent"],
    none, none, 0, [], false, [], false,
    [], false, []⟩

/-- indicators/math.py:181-197 -/
def row_ceil : Row :=
  ⟨"ceil", "math", "Indicator", none, [], (some ["ceil"]), ["CEIL"],
    (some ["math"]), none, 0, [], true, [], false,
    [.set "ceil"], false, []⟩

/-- indicators/math.py:200-216 -/
def row_exp : Row :=
  ⟨"exp", "math", "Indicator", none, [], (some ["exp"]), ["EXP"],
    (some ["math"]), none, 0, [], true, [], false,
    [.set "exp"], false, []⟩

/-- indicators/math.py:219-235 -/
def row_floor : Row :=
  ⟨"floor", "math", "Indicator", none, [], (some ["floor"]), ["FLOOR"],
    (some ["math"]), none, 0, [], true, [], false,
    [.set "floor"], false, []⟩

/-- indicators/math.py:238-254 -/
def row_ln : Row :=
  ⟨"ln", "math", "Indicator", none, [], (some ["ln"]), ["LN", "log", "LOG"],
    (some ["math"]), none, 0, [], true, [], false,
    [.set "ln"], false, []⟩

/-- indicators/math.py:257-273 -/
def row_log10 : Row :=
  ⟨"log10", "math", "Indicator", none, [], (some ["log10"]), ["LOG10"],
    (some ["math"]), none, 0, [], true, [], false,
    [.set "log10"], false, []⟩

/-- indicators/math.py:276-291 -/
def row_sqrt : Row :=
  ⟨"sqrt", "math", "Indicator", none, [], (some ["sqrt"]), ["SQRT"],
    (some ["math"]), none, 0, [], true, [], false,
    [.set "sqrt"], false, []⟩

/-- indicators/crossover.py:10-40 -/
def row__crossbase : Row :=
  ⟨"_crossbase", "crossover", "Indicator", (some ["crosser", "crossed"]), [], none, [],
    none, none, 0, ["_strict"], true, [], false,
    [], false, []⟩

/-- indicators/crossover.py:43-61 -/
def row_crossup : Row :=
  ⟨"crossup", "crossover", "_crossbase", none, [], (some ["crossup"]), ["CrossUp"],
    (some ["utils"]), none, 0, [], true, [], false,
    [.set "crossup"], false, []⟩

/-- indicators/crossover.py:64-82 -/
def row_crossdown : Row :=
  ⟨"crossdown", "crossover", "_crossbase", none, [], (some ["crossdown"]), ["CrossDown"],
    (some ["utils"]), none, 0, [], true, [], false,
    [.set "crossdown"], false, []⟩

/-- indicators/crossover.py:85-107 -/
def row_crossover : Row :=
  ⟨"crossover", "crossover", "_crossbase", none, [], (some ["crossover"]), ["CrossOver"],
    (some ["utils"]), none, 0, [], true, [], false,
    [.set "crossover"], false, []⟩

/-- indicators/ewma.py:11-35 -/
def row_ewma : Row :=
  ⟨"ewma", "ewma", "Indicator", none, [], (some ["ewma"]), ["EWMA"],
    (some ["overlap"]), none, 0, ["period", "adjust", "_seed"], true, [], true,
    [.set "ewma"], false, []⟩

/-- indicators/sma.py:10-28 -/
def row_sma : Row :=
  ⟨"sma", "sma", "Indicator", none, [], (some ["sma"]), ["SMA", "SimpleMovingAverage"],
    (some ["overlap"]), none, 0, ["period"], true, [], false,
    [.set "sma"], false, []⟩

/-- indicators/ema.py:15-39 -/
def row_ema : Row :=
  ⟨"ema", "ema", "Indicator", none, [], (some ["ema"]), ["EMA", "ExponentialMovingAverage"],
    (some ["overlap"]), none, 0, ["period", "_seed"], true, ["poffset"], false,
    [.set "ema"], false, []⟩

/-- indicators/smma.py:10-41 -/
def row_smma : Row :=
  ⟨"smma", "smma", "Indicator", none, [], (some ["smma"]), ["SMMA", "SmoothedMovingAverage", "MMA", "ModifiedMovingAverage"],
    (some ["overlap"]), none, 0, ["period", "_seed"], true, [], false,
    [.set "smma"], false, []⟩

/-- indicators/wma.py:12-40 -/
def row_wma : Row :=
  ⟨"wma", "wma", "Indicator", none, [], (some ["wma"]), ["WMA", "WeightedMovingAverage"],
    (some ["overlap"]), none, 0, ["period", "coef"], true, [], false,
    [.set "wma"], false, []⟩

/-- indicators/dema.py:10-35 -/
def row_dema : Row :=
  ⟨"dema", "dema", "Indicator", none, [], (some ["dema"]), ["DEMA", "DoubleExponentialMovingAverage"],
    (some ["overlap"]), none, 0, ["period", "_ma"], true, [], false,
    [.set "dema"], false, []⟩

/-- indicators/kama.py:11-89 -/
def row_kama : Row :=
  ⟨"kama", "kama", "Indicator", none, [], (some ["kama"]), ["KAMA", "KaufmanAdaptiveMovingAverage"],
    (some ["overlap"]), none, 0, ["period", "fast", "slow", "_seed", "_pvol"], true, [], false,
    [.set "kama"], true, ["_seed"]⟩

/-- indicators/tema.py:10-39 -/
def row_tema : Row :=
  ⟨"tema", "tema", "Indicator", none, [], (some ["tema"]), ["TEMA", "TripleExponentialMovingAverage"],
    (some ["overlap"]), none, 0, ["period", "_ma"], true, [], false,
    [.set "tema"], false, []⟩

/-- indicators/trima.py:10-39 -/
def row_trima : Row :=
  ⟨"trima", "trima", "Indicator", none, [], (some ["trima"]), ["TRIMA", "TriangularMovingAverage"],
    (some ["overlap"]), none, 0, ["period", "_ma"], true, [], false,
    [.set "trima"], false, []⟩

/-- indicators/trix.py:10-43 -/
def row_trix : Row :=
  ⟨"trix", "trix", "Indicator", none, [], (some ["trix"]), ["Trix", "TRIX"],
    (some ["momentum"]), none, 0, ["period", "_ma"], true, [], false,
    [.set "trix"], false, []⟩

/-- indicators/t3.py:10-34 -/
def row_gdema : Row :=
  ⟨"gdema", "t3", "Indicator", none, [], (some ["gd"]), ["gd", "GD", "GDEMA", "GeneralizedDEMA"],
    (some ["overlap"]), none, 0, ["period", "vfactor", "_ma"], true, ["_gd"], false,
    [.set "gd"], false, []⟩

/-- indicators/t3.py:37-108 -/
def row_t3 : Row :=
  ⟨"t3", "t3", "Indicator", none, [], (some ["t3"]), ["T3", "TilsonsT3"],
    (some ["overlap"]), none, 0, ["period", "vfactor", "_ma", "_gd"], true, [], false,
    [.ifset "t3", .set "t3"], false, []⟩

/-- indicators/mavp.py:19-61 -/
def row_mavp : Row :=
  ⟨"mavp", "mavp", "Indicator", (some ["close", "periods"]), [], (some ["mavp"]), ["MAVP", "MovingAverageVariablePeriod"],
    (some ["overlap"]), none, 0, ["minperiod", "maxperiod", "_ma"], true, [], false,
    [.iread "periods", .iread "close", .iread "close", .set "mavp"], false, []⟩

/-- indicators/mama.py:17-147 -/
def row_mama : Row :=
  ⟨"mama", "mama", "Indicator", (some ["high", "low"]), [], (some ["mama", "fama"]), ["MAMA", "MesaAdaptiveMovingAverage"],
    (some ["overlap"]), none, 1, ["fastlimit", "slowlimit"], true, [], false,
    [.iread "high", .iread "low", .set "mama", .set "fama"], false, []⟩

/-- indicators/ht_trendline.py:17-134 -/
def row_ht_trendline : Row :=
  ⟨"ht_trendline", "ht_trendline", "Indicator", (some ["high", "low"]), [], (some ["trendline"]), ["HT_TRENDLINE", "HilberTransform_Trendline"],
    (some ["overlap"]), none, 1, [], true, [], false,
    [.iread "high", .iread "low", .set "trendline"], false, []⟩

/-- indicators/midpoint.py:10-31 -/
def row_midprice : Row :=
  ⟨"midprice", "midpoint", "Indicator", (some ["high", "low"]), [], (some ["midprice"]), ["MIDPRICE", "MidPrice"],
    (some ["overlap"]), none, 0, ["period"], true, [], false,
    [.iread "high", .iread "low", .set "midprice"], false, []⟩

/-- indicators/midpoint.py:34-52 -/
def row_midpoint : Row :=
  ⟨"midpoint", "midpoint", "Indicator", none, [], (some ["midpoint"]), ["MIDPOINT", "MidPoint"],
    (some ["overlap"]), none, 0, ["period"], true, [], false,
    [.set "midpoint"], false, []⟩

/-- indicators/ht_dcperiod.py:17-118 -/
def row_ht_dcperiod : Row :=
  ⟨"ht_dcperiod", "ht_dcperiod", "Indicator", (some ["high", "low"]), [], (some ["dcperiod"]), ["HT_DCPERIOD", "HilberTransform_DominantCyclePeriod"],
    (some ["cycle"]), none, 1, [], true, [], false,
    [.iread "high", .iread "low", .set "dcperiod"], false, []⟩

/-- indicators/ht_dcphase.py:18-149 -/
def row_ht_dcphase : Row :=
  ⟨"ht_dcphase", "ht_dcphase", "Indicator", (some ["high", "low"]), [], (some ["dcphase"]), ["HT_DCPHASE", "HilberTransform_DominantCyclePhase"],
    (some ["cycle"]), none, 1, [], true, [], false,
    [.iread "high", .iread "low", .set "dcphase"], false, []⟩

/-- indicators/ht_phasor.py:17-115 -/
def row_ht_phasor : Row :=
  ⟨"ht_phasor", "ht_phasor", "Indicator", (some ["high", "low"]), [], (some ["inphase", "quadrature"]), ["HT_PHASOR", "HilberTransform_Phasor"],
    (some ["cycle"]), none, 1, [], true, [], false,
    [.iread "high", .iread "low", .set "inphase", .set "quadrature"], false, []⟩

/-- indicators/ht_sine.py:19-153 -/
def row_ht_sine : Row :=
  ⟨"ht_sine", "ht_sine", "Indicator", (some ["high", "low"]), [], (some ["sine", "leadsine"]), ["HT_SINE", "HilberTransform_Sine"],
    (some ["cycle"]), none, 1, [], true, [], false,
    [.iread "high", .iread "low", .set "sine", .set "leadsine"], false, []⟩

/-- indicators/ht_trendmode.py:19-197 -/
def row_ht_trendmode : Row :=
  ⟨"ht_trendmode", "ht_trendmode", "Indicator", (some ["high", "low"]), [], (some ["trendline"]), ["HT_TRENDMODE", "HilberTransform_Trendmode"],
    (some ["cycle"]), none, 1, [], true, [], false,
    [.iread "high", .iread "low", .set "trendline"], false, []⟩

/-- indicators/beta.py:10-53 -/
def row_beta : Row :=
  ⟨"beta", "beta", "Indicator", (some ["asset", "market"]), [], (some ["beta"]), ["BETA", "Beta"],
    (some ["statistic"]), none, 0, ["period", "_prets", "_rets"], true, [], false,
    [.ifiread "asset", .ifiread "market", .ifiread "asset", .ifiread "market", .set "beta"], false, []⟩

/-- indicators/correl.py:10-31 -/
def row_correl : Row :=
  ⟨"correl", "correl", "Indicator", (some ["high", "low"]), [], (some ["correl"]), ["CORREL", "Correl"],
    (some ["statistic"]), none, 0, ["period", "_prets", "_rets"], true, [], false,
    [.set "correl"], false, []⟩

/-- indicators/linreg.py:41-78 -/
def row__linreg_base : Row :=
  ⟨"_linreg_base", "linreg", "Indicator", none, [], none, [],
    none, none, 0, ["period"], true, [], false,
    [], false, []⟩

/-- indicators/linreg.py:81-100 -/
def row_linearreg_slope : Row :=
  ⟨"linearreg_slope", "linreg", "_linreg_base", none, [], (some ["slope"]), ["LINEARREG_SLOPE", "LinearReg_Slope", "linreg_slope"],
    (some ["statistic"]), none, 0, [], true, [], false,
    [.set "slope"], false, []⟩

/-- indicators/linreg.py:103-122 -/
def row_linearreg_angle : Row :=
  ⟨"linearreg_angle", "linreg", "_linreg_base", none, [], (some ["slope"]), ["LINEARREG_ANGLE", "LinearReg_Angle", "linreg_angle"],
    (some ["statistic"]), none, 0, [], true, [], false,
    [.set "slope"], false, []⟩

/-- indicators/linreg.py:125-166 -/
def row_linearreg_intercept : Row :=
  ⟨"linearreg_intercept", "linreg", "_linreg_base", none, [], (some ["intercept"]), ["LINEARREG_INTERCEPT", "LinearReg_Intercept", "linreg_intercept"],
    (some ["statistic"]), none, 0, [], true, [], false,
    [.set "intercept"], true, []⟩

/-- indicators/linreg.py:169-211 -/
def row_linearreg : Row :=
  ⟨"linearreg", "linreg", "_linreg_base", none, [], (some ["linreg"]), ["LINEARREG", "LinearReg", "linreg"],
    (some ["statistic"]), none, 0, [], true, [], false,
    [.set "linreg"], true, []⟩

/-- indicators/linreg.py:214-256 -/
def row_tsf : Row :=
  ⟨"tsf", "linreg", "_linreg_base", none, [], (some ["tsf"]), ["TSF", "TimeSeriesForecast"],
    (some ["statistic"]), none, 0, [], true, [], false,
    [.set "tsf"], true, []⟩

/-- indicators/madev.py:12-31 -/
def row_mad : Row :=
  ⟨"mad", "madev", "Indicator", none, [], (some ["meandev"]), ["MAD", "meandev", "MeanDev", "MeanDeviation", "MeanAbsDeviation"],
    (some ["statistic"]), none, 0, ["period", "_ma"], true, ["mean"], false,
    [.set "meandev"], false, []⟩

/-- indicators/stddev.py:10-32 -/
def row_stddev : Row :=
  ⟨"stddev", "stddev", "Indicator", none, [], (some ["std"]), ["StdDev", "STDDEV", "StandardDeviation", "stddev_p", "STDDEV_P"],
    (some ["statistic"]), none, 0, ["period", "ddof"], true, [], false,
    [.set "std"], true, ["period"]⟩

/-- indicators/stddev.py:35-54 -/
def row_stddev_s : Row :=
  ⟨"stddev_s", "stddev", "stddev", none, [], none, ["stddev_sample", "STDDEV_S", "StandardDeviationSample"],
    (some ["statistic"]), none, 0, ["ddof"], false, [], false,
    [], false, []⟩

/-- indicators/var.py:10-28 -/
def row_var : Row :=
  ⟨"var", "var", "Indicator", none, [], (some ["var"]), ["VAR", "Var"],
    (some ["statistic"]), none, 0, ["period", "ddof"], true, [], false,
    [.set "var"], false, []⟩

/-- indicators/var.py:31-45 -/
def row_var_s : Row :=
  ⟨"var_s", "var", "var", none, [], none, ["varsample", "VARS", "VarSample"],
    (some ["statistic"]), none, 0, ["ddof"], false, [], false,
    [], false, []⟩

/-- indicators/bbands.py:10-42 -/
def row_bbands : Row :=
  ⟨"bbands", "bbands", "Indicator", none, [], (some ["mid", "top", "bot"]), ["BBANDS", "BollingerBands", "BOLLINGERBANDS"],
    (some ["overlap"]), none, 0, ["period", "devs", "_ma", "_stdev"], true, [], false,
    [.set "mid", .set "top", .set "bot"], true, ["period"]⟩

/-- indicators/atr.py:10-33 -/
def row_truehigh : Row :=
  ⟨"truehigh", "atr", "Indicator", (some ["low", "close"]), [], (some ["truehi"]), ["TR", "TrueRange", "trange", "TRANGE"],
    (some ["volatility"]), none, 0, ["_period"], true, [], false,
    [.iread "close", .iread "high", .set "truehi"], false, []⟩

/-- indicators/atr.py:36-59 -/
def row_truelow : Row :=
  ⟨"truelow", "atr", "Indicator", (some ["low", "close"]), [], (some ["truelo"]), ["TR", "TrueRange", "trange", "TRANGE"],
    (some ["volatility"]), none, 0, ["_period"], true, [], false,
    [.iread "close", .iread "low", .set "truelo"], false, []⟩

/-- indicators/atr.py:62-92 -/
def row_truerange : Row :=
  ⟨"truerange", "atr", "Indicator", (some ["high", "low", "close"]), [], (some ["tr"]), ["TR", "TrueRange", "trange", "TRANGE"],
    (some ["volatility"]), none, 0, ["_period"], true, [], false,
    [.iread "close", .iread "high", .iread "low", .set "tr"], false, []⟩

/-- indicators/atr.py:95-119 -/
def row_atr : Row :=
  ⟨"atr", "atr", "truerange", none, [], (some ["atr"]), ["ATR", "AverageTrueRange"],
    (some ["volatility"]), none, 0, ["period", "_ma"], true, [], false,
    [.get "tr", .set "atr"], false, []⟩

/-- indicators/atr.py:122-138 -/
def row_natr : Row :=
  ⟨"natr", "atr", "atr", none, [], (some ["natr"]), ["NATR", "NormalizedAverageTrueRange"],
    (some ["volatility"]), none, 0, [], true, [], false,
    [.get "atr", .iread "close", .set "natr"], false, []⟩

/-- indicators/aroon.py:20-39 -/
def row__aroon : Row :=
  ⟨"_aroon", "aroon", "Indicator", (some ["high", "low"]), [], none, [],
    (some ["momentum"]), none, 0, ["period"], true, [], false,
    [.iread "high", .iread "low"], false, []⟩

/-- indicators/aroon.py:42-70 -/
def row_aroon : Row :=
  ⟨"aroon", "aroon", "_aroon", none, [], (some ["aroondn", "aroonup"]), ["AROON", "Aroon"],
    none, none, 0, [], true, [], false,
    [.set "aroondn", .set "aroonup"], false, []⟩

/-- indicators/aroon.py:73-90 -/
def row_aroonosc : Row :=
  ⟨"aroonosc", "aroon", "_aroon", none, [], (some ["aroonosc"]), ["AROONOSC", "AroonOscillator"],
    none, none, 0, [], true, [], false,
    [.set "aroonosc"], false, []⟩

/-- indicators/bop.py:10-32 -/
def row_bop : Row :=
  ⟨"bop", "bop", "Indicator", (some ["open", "high", "low", "close"]), [], (some ["bop"]), ["BOP", "BalanceOfPower"],
    (some ["momentum"]), none, 0, [], true, [], false,
    [.iread "close", .iread "open", .iread "high", .iread "low", .set "bop"], false, []⟩

/-- indicators/cci.py:10-45 -/
def row_cci : Row :=
  ⟨"cci", "cci", "Indicator", (some ["high", "low", "close"]), [], (some ["cci"]), ["CCI", "CommodityChannelIndex"],
    (some ["momentum"]), none, 0, ["period", "factor", "_ma", "_dev"], true, [], false,
    [.iread "high", .iread "low", .iread "close", .set "cci"], true, ["period"]⟩

/-- indicators/cmo.py:10-44 -/
def row_cmo : Row :=
  ⟨"cmo", "cmo", "Indicator", none, [], (some ["cmo"]), ["CMO", "ChandeMomentumOscillator"],
    none, (some ["momentum"]), 0, ["period", "_sum"], true, [], false,
    [.set "cmo"], true, ["_sum"]⟩

/-- indicators/directionalmove.py:10-56 -/
def row_smacc : Row :=
  ⟨"smacc", "directionalmove", "Indicator", none, [], (some ["smacc"]), ["WildersSmoothedAccmulation", "SmoothedAccumulation"],
    none, (some ["overlap"]), 0, ["period", "_pearly", "_seed"], true, [], false,
    [.set "smacc"], true, ["_pearly"]⟩

/-- indicators/directionalmove.py:59-106 -/
def row__dm : Row :=
  ⟨"_dm", "directionalmove", "Indicator", (some ["high", "low"]), [], none, [],
    (some ["momentum"]), none, 0, ["period", "_period", "_pearly", "_alt", "_accum", "_ma"], true, [], false,
    [.iread "high", .iread "low", .iread "low"], true, ["_pearly"]⟩

/-- indicators/directionalmove.py:109-139 -/
def row_plus_dm : Row :=
  ⟨"plus_dm", "directionalmove", "_dm", none, [], (some ["plusdm"]), ["PLUS_DM", "PlusDirectionalMovement"],
    none, none, 0, [], true, [], false,
    [.set "plusdm"], false, []⟩

/-- indicators/directionalmove.py:142-173 -/
def row_minus_dm : Row :=
  ⟨"minus_dm", "directionalmove", "_dm", none, [], (some ["minusdm"]), ["MINUS_DM", "MinusDirectionalMovement"],
    none, none, 0, [], true, [], false,
    [.set "minusdm"], false, []⟩

/-- indicators/directionalmove.py:176-210 -/
def row_dm : Row :=
  ⟨"dm", "directionalmove", "_dm", none, [], (some ["plusdm", "minusdm"]), ["DM", "DirectionalMovement"],
    none, none, 0, [], true, [], false,
    [.set "plusdm", .set "minusdm"], false, []⟩

/-- indicators/directionalmove.py:231-264 -/
def row__di : Row :=
  ⟨"_di", "directionalmove", "_dm", none, ["close"], none, [],
    none, none, 0, [], true, [], false,
    [], true, []⟩

/-- indicators/directionalmove.py:267-296 -/
def row_plus_di : Row :=
  ⟨"plus_di", "directionalmove", "_di", none, [], (some ["plusdi"]), ["PLUS_DI", "PlusDirectionalIndicator"],
    none, none, 0, [], true, [], false,
    [.set "plusdi"], false, []⟩

/-- indicators/directionalmove.py:299-328 -/
def row_minus_di : Row :=
  ⟨"minus_di", "directionalmove", "_di", none, [], (some ["minusdi"]), ["MINUS_DI", "MinusDirectionalIndicator"],
    none, none, 0, [], true, [], false,
    [.set "minusdi"], false, []⟩

/-- indicators/directionalmove.py:331-364 -/
def row_di : Row :=
  ⟨"di", "directionalmove", "_di", none, [], (some ["plusdi", "minusdi"]), ["DI", "DirectionalIndicator", "DIRECTIONALINDICATOR"],
    none, none, 0, [], true, [], false,
    [.set "plusdi", .set "minusdi"], false, []⟩

/-- indicators/directionalmove.py:367-400 -/
def row_dx : Row :=
  ⟨"dx", "directionalmove", "_di", none, [], (some ["dx"]), ["DX", "DirectionalIndex", "DIRECTIONALINDEX"],
    none, none, 0, [], true, [], false,
    [.set "dx"], false, []⟩

/-- indicators/directionalmove.py:403-437 -/
def row_adx : Row :=
  ⟨"adx", "directionalmove", "dx", none, [], (some ["adx"]), ["ADX", "AverageDirectionalIndex", "AVERAGEDIRECTIONALINDEX"],
    none, none, 0, [], true, [], false,
    [.get "dx", .set "adx"], false, []⟩

/-- indicators/directionalmove.py:440-466 -/
def row_adxr : Row :=
  ⟨"adxr", "directionalmove", "adx", none, [], (some ["adxr"]), ["ADXR", "AverageDirectionalIndexRating"],
    none, none, 0, ["_prating"], true, [], false,
    [.get "adx", .get "adx", .set "adxr"], true, []⟩

/-- indicators/macd.py:10-60 -/
def row_macd : Row :=
  ⟨"macd", "macd", "Indicator", none, [], (some ["macd", "signal", "histogram"]), ["MACD", "MovingAverageConvergenceDivergence", "MACDEXT", "MACDFIX"],
    (some ["momentum"]), none, 0, ["pfast", "pslow", "psignal", "_ma", "_masig"], true, [], false,
    [.set "macd", .get "macd", .set "signal", .get "macd", .get "signal", .set "histogram"], true, []⟩

/-- indicators/mfi.py:10-44 -/
def row_mfi : Row :=
  ⟨"mfi", "mfi", "Indicator", (some ["high", "low", "close", "volume"]), [], (some ["mfi"]), ["MFI", "MoneyFlowIndicator"],
    (some ["momentum"]), none, 0, ["period"], true, [], false,
    [.iread "high", .iread "low", .iread "close", .iread "volume", .set "mfi"], false, []⟩

/-- indicators/mom.py:10-31 -/
def row_mom : Row :=
  ⟨"mom", "mom", "Indicator", none, [], (some ["mom"]), ["momentum", "MOM", "Momentum"],
    none, (some ["momentum"]), 0, ["period"], true, [], false,
    [.set "mom"], false, []⟩

/-- indicators/ppo.py:10-29 -/
def row__posc : Row :=
  ⟨"_posc", "ppo", "Indicator", none, [], none, [],
    none, none, 0, ["pfast", "pslow", "_ma"], true, [], false,
    [], true, ["_ma"]⟩

/-- indicators/ppo.py:32-49 -/
def row_apo : Row :=
  ⟨"apo", "ppo", "_posc", none, [], (some ["apo"]), ["APO", "AbsolutePriceOscillator", "PriceOscillator"],
    (some ["momentum"]), none, 0, [], true, [], false,
    [.set "apo"], false, []⟩

/-- indicators/ppo.py:52-80 -/
def row_ppo : Row :=
  ⟨"ppo", "ppo", "_posc", none, [], (some ["ppo", "signal", "histogram"]), ["PPO", "PercentagePriceOscillator"],
    (some ["momentum"]), none, 0, ["psignal", "_masig"], true, [], false,
    [.set "ppo", .get "ppo", .set "signal", .get "ppo", .get "signal", .set "histogram"], false, []⟩

/-- indicators/ppo.py:83-118 -/
def row_ppofast : Row :=
  ⟨"ppofast", "ppo", "_posc", none, [], (some ["ppo", "signal", "histogram"]), ["PPOFast", "PercentagePriceOscillatorFast"],
    (some ["momentum"]), none, 0, ["psignal", "_masig"], true, [], false,
    [.set "ppo", .get "ppo", .set "signal", .get "ppo", .get "signal", .set "histogram"], false, []⟩

/-- indicators/roc.py:10-22 -/
def row__rocbase : Row :=
  ⟨"_rocbase", "roc", "Indicator", none, [], none, [],
    (some ["momentum"]), none, 0, ["period"], true, [], false,
    [.set "[0]"], true, ["period"]⟩

/-- indicators/roc.py:25-41 -/
def row_roc : Row :=
  ⟨"roc", "roc", "_rocbase", none, [], (some ["roc"]), ["rateofchange", "ROC", "RateOfChange"],
    none, none, 0, [], true, [], false,
    [.get "roc", .set "roc"], false, []⟩

/-- indicators/roc.py:44-60 -/
def row_rocp : Row :=
  ⟨"rocp", "roc", "_rocbase", none, [], (some ["rocp"]), ["ROCP", "RateOfChangePercentage"],
    none, none, 0, [], true, [], false,
    [.get "rocp", .set "rocp"], false, []⟩

/-- indicators/roc.py:63-76 -/
def row_rocr : Row :=
  ⟨"rocr", "roc", "_rocbase", none, [], (some ["rocr"]), ["ROCR", "RateOfChangeRatio"],
    none, none, 0, [], false, [], false,
    [], false, []⟩

/-- indicators/roc.py:79-95 -/
def row_rocr100 : Row :=
  ⟨"rocr100", "roc", "_rocbase", none, [], (some ["rocr100"]), ["ROCR100", "RateOfChangeRatio100"],
    none, none, 0, [], true, [], false,
    [.get "rocr100", .set "rocr100"], false, []⟩

/-- indicators/rsi.py:10-48 -/
def row_rsi : Row :=
  ⟨"rsi", "rsi", "Indicator", none, [], (some ["rsi"]), ["RSI", "RelativeStrengthIndex"],
    (some ["momentum"]), none, 0, ["period", "lookback", "_ma"], true, [], false,
    [.set "rsi"], false, []⟩

/-- indicators/sar.py:12-84 -/
def row_sar : Row :=
  ⟨"sar", "sar", "Indicator", (some ["high", "low"]), [], (some ["sar"]), ["SAR", "psar", "ParabolicStopAndReverse"],
    (some ["momentum"]), none, 0, ["af", "afmax"], true, [], false,
    [.iread "high", .iread "high", .iread "low", .set "sar"], false, []⟩

/-- indicators/sarext.py:12-106 -/
def row_sarext : Row :=
  ⟨"sarext", "sarext", "Indicator", (some ["high", "low"]), [], (some ["sar"]), ["SAR", "psar", "ParabolicStopAndReverse"],
    (some ["momentum"]), none, 0, ["startval", "aflong", "afmaxlong", "afshort", "afmaxshort", "offsetonreverse"], true, [], false,
    [.iread "high", .iread "high", .iread "low", .set "sar"], false, []⟩

/-- indicators/stochastic.py:10-49 -/
def row_stochf : Row :=
  ⟨"stochf", "stochastic", "Indicator", (some ["high", "low", "close"]), [], (some ["k", "d"]), ["stochfast", "StochasticFast", "STOCHF"],
    (some ["momentum"]), none, 0, ["period", "pfast", "_ma"], true, [], false,
    [.iread "high", .iread "low", .iread "close", .set "k", .get "k", .set "d"], true, ["period"]⟩

/-- indicators/stochastic.py:52-83 -/
def row_stochastic : Row :=
  ⟨"stochastic", "stochastic", "stochf", none, [], none, ["stoch", "Stochastic", "STOCHASTIC", "STOCH"],
    none, none, 0, ["pslow", "_maslow"], true, [], false,
    [.get "d", .set "k", .set "d"], false, []⟩

/-- indicators/stochrsi.py:10-79 -/
def row_stochrsi : Row :=
  ⟨"stochrsi", "stochrsi", "Indicator", none, [], (some ["stochrsi"]), ["StochRsi", "STOCHRSI"],
    (some ["momentum"]), none, 0, ["period", "_philo", "_scale"], true, ["_pfast", "_ma"], false,
    [.set "stochrsi", .get "stochrsi", .ifset "d"], true, ["_philo", "_scale", "_pfast", "_ma"]⟩

/-- indicators/williamsr.py:10-37 -/
def row_williamsr : Row :=
  ⟨"williamsr", "williamsr", "Indicator", (some ["high", "low", "close"]), [], (some ["r"]), ["willr", "WilliamsR", "WILLIAMSR", "WILLR"],
    (some ["momentum"]), none, 0, ["period"], true, [], false,
    [.iread "high", .iread "low", .iread "close", .set "r"], false, []⟩

/-- indicators/ultimateoscillator.py:10-54 -/
def row_ultimateoscillator : Row :=
  ⟨"ultimateoscillator", "ultimateoscillator", "Indicator", (some ["high", "low", "close"]), [], (some ["uo"]), ["ultosc", "UltimateOscillator", "ULTOSC"],
    (some ["momentum"]), none, 0, ["period1", "period2", "period3", "factor1", "factor2", "factor3"], true, [], false,
    [.iread "close", .iread "low", .iread "close", .iread "high", .iread "low", .iread "close", .set "uo"], false, []⟩

/-- indicators/ad.py:10-37 -/
def row_ad : Row :=
  ⟨"ad", "ad", "Indicator", (some ["high", "low", "close", "volume"]), [], (some ["ad"]), ["AD", "adl", "ADL", "ChaikinAD", "ChaikinADL", "chaikinad"],
    (some ["volume"]), none, 0, [], true, [], false,
    [.iread "high", .iread "low", .iread "close", .iread "high", .iread "low", .iread "volume", .set "ad"], false, []⟩

/-- indicators/ad.py:40-69 -/
def row_adosc : Row :=
  ⟨"adosc", "ad", "ad", none, [], (some ["adosc"]), ["ADOSC", "ChaikinADOSC", "ChaikinOsc", "ChaikinOscillator"],
    none, none, 0, ["pfast", "pslow", "_ma"], true, [], false,
    [.get "ad", .get "ad", .set "adosc"], true, ["_ma"]⟩

/-- indicators/obv.py:12-55 -/
def row_obv : Row :=
  ⟨"obv", "obv", "Indicator", (some ["close", "volume"]), [], (some ["obv"]), ["OBV", "OnBalanceVolume"],
    (some ["volume"]), none, 0, ["_period"], true, [], false,
    [.iread "close", .iread "volume", .set "obv"], true, []⟩

/-- All classes, in the order of their creation. -/
def library : List Row :=
  [row_avgprice, row_typprice, row_wclprice, row_medprice, row_add, row_div, row_mult, row_sub, row_max, row_min,
   row_minmax, row_maxindex, row_minindex, row_minmaxindex, row_sum, row__mathrad, row_sin, row_cos, row_tan,
   row_sinh, row_cosh, row_tanh, row_asin, row_acos, row_atan, row_ceil, row_exp, row_floor, row_ln, row_log10,
   row_sqrt, row__crossbase, row_crossup, row_crossdown, row_crossover, row_ewma, row_sma, row_ema, row_smma, row_wma,
   row_dema, row_kama, row_tema, row_trima, row_trix, row_gdema, row_t3, row_mavp, row_mama, row_ht_trendline,
   row_midprice, row_midpoint, row_ht_dcperiod, row_ht_dcphase, row_ht_phasor, row_ht_sine, row_ht_trendmode,
   row_beta, row_correl, row__linreg_base, row_linearreg_slope, row_linearreg_angle, row_linearreg_intercept,
   row_linearreg, row_tsf, row_mad, row_stddev, row_stddev_s, row_var, row_var_s, row_bbands, row_truehigh,
   row_truelow, row_truerange, row_atr, row_natr, row__aroon, row_aroon, row_aroonosc, row_bop, row_cci, row_cmo,
   row_smacc, row__dm, row_plus_dm, row_minus_dm, row_dm, row__di, row_plus_di, row_minus_di, row_di, row_dx, row_adx,
   row_adxr, row_macd, row_mfi, row_mom, row__posc, row_apo, row_ppo, row_ppofast, row__rocbase, row_roc, row_rocp,
   row_rocr, row_rocr100, row_rsi, row_sar, row_sarext, row_stochf, row_stochastic, row_stochrsi, row_williamsr,
   row_ultimateoscillator, row_ad, row_adosc, row_obv]

end Bta.Meta
