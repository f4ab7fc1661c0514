import Verif.Meta.Call
import Verif.Meta.Table

/-!
# Parameters and ta-lib hooks of the classes of the library

Written by `tools/gendecls.py` from the text of `btalib/indicators/*.py`, in the order of `Table.lean`.
Floats are the numbers as written; `SEED_AVG`, ... are the integers of utils.py:16-21; a class given as a default is its
name (an alias is replaced by the name of its class).
-/

namespace Bta.Meta

open Py

/-- The classes of the library, in the order of their creation. (indicators/__init__.py:14-90) -/
inductive Cls where

  | avgprice | typprice | wclprice | medprice | add | «div» | mult | sub | «max» | «min» | minmax
  | maxindex | minindex | minmaxindex | «sum» | _mathrad | sin | cos | tan | sinh | cosh | tanh | asin
  | acos | atan | ceil | exp | floor | ln | log10 | sqrt | _crossbase | crossup | crossdown | crossover
  | ewma | sma | ema | smma | wma | dema | kama | tema | trima | trix | gdema | t3 | mavp | mama
  | ht_trendline | midprice | midpoint | ht_dcperiod | ht_dcphase | ht_phasor | ht_sine | ht_trendmode
  | beta | correl | _linreg_base | linearreg_slope | linearreg_angle | linearreg_intercept | linearreg | tsf
  | mad | stddev | stddev_s | var | var_s | bbands | truehigh | truelow | truerange | atr | natr | _aroon
  | aroon | aroonosc | bop | cci | cmo | smacc | _dm | plus_dm | minus_dm | dm | _di | plus_di
  | minus_di | di | dx | adx | adxr | macd | mfi | mom | _posc | apo | ppo | ppofast | _rocbase | roc
  | rocp | rocr | rocr100 | rsi | sar | sarext | stochf | stochastic | stochrsi | williamsr
  | ultimateoscillator | ad | adosc | obv
deriving DecidableEq, Repr

namespace Cls

/-- All classes. (indicators/__init__.py:14-90) -/
def all : List Cls :=
  [.avgprice, .typprice, .wclprice, .medprice, .add, .«div», .mult, .sub, .«max», .«min», .minmax, .maxindex,
   .minindex, .minmaxindex, .«sum», ._mathrad, .sin, .cos, .tan, .sinh, .cosh, .tanh, .asin, .acos, .atan, .ceil,
   .exp, .floor, .ln, .log10, .sqrt, ._crossbase, .crossup, .crossdown, .crossover, .ewma, .sma, .ema, .smma, .wma,
   .dema, .kama, .tema, .trima, .trix, .gdema, .t3, .mavp, .mama, .ht_trendline, .midprice, .midpoint, .ht_dcperiod,
   .ht_dcphase, .ht_phasor, .ht_sine, .ht_trendmode, .beta, .correl, ._linreg_base, .linearreg_slope,
   .linearreg_angle, .linearreg_intercept, .linearreg, .tsf, .mad, .stddev, .stddev_s, .var, .var_s, .bbands,
   .truehigh, .truelow, .truerange, .atr, .natr, ._aroon, .aroon, .aroonosc, .bop, .cci, .cmo, .smacc, ._dm,
   .plus_dm, .minus_dm, .dm, ._di, .plus_di, .minus_di, .di, .dx, .adx, .adxr, .macd, .mfi, .mom, ._posc, .apo, .ppo,
   .ppofast, ._rocbase, .roc, .rocp, .rocr, .rocr100, .rsi, .sar, .sarext, .stochf, .stochastic, .stochrsi,
   .williamsr, .ultimateoscillator, .ad, .adosc, .obv]

/-- The class statement. (see `Table.lean`) (indicators/*.py) -/
def row : Cls → Row
  | .avgprice => row_avgprice
  | .typprice => row_typprice
  | .wclprice => row_wclprice
  | .medprice => row_medprice
  | .add => row_add
  | .«div» => row_div
  | .mult => row_mult
  | .sub => row_sub
  | .«max» => row_max
  | .«min» => row_min
  | .minmax => row_minmax
  | .maxindex => row_maxindex
  | .minindex => row_minindex
  | .minmaxindex => row_minmaxindex
  | .«sum» => row_sum
  | ._mathrad => row__mathrad
  | .sin => row_sin
  | .cos => row_cos
  | .tan => row_tan
  | .sinh => row_sinh
  | .cosh => row_cosh
  | .tanh => row_tanh
  | .asin => row_asin
  | .acos => row_acos
  | .atan => row_atan
  | .ceil => row_ceil
  | .exp => row_exp
  | .floor => row_floor
  | .ln => row_ln
  | .log10 => row_log10
  | .sqrt => row_sqrt
  | ._crossbase => row__crossbase
  | .crossup => row_crossup
  | .crossdown => row_crossdown
  | .crossover => row_crossover
  | .ewma => row_ewma
  | .sma => row_sma
  | .ema => row_ema
  | .smma => row_smma
  | .wma => row_wma
  | .dema => row_dema
  | .kama => row_kama
  | .tema => row_tema
  | .trima => row_trima
  | .trix => row_trix
  | .gdema => row_gdema
  | .t3 => row_t3
  | .mavp => row_mavp
  | .mama => row_mama
  | .ht_trendline => row_ht_trendline
  | .midprice => row_midprice
  | .midpoint => row_midpoint
  | .ht_dcperiod => row_ht_dcperiod
  | .ht_dcphase => row_ht_dcphase
  | .ht_phasor => row_ht_phasor
  | .ht_sine => row_ht_sine
  | .ht_trendmode => row_ht_trendmode
  | .beta => row_beta
  | .correl => row_correl
  | ._linreg_base => row__linreg_base
  | .linearreg_slope => row_linearreg_slope
  | .linearreg_angle => row_linearreg_angle
  | .linearreg_intercept => row_linearreg_intercept
  | .linearreg => row_linearreg
  | .tsf => row_tsf
  | .mad => row_mad
  | .stddev => row_stddev
  | .stddev_s => row_stddev_s
  | .var => row_var
  | .var_s => row_var_s
  | .bbands => row_bbands
  | .truehigh => row_truehigh
  | .truelow => row_truelow
  | .truerange => row_truerange
  | .atr => row_atr
  | .natr => row_natr
  | ._aroon => row__aroon
  | .aroon => row_aroon
  | .aroonosc => row_aroonosc
  | .bop => row_bop
  | .cci => row_cci
  | .cmo => row_cmo
  | .smacc => row_smacc
  | ._dm => row__dm
  | .plus_dm => row_plus_dm
  | .minus_dm => row_minus_dm
  | .dm => row_dm
  | ._di => row__di
  | .plus_di => row_plus_di
  | .minus_di => row_minus_di
  | .di => row_di
  | .dx => row_dx
  | .adx => row_adx
  | .adxr => row_adxr
  | .macd => row_macd
  | .mfi => row_mfi
  | .mom => row_mom
  | ._posc => row__posc
  | .apo => row_apo
  | .ppo => row_ppo
  | .ppofast => row_ppofast
  | ._rocbase => row__rocbase
  | .roc => row_roc
  | .rocp => row_rocp
  | .rocr => row_rocr
  | .rocr100 => row_rocr100
  | .rsi => row_rsi
  | .sar => row_sar
  | .sarext => row_sarext
  | .stochf => row_stochf
  | .stochastic => row_stochastic
  | .stochrsi => row_stochrsi
  | .williamsr => row_williamsr
  | .ultimateoscillator => row_ultimateoscillator
  | .ad => row_ad
  | .adosc => row_adosc
  | .obv => row_obv

/-- The base class, if it is not `Indicator`. (the class statements of indicators/*.py) -/
def base : Cls → Option Cls
  | .sin => some ._mathrad
  | .cos => some ._mathrad
  | .tan => some ._mathrad
  | .sinh => some ._mathrad
  | .cosh => some ._mathrad
  | .tanh => some ._mathrad
  | .asin => some ._mathrad
  | .acos => some ._mathrad
  | .atan => some ._mathrad
  | .crossup => some ._crossbase
  | .crossdown => some ._crossbase
  | .crossover => some ._crossbase
  | .linearreg_slope => some ._linreg_base
  | .linearreg_angle => some ._linreg_base
  | .linearreg_intercept => some ._linreg_base
  | .linearreg => some ._linreg_base
  | .tsf => some ._linreg_base
  | .stddev_s => some .stddev
  | .var_s => some .var
  | .atr => some .truerange
  | .natr => some .atr
  | .aroon => some ._aroon
  | .aroonosc => some ._aroon
  | .plus_dm => some ._dm
  | .minus_dm => some ._dm
  | .dm => some ._dm
  | ._di => some ._dm
  | .plus_di => some ._di
  | .minus_di => some ._di
  | .di => some ._di
  | .dx => some ._di
  | .adx => some .dx
  | .adxr => some .adx
  | .apo => some ._posc
  | .ppo => some ._posc
  | .ppofast => some ._posc
  | .roc => some ._rocbase
  | .rocp => some ._rocbase
  | .rocr => some ._rocbase
  | .rocr100 => some ._rocbase
  | .stochastic => some .stochf
  | .adosc => some .ad
  | _ => none

/-- The attribute `params` of the class statement: name, then default, documentation. (indicators/*.py) -/
def own : Cls → List (String × List PyVal)
  -- price.py:10-30
  | .avgprice =>
    [("divisor", [.num 4, .str "Factor to use in the division"])]
  -- price.py:33-52
  | .typprice =>
    [("divisor", [.num 3, .str "Factor to use in the division"])]
  -- price.py:55-77
  | .wclprice =>
    [("weight", [.num 2, .str "Weight Factor for close"]),
     ("divisor", [.num 4, .str "Factor to use in the division"])]
  -- price.py:80-100
  | .medprice =>
    [("divisor", [.num 2, .str "Factor to use in the division"])]
  -- mathop.py:82-97
  | .«max» =>
    [("period", [.int 30, .str "Period to consider"])]
  -- mathop.py:100-115
  | .«min» =>
    [("period", [.int 30, .str "Period to consider"])]
  -- mathop.py:118-135
  | .minmax =>
    [("period", [.int 30, .str "Period to consider"])]
  -- mathop.py:138-171
  | .maxindex =>
    [("period", [.int 30, .str "Period to consider"]),
     ("_absidx", [.bool false, .str "Return maxindex over the entire period"])]
  -- mathop.py:174-207
  | .minindex =>
    [("period", [.int 30, .str "Period to consider"]),
     ("_absidx", [.bool false, .str "Return maxindex over the entire period"])]
  -- mathop.py:210-236
  | .minmaxindex =>
    [("period", [.int 30, .str "Period to consider"]),
     ("_absidx", [.bool false, .str "Return maxindex over the entire period"])]
  -- mathop.py:239-254
  | .«sum» =>
    [("period", [.int 30, .str "Period to consider"])]
  -- math.py:16-23
  | ._mathrad =>
    [("degrees", [.bool false, .str "Input is in degrees, not radians ... convert it!"])]
  -- crossover.py:10-40
  | ._crossbase =>
    [("_strict", [.bool false, .str "If `True`, Consider cross only with two consecutive bars. Else the default method will take into account that a cross up/down can happen along several bars with the extremes being above/below and below/above respectively, and the middle bars having a zero difference between the crosser and crossed inputs"])]
  -- ewma.py:11-35
  | .ewma =>
    [("period", [.int 30, .str "Default Period for the ewm calculation"]),
     ("adjust", [.bool false, .str "Default calc individual terms like in `ema`"]),
     ("_seed", [.int 0, .str "(nop) for compatibility with `ema`"])]
  -- sma.py:10-28
  | .sma =>
    [("period", [.int 30, .str "Period for the moving average calculation"])]
  -- ema.py:15-39
  | .ema =>
    [("period", [.int 30, .str "Period for the moving average calculation"]),
     ("_seed", [.int 0, .str "Default to use average of periods as seed"])]
  -- smma.py:10-41
  | .smma =>
    [("period", [.int 30, .str "Period for the moving average calculation"]),
     ("_seed", [.int 0, .str "Default to use average of periods as seed"])]
  -- wma.py:12-40
  | .wma =>
    [("period", [.int 30, .str "Period for the moving average calculation"]),
     ("coef", [.num 1])]
  -- dema.py:10-35
  | .dema =>
    [("period", [.int 30, .str "Period to consider"]),
     ("_ma", [.cls "ema", .str "Moving Average to use"])]
  -- kama.py:11-89
  | .kama =>
    [("period", [.int 30, .str "Period to consider"]),
     ("fast", [.int 2, .str "Fast exponential smoothing factor"]),
     ("slow", [.int 30, .str "Slow exponential smoothing factor"]),
     ("_seed", [.int 0, .str "Default to use average of n periods as seed"]),
     ("_pvol", [.int 1, .str "Lookback period for volatility calculation"])]
  -- tema.py:10-39
  | .tema =>
    [("period", [.int 30, .str "Period to consider"]),
     ("_ma", [.cls "ema", .str "Moving Average to use"])]
  -- trima.py:10-39
  | .trima =>
    [("period", [.int 30, .str "Period for the moving average calculation"]),
     ("_ma", [.cls "sma", .str "Moving average to use"])]
  -- trix.py:10-43
  | .trix =>
    [("period", [.int 30, .str "Period to consider"]),
     ("_ma", [.cls "ema", .str "Moving average to use"])]
  -- t3.py:10-34
  | .gdema =>
    [("period", [.int 5, .str "Period to consider"]),
     ("vfactor", [.num (7 / 10), .str "volume factor"]),
     ("_ma", [.cls "ema", .str "Moving Average to use"])]
  -- t3.py:37-108
  | .t3 =>
    [("period", [.int 5, .str "Period to consider"]),
     ("vfactor", [.num (7 / 10), .str "Volume factor"]),
     ("_ma", [.cls "ema", .str "Moving Average to use"]),
     ("_gd", [.bool false, .str "`True` use articl triple gd filter math formulation"])]
  -- mavp.py:19-61
  | .mavp =>
    [("minperiod", [.int 2, .str "Minimum allowed period for the moving averages"]),
     ("maxperiod", [.int 30, .str "Maximum allowed period for the moving averages"]),
     ("_ma", [.cls "sma", .str "Moving Average to use"])]
  -- mama.py:17-147
  | .mama =>
    [("fastlimit", [.num (1 / 2), .str "Fast Limit"]),
     ("slowlimit", [.num (1 / 20), .str "Fast Limit"])]
  -- midpoint.py:10-31
  | .midprice =>
    [("period", [.int 14, .str "Period to consider"])]
  -- midpoint.py:34-52
  | .midpoint =>
    [("period", [.int 14, .str "Period to consider"])]
  -- beta.py:10-53
  | .beta =>
    [("period", [.int 5, .str "Period to consider"]),
     ("_prets", [.int 1, .str "Lookback period to calculate the returns"]),
     ("_rets", [.bool true, .str "Calculate beta on returns"])]
  -- correl.py:10-31
  | .correl =>
    [("period", [.int 30, .str "Period to consider"]),
     ("_prets", [.int 1, .str "Lookback period to calculate the returns"]),
     ("_rets", [.bool true, .str "Calculate beta on returns"])]
  -- linreg.py:41-78
  | ._linreg_base =>
    [("period", [.int 14, .str "Period to consider"])]
  -- madev.py:12-31
  | .mad =>
    [("period", [.int 20, .str "Period to consider"]),
     ("_ma", [.cls "sma", .str "Moving Average to use"])]
  -- stddev.py:10-32
  | .stddev =>
    [("period", [.int 20, .str "Period to consider"]),
     ("ddof", [.int 0, .str "Degree of Freedom: 0 = population, > 0 sample"])]
  -- stddev.py:35-54
  | .stddev_s =>
    [("ddof", [.int 1, .str "Degree of Freedom: 0 = population, > 0 sample"])]
  -- var.py:10-28
  | .var =>
    [("period", [.int 5, .str "Period to consider"]),
     ("ddof", [.int 0, .str "Degree of Freedom: 0 = population, > 0 sample"])]
  -- var.py:31-45
  | .var_s =>
    [("ddof", [.int 1, .str "Degree of Freedom: 0 = population, > 0 sample"])]
  -- bbands.py:10-42
  | .bbands =>
    [("period", [.int 20, .str "Period to consider"]),
     ("devs", [.num 2, .str "Standard Deviations of Top/Bottom Bands"]),
     ("_ma", [.cls "sma", .str "Moving average to use"]),
     ("_stdev", [.cls "stddev", .str "Standard Deviation Calculation to use"])]
  -- atr.py:10-33
  | .truehigh =>
    [("_period", [.int 1, .str "Period to consider"])]
  -- atr.py:36-59
  | .truelow =>
    [("_period", [.int 1, .str "Period to consider"])]
  -- atr.py:62-92
  | .truerange =>
    [("_period", [.int 1, .str "Period for high/low vs close for truerange calc"])]
  -- atr.py:95-119
  | .atr =>
    [("period", [.int 14, .str "Period to consider"]),
     ("_ma", [.cls "smma", .str "Moving average to use"])]
  -- aroon.py:20-39
  | ._aroon =>
    [("period", [.int 14, .str "Period to consider"])]
  -- cci.py:10-45
  | .cci =>
    [("period", [.int 20, .str "Period to consider"]),
     ("factor", [.num (3 / 200), .str "Channel width factor"]),
     ("_ma", [.cls "sma", .str "Moving Average to sue"]),
     ("_dev", [.cls "mad", .str "Deviation to use (Def: Mean Abs Dev)"])]
  -- cmo.py:10-44
  | .cmo =>
    [("period", [.int 14, .str "Period to consider"]),
     ("_sum", [.cls "sum", .str "Summation used to accumulate updays/downdays"])]
  -- directionalmove.py:10-56
  | .smacc =>
    [("period", [.int 14, .str "Period to consider"]),
     ("_pearly", [.bool false, .str "`False`: use period - 1 as seed, keeping period"]),
     ("_seed", [.int 2, .str "Default to use sum of period vals as seed"])]
  -- directionalmove.py:59-106
  | ._dm =>
    [("period", [.int 14, .str "Period to consider"]),
     ("_period", [.int 1, .str "Lookback period for upmove/downmove calculations"]),
     ("_pearly", [.bool false, .str "If `False` use period - 1 as seed"]),
     ("_alt", [.bool false, .str "Use the SMMA instead of Smoothed Accmulation"]),
     ("_accum", [.cls "smacc", .str "Accumulation to use if not in `_alt`` mode"]),
     ("_ma", [.cls "smma", .str "Moving Average to use in `_alt` mode"])]
  -- directionalmove.py:440-466
  | .adxr =>
    [("_prating", [.none, .str "Use as rating period instead of default period"])]
  -- macd.py:10-60
  | .macd =>
    [("pfast", [.int 12, .str "Fast moving average period"]),
     ("pslow", [.int 26, .str "Slow moving average period"]),
     ("psignal", [.int 9, .str "Signal smoothing period"]),
     ("_ma", [.cls "ema", .str "Moving average to use"]),
     ("_masig", [.none, .str "Signal moving average (if `None`, same as others)"])]
  -- mfi.py:10-44
  | .mfi =>
    [("period", [.int 14, .str "Period to consider"])]
  -- mom.py:10-31
  | .mom =>
    [("period", [.int 10, .str "Period to consider"])]
  -- ppo.py:10-29
  | ._posc =>
    [("pfast", [.int 12, .str "Fast moving average period"]),
     ("pslow", [.int 26, .str "Slow moving average period"]),
     ("_ma", [.cls "ema", .str "Moving average to use"])]
  -- ppo.py:52-80
  | .ppo =>
    [("psignal", [.int 9, .str "Signal smoothing period"]),
     ("_masig", [.none, .str "Signal moving average (if `None`, same as others)"])]
  -- ppo.py:83-118
  | .ppofast =>
    [("psignal", [.int 9, .str "Signal smoothing period"]),
     ("_masig", [.none, .str "Signal moving average (if `None`, same as others)"])]
  -- roc.py:10-22
  | ._rocbase =>
    [("period", [.int 12, .str "Period to consider"])]
  -- rsi.py:10-48
  | .rsi =>
    [("period", [.int 14, .str "Period to consider"]),
     ("lookback", [.int 1, .str "Lookback for up/down days"]),
     ("_ma", [.cls "smma", .str "Smoothing moving average"])]
  -- sar.py:12-84
  | .sar =>
    [("af", [.num (1 / 50), .str "Acceleration Factor"]),
     ("afmax", [.num (1 / 5), .str "Maximum Acceleration Factor"])]
  -- sarext.py:12-106
  | .sarext =>
    [("startval", [.int 0, .str "Start trend (0 auto, 1 long, -1 short)"]),
     ("aflong", [.num (1 / 50), .str "Acceleration Factor (Long)"]),
     ("afmaxlong", [.num (1 / 5), .str "Maximum Acceleration Factor (Long)"]),
     ("afshort", [.num (1 / 50), .str "Acceleration Factor (Long)"]),
     ("afmaxshort", [.num (1 / 5), .str "Maximum Acceleration Factor (Long)"]),
     ("offsetonreverse", [.num 0, .str "Offset to apply when reversing position"])]
  -- stochastic.py:10-49
  | .stochf =>
    [("period", [.int 14, .str "Period to consider"]),
     ("pfast", [.int 3, .str "Fast smoothing period"]),
     ("_ma", [.cls "sma", .str "Moving average to use"])]
  -- stochastic.py:52-83
  | .stochastic =>
    [("pslow", [.int 3, .str "Slow moving average period"]),
     ("_maslow", [.none, .str "Slow moving average (if `None`, use same as fast)"])]
  -- stochrsi.py:10-79
  | .stochrsi =>
    [("period", [.int 14, .str "Period to consider"]),
     ("_philo", [.none, .str "Period for highest/lowest (None => period)"]),
     ("_scale", [.num 1, .str "Scale the result by this factor"])]
  -- williamsr.py:10-37
  | .williamsr =>
    [("period", [.int 14, .str "Period to consider"])]
  -- ultimateoscillator.py:10-54
  | .ultimateoscillator =>
    [("period1", [.int 7, .str "Faster oscillating period"]),
     ("period2", [.int 14, .str "Medium oscillating period"]),
     ("period3", [.int 28, .str "Slower oscillating period"]),
     ("factor1", [.num 4, .str "Factor weight for the faster oscillation"]),
     ("factor2", [.num 2, .str "Factor weight for the medium oscillation"]),
     ("factor3", [.num 1, .str "Factor weight for the slower oscillation"])]
  -- ad.py:40-69
  | .adosc =>
    [("pfast", [.int 3, .str "Fast ema period"]),
     ("pslow", [.int 10, .str "Slow ema period"]),
     ("_ma", [.cls "ema", .str "Moving average to use"])]
  -- obv.py:12-55
  | .obv =>
    [("_period", [.int 1, .str "Period for `close` comparison"])]
  | _ => []

/-- The calls `kwdict.setdefault(name, value)` of the method `_talib` of the class statement, if there is one.
What it does besides (obv, macd, stochrsi, ...) is in `Api.lean`. (indicators/*.py) -/
def hook : Cls → Option Hook
  | .maxindex => some [("_absidx", .bool true)]
  | .minindex => some [("_absidx", .bool true)]
  | .minmaxindex => some [("_absidx", .bool true), ("_talib", .bool true)]
  | .kama => some [("_seed", .int 1)]
  | .linearreg_intercept => some []
  | .linearreg => some []
  | .tsf => some []
  | .stddev => some [("period", .int 5)]
  | .bbands => some [("period", .int 5)]
  | .cci => some [("period", .int 14)]
  | .cmo => some [("_sum", .cls "smma")]
  | .smacc => some [("_pearly", .bool true)]
  | ._dm => some [("_pearly", .bool true)]
  | ._di => some []
  | .adxr => some []
  | .macd => some []
  | ._posc => some [("_ma", .cls "sma")]
  | ._rocbase => some [("period", .int 10)]
  | .stochf => some [("period", .int 5)]
  | .stochrsi => some [("_philo", .int 5), ("_scale", .num 100), ("_pfast", .int 3), ("_ma", .cls "sma")]
  | .adosc => some [("_ma", .cls "ewma")]
  | .obv => some []
  | _ => none

/-- `cls.params`: what params.py makes of the declarations along the bases; see `defaults_eq`. (params.py:76-122) -/
def defaults : Cls → Dict String PyVal
  | .avgprice =>
    [("divisor", .num 4)]
  | .typprice =>
    [("divisor", .num 3)]
  | .wclprice =>
    [("weight", .num 2), ("divisor", .num 4)]
  | .medprice =>
    [("divisor", .num 2)]
  | .«max» =>
    [("period", .int 30)]
  | .«min» =>
    [("period", .int 30)]
  | .minmax =>
    [("period", .int 30)]
  | .maxindex =>
    [("period", .int 30), ("_absidx", .bool false)]
  | .minindex =>
    [("period", .int 30), ("_absidx", .bool false)]
  | .minmaxindex =>
    [("period", .int 30), ("_absidx", .bool false)]
  | .«sum» =>
    [("period", .int 30)]
  | ._mathrad =>
    [("degrees", .bool false)]
  | .sin =>
    [("degrees", .bool false)]
  | .cos =>
    [("degrees", .bool false)]
  | .tan =>
    [("degrees", .bool false)]
  | .sinh =>
    [("degrees", .bool false)]
  | .cosh =>
    [("degrees", .bool false)]
  | .tanh =>
    [("degrees", .bool false)]
  | .asin =>
    [("degrees", .bool false)]
  | .acos =>
    [("degrees", .bool false)]
  | .atan =>
    [("degrees", .bool false)]
  | ._crossbase =>
    [("_strict", .bool false)]
  | .crossup =>
    [("_strict", .bool false)]
  | .crossdown =>
    [("_strict", .bool false)]
  | .crossover =>
    [("_strict", .bool false)]
  | .ewma =>
    [("period", .int 30), ("adjust", .bool false), ("_seed", .int 0)]
  | .sma =>
    [("period", .int 30)]
  | .ema =>
    [("period", .int 30), ("_seed", .int 0)]
  | .smma =>
    [("period", .int 30), ("_seed", .int 0)]
  | .wma =>
    [("period", .int 30), ("coef", .num 1)]
  | .dema =>
    [("period", .int 30), ("_ma", .cls "ema")]
  | .kama =>
    [("period", .int 30), ("fast", .int 2), ("slow", .int 30), ("_seed", .int 0), ("_pvol", .int 1)]
  | .tema =>
    [("period", .int 30), ("_ma", .cls "ema")]
  | .trima =>
    [("period", .int 30), ("_ma", .cls "sma")]
  | .trix =>
    [("period", .int 30), ("_ma", .cls "ema")]
  | .gdema =>
    [("period", .int 5), ("vfactor", .num (7 / 10)), ("_ma", .cls "ema")]
  | .t3 =>
    [("period", .int 5), ("vfactor", .num (7 / 10)), ("_ma", .cls "ema"), ("_gd", .bool false)]
  | .mavp =>
    [("minperiod", .int 2), ("maxperiod", .int 30), ("_ma", .cls "sma")]
  | .mama =>
    [("fastlimit", .num (1 / 2)), ("slowlimit", .num (1 / 20))]
  | .midprice =>
    [("period", .int 14)]
  | .midpoint =>
    [("period", .int 14)]
  | .beta =>
    [("period", .int 5), ("_prets", .int 1), ("_rets", .bool true)]
  | .correl =>
    [("period", .int 30), ("_prets", .int 1), ("_rets", .bool true)]
  | ._linreg_base =>
    [("period", .int 14)]
  | .linearreg_slope =>
    [("period", .int 14)]
  | .linearreg_angle =>
    [("period", .int 14)]
  | .linearreg_intercept =>
    [("period", .int 14)]
  | .linearreg =>
    [("period", .int 14)]
  | .tsf =>
    [("period", .int 14)]
  | .mad =>
    [("period", .int 20), ("_ma", .cls "sma")]
  | .stddev =>
    [("period", .int 20), ("ddof", .int 0)]
  | .stddev_s =>
    [("period", .int 20), ("ddof", .int 1)]
  | .var =>
    [("period", .int 5), ("ddof", .int 0)]
  | .var_s =>
    [("period", .int 5), ("ddof", .int 1)]
  | .bbands =>
    [("period", .int 20), ("devs", .num 2), ("_ma", .cls "sma"), ("_stdev", .cls "stddev")]
  | .truehigh =>
    [("_period", .int 1)]
  | .truelow =>
    [("_period", .int 1)]
  | .truerange =>
    [("_period", .int 1)]
  | .atr =>
    [("_period", .int 1), ("period", .int 14), ("_ma", .cls "smma")]
  | .natr =>
    [("_period", .int 1), ("period", .int 14), ("_ma", .cls "smma")]
  | ._aroon =>
    [("period", .int 14)]
  | .aroon =>
    [("period", .int 14)]
  | .aroonosc =>
    [("period", .int 14)]
  | .cci =>
    [("period", .int 20), ("factor", .num (3 / 200)), ("_ma", .cls "sma"), ("_dev", .cls "mad")]
  | .cmo =>
    [("period", .int 14), ("_sum", .cls "sum")]
  | .smacc =>
    [("period", .int 14), ("_pearly", .bool false), ("_seed", .int 2)]
  | ._dm =>
    [("period", .int 14), ("_period", .int 1), ("_pearly", .bool false), ("_alt", .bool false),
     ("_accum", .cls "smacc"), ("_ma", .cls "smma")]
  | .plus_dm =>
    [("period", .int 14), ("_period", .int 1), ("_pearly", .bool false), ("_alt", .bool false),
     ("_accum", .cls "smacc"), ("_ma", .cls "smma")]
  | .minus_dm =>
    [("period", .int 14), ("_period", .int 1), ("_pearly", .bool false), ("_alt", .bool false),
     ("_accum", .cls "smacc"), ("_ma", .cls "smma")]
  | .dm =>
    [("period", .int 14), ("_period", .int 1), ("_pearly", .bool false), ("_alt", .bool false),
     ("_accum", .cls "smacc"), ("_ma", .cls "smma")]
  | ._di =>
    [("period", .int 14), ("_period", .int 1), ("_pearly", .bool false), ("_alt", .bool false),
     ("_accum", .cls "smacc"), ("_ma", .cls "smma")]
  | .plus_di =>
    [("period", .int 14), ("_period", .int 1), ("_pearly", .bool false), ("_alt", .bool false),
     ("_accum", .cls "smacc"), ("_ma", .cls "smma")]
  | .minus_di =>
    [("period", .int 14), ("_period", .int 1), ("_pearly", .bool false), ("_alt", .bool false),
     ("_accum", .cls "smacc"), ("_ma", .cls "smma")]
  | .di =>
    [("period", .int 14), ("_period", .int 1), ("_pearly", .bool false), ("_alt", .bool false),
     ("_accum", .cls "smacc"), ("_ma", .cls "smma")]
  | .dx =>
    [("period", .int 14), ("_period", .int 1), ("_pearly", .bool false), ("_alt", .bool false),
     ("_accum", .cls "smacc"), ("_ma", .cls "smma")]
  | .adx =>
    [("period", .int 14), ("_period", .int 1), ("_pearly", .bool false), ("_alt", .bool false),
     ("_accum", .cls "smacc"), ("_ma", .cls "smma")]
  | .adxr =>
    [("period", .int 14), ("_period", .int 1), ("_pearly", .bool false), ("_alt", .bool false),
     ("_accum", .cls "smacc"), ("_ma", .cls "smma"), ("_prating", .none)]
  | .macd =>
    [("pfast", .int 12), ("pslow", .int 26), ("psignal", .int 9), ("_ma", .cls "ema"), ("_masig", .none)]
  | .mfi =>
    [("period", .int 14)]
  | .mom =>
    [("period", .int 10)]
  | ._posc =>
    [("pfast", .int 12), ("pslow", .int 26), ("_ma", .cls "ema")]
  | .apo =>
    [("pfast", .int 12), ("pslow", .int 26), ("_ma", .cls "ema")]
  | .ppo =>
    [("pfast", .int 12), ("pslow", .int 26), ("_ma", .cls "ema"), ("psignal", .int 9), ("_masig", .none)]
  | .ppofast =>
    [("pfast", .int 12), ("pslow", .int 26), ("_ma", .cls "ema"), ("psignal", .int 9), ("_masig", .none)]
  | ._rocbase =>
    [("period", .int 12)]
  | .roc =>
    [("period", .int 12)]
  | .rocp =>
    [("period", .int 12)]
  | .rocr =>
    [("period", .int 12)]
  | .rocr100 =>
    [("period", .int 12)]
  | .rsi =>
    [("period", .int 14), ("lookback", .int 1), ("_ma", .cls "smma")]
  | .sar =>
    [("af", .num (1 / 50)), ("afmax", .num (1 / 5))]
  | .sarext =>
    [("startval", .int 0), ("aflong", .num (1 / 50)), ("afmaxlong", .num (1 / 5)), ("afshort", .num (1 / 50)),
     ("afmaxshort", .num (1 / 5)), ("offsetonreverse", .num 0)]
  | .stochf =>
    [("period", .int 14), ("pfast", .int 3), ("_ma", .cls "sma")]
  | .stochastic =>
    [("period", .int 14), ("pfast", .int 3), ("_ma", .cls "sma"), ("pslow", .int 3), ("_maslow", .none)]
  | .stochrsi =>
    [("period", .int 14), ("_philo", .none), ("_scale", .num 1)]
  | .williamsr =>
    [("period", .int 14)]
  | .ultimateoscillator =>
    [("period1", .int 7), ("period2", .int 14), ("period3", .int 28), ("factor1", .num 4), ("factor2", .num 2),
     ("factor3", .num 1)]
  | .adosc =>
    [("pfast", .int 3), ("pslow", .int 10), ("_ma", .cls "ema")]
  | .obv =>
    [("_period", .int 1)]
  | _ => []

/-- The class and its bases, the most derived first, without `Indicator`. (python's `__mro__`, indicator.py:91-95) -/
def chain (c : Cls) : List Cls :=
  c :: match c.base with
    | none => []
    | some b => b :: match b.base with
      | none => []
      | some b => b :: match b.base with
        | none => []
        | some b => b :: match b.base with
          | none => []
          | some b => [b]

/-- The hooks which run, in order: those of the bases first. (indicator.py:139-141) -/
def hooks (c : Cls) : List Hook := c.chain.reverse.filterMap hook

/-- The class statements of the class and its bases, the most derived first. (indicator.py:91-95) -/
def rows (c : Cls) : List Row := c.chain.map row ++ [indicatorRow]

/-- The class with a name (given by a python reference, as in `_ma=btalib.ema`). (indicators/*.py) -/
def ofName (n : String) : Option Cls := all.find? (fun c => c.row.name == n)

end Cls
end Bta.Meta
