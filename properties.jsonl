{"id": "C01", "title": "Line operations never repaint history", "statement": "Building a line out of other lines with the library's operators (arithmetic, comparisons, backward shift, diff, rolling windows, seeded exponential smoothing, clip, cumulative sum, ...) is causal: evaluating the same expression on data to which later bars have been appended yields the same minimum period and exactly the same values on all the earlier bars.", "quantifier": "all expressions built from the modelled operators, all input series, all lengths, all extensions of the input, any value type and any element-wise arithmetic (including real IEEE doubles)", "why_tests_cant": "A test compares one fixed csv file against one fixed expected result; causality relates two runs for every possible continuation of the data.", "anchors": ["btalib/meta/lines.py:binary_op", "btalib/meta/lines.py:standard_op", "btalib/meta/lines.py:multifunc_op", "btalib/meta/lines.py:Line._apply"]}
{"id": "C02", "title": "Every result line spans exactly the bars of its input", "statement": "The series of the line returned by any line operation or indicator has exactly as many bars as the input series.", "quantifier": "all operators and indicators of the model, all input lengths including 0 and lengths shorter than the period", "why_tests_cant": "Only a proof covers all lengths, in particular those shorter than the warm-up.", "anchors": ["btalib/meta/lines.py:binary_op", "btalib/meta/lines.py:standard_op", "btalib/meta/lines.py:multifunc_op"]}
{"id": "C03", "title": "Nothing is delivered before the minimum period", "statement": "For every arithmetic/standard/rolling operation, each bar of the result before the declared minimum period is NaN, no matter what the operands hold in their own warm-up region.", "quantifier": "all operand lines (with arbitrary contents), all minimum periods, all bars", "why_tests_cant": "The region before the minimum period depends on arbitrary garbage of the operands.", "anchors": ["btalib/meta/lines.py:binary_op", "btalib/meta/lines.py:standard_op", "btalib/meta/lines.py:multifunc_op"]}
{"id": "C04", "title": "Minimum periods add up exactly", "statement": "The minimum period of a result is: the max of the operands' for binary operations; increased by k for shift/diff/pct_change of k bars; increased by w-1 for a rolling window of w bars; increased by p-1 for a seeded exponential smoothing of period p; hence the composed indicators declare sma p, dema 2p-1, tema 3p-2, trix 3p-1, t3 6p-5, macd slow/slow+signal-1, etc.", "quantifier": "all operand minimum periods and all periods >= 1", "why_tests_cant": "Tests fix one default period per indicator.", "anchors": ["btalib/meta/lines.py:binary_op", "btalib/meta/lines.py:standard_op", "btalib/meta/lines.py:_MultiFunc_Op.__getattr__"]}
{"id": "C05", "title": "Binary operators act bar by bar on delivered values", "statement": "From the larger of the two minimum periods on, bar i of `a op b` is exactly `a[i] op b[i]` (a scalar operand counts as the same value in all bars, with minimum period 1).", "quantifier": "all operators, all lines/scalars, all bars", "why_tests_cant": "Ranges over all operator functions and operand contents.", "anchors": ["btalib/meta/lines.py:binary_op"]}
{"id": "C06", "title": "Operand order does not matter for commutative operators", "statement": "For a commutative operator, `a op b` and `b op a` give the same line (same minimum period, same values) whether a and b are lines or indicators.", "quantifier": "all lines and all (multi-output) indicators", "why_tests_cant": "Tests never mix a multi-output indicator as left/right operand.", "anchors": ["btalib/meta/lines.py:binary_op", "btalib/meta/linesholder.py:binary_op", "btalib/indicator.py:MetaIndicator.__call__"]}
{"id": "C07", "title": "A rolling/ewm window object can be used more than once", "statement": "Asking the same `line.rolling(window=w)` / `ewm` object for several statistics gives each of them the same minimum period as a fresh window object would.", "quantifier": "all histories of attribute accesses on one window object", "why_tests_cant": "Depends on the whole access history of a mutable object.", "anchors": ["btalib/meta/lines.py:_MultiFunc_Op.__getattr__"]}
{"id": "C08", "title": "A forward shift keeps minimum periods usable", "statement": "`line(ago)` delivers the value `ago` bars away, and lines derived from it by further operations still cover every bar for which the operands are defined.", "quantifier": "all shifts (backward and forward), all lines", "why_tests_cant": "Tests only shift backwards.", "anchors": ["btalib/meta/lines.py:Line.__call__", "btalib/meta/lines.py:standard_op"]}
{"id": "C09", "title": "Simple moving average is the arithmetic mean of the last p bars", "statement": "For each bar from the p-th on, sma(x, p) is the sum of the last p values divided by p; earlier bars are NaN. Rolling sum/max/min deliver the sum/maximum/minimum of exactly the last p bars.", "quantifier": "all finite series, all periods p >= 1, all bars", "why_tests_cant": "One file and one period are tested.", "anchors": ["btalib/indicators/sma.py:sma", "btalib/indicators/mathop.py", "btalib/meta/lines.py:multifunc_op"]}
{"id": "C10", "title": "Exponential averages are seeded with a mean and then follow the recursion", "statement": "ema(x,p) delivers at bar p the mean of the first p values and from then on e[i] = e[i-1] + 2/(p+1) (x[i]-e[i-1]); smma uses 1/p; both start p-1 bars after the input's own minimum period.", "quantifier": "all finite series, all input minimum periods, all periods p >= 1, all bars", "why_tests_cant": "Unbounded recursion; tests look at three sampled bars.", "anchors": ["btalib/indicators/ema.py:ema", "btalib/indicators/smma.py:smma", "btalib/meta/lines.py:multifunc_op"]}
{"id": "C11", "title": "Recursive smoothing is the same with and without scipy", "statement": "The smoothing used by the Wilder accumulations gives identical results whether it runs through scipy.signal.lfilter or through the pure python loop used when scipy is not installed.", "quantifier": "all input series, all alpha != 0 and beta", "why_tests_cant": "A given environment has or has not scipy; a test only exercises one of both.", "anchors": ["btalib/meta/lines.py:_MultiFunc_Op._lfilter", "btalib/meta/lines.py:_MultiFunc_Op._mean_exp"]}
{"id": "C12", "title": "Too short inputs", "statement": "An indicator fed with fewer bars than its minimum period returns a line full of NaN instead of failing.", "quantifier": "all series lengths below the minimum period", "why_tests_cant": "All lengths and periods.", "anchors": ["btalib/meta/lines.py:multifunc_op", "btalib/indicators/ema.py:ema", "btalib/indicators/sma.py:sma", "btalib/indicators/sar.py:sar"]}
{"id": "C13", "title": "Averages stay within the range of the averaged data", "statement": "Each value of sma, wma, trima, ema, smma, kama lies between the smallest and the largest of the input values seen so far (for the windowed averages: in the window).", "quantifier": "all finite series, all periods, all bars", "why_tests_cant": "Inequality over unbounded data.", "anchors": ["btalib/indicators/sma.py", "btalib/indicators/wma.py", "btalib/indicators/trima.py", "btalib/indicators/ema.py", "btalib/indicators/smma.py", "btalib/indicators/kama.py"]}
{"id": "C14", "title": "Moving averages are affine", "statement": "For the fixed-weight moving averages (sma, ema, smma, wma, trima, dema, tema, t3 ...): ma(a*x + b) = a*ma(x) + b, in particular the average of a constant series is this constant.", "quantifier": "all a, b, all series, all periods, all bars", "why_tests_cant": "Metamorphic relation between pairs of runs.", "anchors": ["btalib/indicators/sma.py", "btalib/indicators/ema.py", "btalib/indicators/smma.py", "btalib/indicators/wma.py", "btalib/indicators/dema.py", "btalib/indicators/tema.py", "btalib/indicators/trima.py", "btalib/indicators/t3.py"]}
{"id": "C15", "title": "Weighted moving average formula", "statement": "wma(x,p) at a bar is sum_{k=1..p} k * x[i-p+k] / (p(p+1)/2): linearly increasing weights, newest bar heaviest, weights adding up to 1.", "quantifier": "all finite series, all p >= 1, all bars", "why_tests_cant": "One period is tested.", "anchors": ["btalib/indicators/wma.py:wma"]}
{"id": "C16", "title": "Double and triple exponential averages", "statement": "dema = 2*ema - ema(ema) with minimum period 2p-1; tema = 3*ema - 3*ema(ema) + ema(ema(ema)) with minimum period 3p-2; trix is the 1-bar percentage change of the triple ema.", "quantifier": "all finite series long enough, all p >= 1, all bars", "why_tests_cant": "All periods and data.", "anchors": ["btalib/indicators/dema.py:dema", "btalib/indicators/tema.py:tema", "btalib/indicators/trix.py:trix"]}
{"id": "C17", "title": "Triangular moving average is centred and needs exactly p bars", "statement": "trima(x,p) is the average of the last p bars with symmetric triangular weights, for odd and even p, and its minimum period is p.", "quantifier": "all p >= 1, all finite series, all bars", "why_tests_cant": "Odd/even case split over all periods.", "anchors": ["btalib/indicators/trima.py:trima"]}
{"id": "C18", "title": "T3 formula and minimum period", "statement": "t3 applies 6 chained averages and combines the last four with weights that add up to 1; minimum period 6p-5.", "quantifier": "all volume factors, periods, series", "why_tests_cant": "All parameters.", "anchors": ["btalib/indicators/t3.py:t3"]}
{"id": "C19", "title": "Kaufman adaptive average can be applied to any line", "statement": "kama(x,p) follows k[i] = k[i-1] + sc[i]*(x[i]-k[i-1]) from a seed, also if x is the output of another indicator (minimum period > 1).", "quantifier": "all input lines and minimum periods", "why_tests_cant": "Tests only use raw price data (minimum period 1).", "anchors": ["btalib/indicators/kama.py:kama", "btalib/meta/lines.py:_MultiFunc_Op._mean"]}
{"id": "C20", "title": "MACD is internally consistent", "statement": "macd = fast - slow exponential averages, signal = ema of macd, histogram = macd - signal in every delivered bar, with minimum periods slow, slow+signal-1, slow+signal-1; also in ta-lib mode, where the fast average starts later.", "quantifier": "all series, all fast < slow, all signal periods, both modes", "why_tests_cant": "All parameters; relation between outputs.", "anchors": ["btalib/indicators/macd.py:macd", "btalib/indicators/ema.py:ema"]}
{"id": "C21", "title": "RSI is between 0 and 100", "statement": "Each delivered RSI value is between 0 and 100 for whatever averaging indicator which maps non-negative data to non-negative data; it is 100 if there is no down move in the averaged data, 0 if there is no up move (but a down move in the last period), and NaN (0/0) only if there was no move at all.", "quantifier": "all price series, all periods, all non-negativity preserving averages", "why_tests_cant": "Universal inequality.", "anchors": ["btalib/indicators/rsi.py:rsi"]}
{"id": "C22", "title": "Stochastic lines stay in 0..100", "statement": "Fast and slow stochastic k and d lie in [0,100] for bars with low <= close <= high, whenever the range is not degenerate (in which case NaN).", "quantifier": "all OHLC series, all periods", "why_tests_cant": "Universal inequality.", "anchors": ["btalib/indicators/stochastic.py:stochf", "btalib/indicators/stochastic.py:stochastic"]}
{"id": "C23", "title": "Williams %R is in -100..0 and complementary to %K", "statement": "williamsr lies in [-100,0] and equals fast %K - 100 bar by bar.", "quantifier": "all OHLC series, all periods", "why_tests_cant": "Relation between two indicators for all data.", "anchors": ["btalib/indicators/williamsr.py:williamsr", "btalib/indicators/stochastic.py:stochf"]}
{"id": "C24", "title": "CMO range and relation with RSI", "statement": "cmo lies in [-100,100]; with the same average it equals 2*rsi - 100.", "quantifier": "all series, all periods", "why_tests_cant": "Universal.", "anchors": ["btalib/indicators/cmo.py:cmo", "btalib/indicators/rsi.py:rsi"]}
{"id": "C25", "title": "Aroon", "statement": "aroon up/down lie in [0,100], are 100 exactly when the extreme is the newest bar of the window and 0 when it is the oldest; aroonosc = up - down lies in [-100,100].", "quantifier": "all high/low series, all periods", "why_tests_cant": "Universal.", "anchors": ["btalib/indicators/aroon.py"]}
{"id": "C26", "title": "MFI is between 0 and 100", "statement": "mfi lies in [0,100] for non-negative prices and volumes (NaN only if there is no flow in the window).", "quantifier": "all OHLCV series, all periods", "why_tests_cant": "Universal.", "anchors": ["btalib/indicators/mfi.py:mfi"]}
{"id": "C27", "title": "True range and average true range", "statement": "truerange equals max(high-low, |high-prevclose|, |low-prevclose|), is never negative, and atr/natr are never negative.", "quantifier": "all OHLC bars with low <= high", "why_tests_cant": "Universal; the code uses clips rather than the textbook formula.", "anchors": ["btalib/indicators/atr.py"]}
{"id": "C28", "title": "Directional movement is exclusive and DX/ADX bounded", "statement": "In each bar at most one of +DM and -DM is positive and none is negative; +DI and -DI are in [0,100] for valid bars; DX and ADX are in [0,100].", "quantifier": "all OHLC series, all periods, all averages preserving ranges", "why_tests_cant": "Universal inequality through several smoothing layers.", "anchors": ["btalib/indicators/directionalmove.py"]}
{"id": "C29", "title": "Directional indicators deliver as soon as their operands do", "statement": "Without ta-lib compatibility, the minimum period of +DI/-DI is that of its operands (period+1): no computed value is thrown away.", "quantifier": "all periods, all series", "why_tests_cant": "Tests for the directional family only run in ta-lib mode.", "anchors": ["btalib/indicators/directionalmove.py:_di", "btalib/meta/linesholder.py:LinesHolder._period"]}
{"id": "C30", "title": "Bollinger bands are ordered and symmetric", "statement": "bot <= mid <= top, top - mid = mid - bot = devs * stddev, mid = moving average.", "quantifier": "all series, periods, devs >= 0, any square root function with non-negative results", "why_tests_cant": "Universal.", "anchors": ["btalib/indicators/bbands.py:bbands"]}
{"id": "C31", "title": "Rolling variance", "statement": "var is the mean of the squared deviations from the window mean, never negative, 0 exactly for constant windows, invariant under translation.", "quantifier": "all finite series, all periods", "why_tests_cant": "Universal.", "anchors": ["btalib/indicators/var.py:var", "btalib/indicators/stddev.py:stddev"]}
{"id": "C32", "title": "Linear regression indicators are least squares fits", "statement": "For period p >= 2 there is in each bar exactly one line minimising the sum of squared residuals to the last p values among all lines; linearreg_slope is its slope, linearreg, tsf and linearreg_intercept (_talib) are this line evaluated at the last bar, one bar ahead and the first bar of the window; linearreg_intercept without _talib is the line one bar before the window. For prices on a line the forecast is exact.", "quantifier": "all finite series, all p >= 2, all competing lines", "why_tests_cant": "Optimality quantifies over all competing lines.", "anchors": ["btalib/indicators/linreg.py"]}
{"id": "C33", "title": "Beta is a regression slope, correlation bounded", "statement": "beta is the least squares slope of the returns of the second input against those of the first over the last p bars (NaN exactly if the regressor did not move); correl is covariance/deviations, lies in [-1,1], NaN exactly if an input did not move.", "quantifier": "all pairs of series, all periods", "why_tests_cant": "Universal.", "anchors": ["btalib/indicators/beta.py:beta", "btalib/indicators/correl.py:correl"]}
{"id": "C34", "title": "On balance volume recursion", "statement": "obv changes by +volume when close rises, -volume when it falls and 0 when unchanged; ta-lib mode prepends the first volume and differs by that constant.", "quantifier": "all close/volume series", "why_tests_cant": "Unbounded cumulative recursion.", "anchors": ["btalib/indicators/obv.py:obv"]}
{"id": "C35", "title": "Accumulation/Distribution", "statement": "ad is the running sum of volume times a multiplier in [-1,1], so that it changes by at most the bar's volume.", "quantifier": "all valid OHLCV series", "why_tests_cant": "Unbounded cumulative recursion.", "anchors": ["btalib/indicators/ad.py:ad"]}
{"id": "C36", "title": "Cross detection", "statement": "crossup signals exactly those bars in which input 0 is above input 1 while the most recent earlier non-zero difference was negative (strict: the immediately preceding difference was negative); crossdown is its mirror image; never both at once.", "quantifier": "all pairs of series, arbitrary long ties", "why_tests_cant": "Look-back over an unbounded number of equal bars.", "anchors": ["btalib/indicators/crossover.py"]}
{"id": "C37", "title": "crossover combines both directions", "statement": "crossover delivers 1 for an upward, -1 for a downward cross and 0 else.", "quantifier": "all pairs of series", "why_tests_cant": "All data; the type of the intermediate result matters.", "anchors": ["btalib/indicators/crossover.py:crossover", "btalib/meta/lines.py:binary_op"]}
{"id": "C38", "title": "Parabolic SAR invariants", "statement": "sar delivers Wilder's stop and reverse: the acceleration stays between af and afmax; while a position is kept the stop is below the low of the bar and not above that of the previous bar (long; mirrored for short) and never moves back; in a reversal bar the value is the extreme price reached by the closed position; each value lies within the range of prices seen so far.", "quantifier": "all high/low series of any length with low <= high, all 0 <= af <= afmax <= 1", "why_tests_cant": "Invariant of a stateful loop over unbounded data.", "anchors": ["btalib/indicators/sar.py:sar"]}
{"id": "C39", "title": "sarext with default parameters is sar with the sign of the trend", "statement": "For the default parameters |sarext| equals sar in each bar; positive while long, negative while short.", "quantifier": "all positive high/low series", "why_tests_cant": "Relation between two different loops on all data.", "anchors": ["btalib/indicators/sarext.py:sarext", "btalib/indicators/sar.py:sar"]}
{"id": "C40", "title": "Hilbert dominant cycle period is bounded", "statement": "The (smoothed) dominant cycle period delivered by ht_dcperiod is always within [0,50], strictly positive after the first computed bar, for whatever the arctangent returns.", "quantifier": "all price series, any arctangent function", "why_tests_cant": "Invariant of a stateful loop over unbounded data.", "anchors": ["btalib/indicators/ht_dcperiod.py"]}
{"id": "C41", "title": "Hilbert loops never read bars from the end of the array", "statement": "In ht_dcphase, ht_sine, ht_trendline and ht_trendmode the look-back window given by the dominant period never exceeds the number of bars available, hence no negative (wrap-around, i.e. future) index is ever read.", "quantifier": "all price series, any arctangent function, all bars", "why_tests_cant": "The index depends on the loop state; a wrap-around read is silent in python.", "anchors": ["btalib/indicators/ht_dcphase.py", "btalib/indicators/ht_trendline.py"]}
{"id": "C42", "title": "Variable period moving average", "statement": "mavp at a bar equals the moving average with the (clipped) period given for this bar; the warm-up does not depend on later periods.", "quantifier": "all series and period series", "why_tests_cant": "The warm-up depends on the full set of periods.", "anchors": ["btalib/indicators/mavp.py:mavp"]}
{"id": "C43", "title": "Index of extremes", "statement": "maxindex/minindex deliver the position of the maximum/minimum within the last p bars, as absolute bar index in ta-lib mode, also for inputs with a minimum period > 1.", "quantifier": "all input lines with any minimum period", "why_tests_cant": "Tests only use raw price data.", "anchors": ["btalib/indicators/mathop.py"]}
{"id": "C44", "title": "Rate of change family", "statement": "mom = x - x_k, roc = 100(x/x_k - 1), rocp = roc/100, rocr = x/x_k, rocr100 = 100*x/x_k hold bar by bar and consistently with each other.", "quantifier": "all series, all periods", "why_tests_cant": "Relations for all data.", "anchors": ["btalib/indicators/roc.py", "btalib/indicators/mom.py"]}
{"id": "C45", "title": "Price transforms lie within the bar", "statement": "avgprice, medprice, typprice, wclprice lie between low and high for bars with open, close within [low, high].", "quantifier": "all OHLC bars", "why_tests_cant": "Universal.", "anchors": ["btalib/indicators/price.py"]}
{"id": "C46", "title": "Midpoint and midprice", "statement": "midpoint/midprice deliver the centre between the highest and the lowest of the last p bars.", "quantifier": "all series, all periods", "why_tests_cant": "Universal.", "anchors": ["btalib/indicators/midpoint.py"]}
{"id": "C47", "title": "Ultimate oscillator range", "statement": "ultimateoscillator lies in [0,100].", "quantifier": "all OHLC series, all periods and positive factors", "why_tests_cant": "Universal.", "anchors": ["btalib/indicators/ultimateoscillator.py"]}
{"id": "C48", "title": "PPO and APO consistency", "statement": "apo = fast - slow average; ppo = 100*(fast/slow - 1); signal and histogram identities.", "quantifier": "all series, periods", "why_tests_cant": "Relations for all data.", "anchors": ["btalib/indicators/ppo.py"]}
{"id": "C49", "title": "DataFrame columns are assigned without duplication", "statement": "A multi-input indicator given a single DataFrame with enough columns either raises the documented error for a configured column name that does not exist, or gets for each of its inputs a valid column, no column being used twice.", "quantifier": "all column lists, all input definitions, all configurations", "why_tests_cant": "All configurations of names, indices and flags.", "anchors": ["btalib/meta/inputs.py:_from_arg_dataframe"]}
{"id": "C50", "title": "An input whose name is a column gets this column", "statement": "Unless index-first is configured, each input whose (lower case) name matches a column name gets the column with that name.", "quantifier": "all column lists, all input definitions, all configurations", "why_tests_cant": "Depends on the interplay of several inputs.", "anchors": ["btalib/meta/inputs.py:_from_arg_dataframe"]}
{"id": "C51", "title": "Too few outputs are rejected", "statement": "Passing an indicator with fewer outputs than inputs needed raises the documented multi-dimensional input error.", "quantifier": "all indicators, all input definitions", "why_tests_cant": "Depends on number of bars versus number of outputs.", "anchors": ["btalib/meta/inputs.py:_from_arg_linesholder", "btalib/meta/lines.py:Lines.size"]}
{"id": "C52", "title": "Parameter resolution", "statement": "Each declared parameter has the value passed by keyword or else the default of the most derived class declaring it; all undeclared keywords (and only those) are forwarded to the indicator; the caller's order is irrelevant.", "quantifier": "all class hierarchies, all keyword sets", "why_tests_cant": "All hierarchies.", "anchors": ["btalib/meta/params.py"]}
{"id": "C53", "title": "Inherited parameter definitions are preserved", "statement": "A subclass which does not redefine a parameter inherits its default value and its documentation unchanged.", "quantifier": "all default values (including tuples), all hierarchies", "why_tests_cant": "Only the default values which exist in the library are tested.", "anchors": ["btalib/meta/params.py:_generate"]}
{"id": "C54", "title": "Line definitions of a subclass", "statement": "After class creation, the line names are free of duplicates; a redefinition replaces the base names (and an extension appends to them, keeping the last of repeated names); remapped base names are no longer listed.", "quantifier": "all hierarchies and definitions", "why_tests_cant": "All definitions.", "anchors": ["btalib/meta/lines.py:_generate"]}
{"id": "C55", "title": "Remapped names refer to the line which replaced them", "statement": "If a subclass remaps lines (new -> old), reading or assigning the old name on an instance accesses the new line it was remapped to.", "quantifier": "all mappings with any number of entries", "why_tests_cant": "Library classes remap at most one line.", "anchors": ["btalib/meta/lines.py:_generate"]}
{"id": "C56", "title": "Base class initialisers run exactly once and base first", "statement": "Creating an indicator runs each distinct __init__ along the (first base) hierarchy exactly once, from the root to the most derived class, and overridden-or-not does not matter.", "quantifier": "all hierarchies of any depth", "why_tests_cant": "All depths.", "anchors": ["btalib/indicator.py:MetaIndicator.__call__"]}
{"id": "C57", "title": "A failed indicator call leaves the library as it was", "statement": "If an indicator call raises (bad keyword, bad data), later calls behave as if the failed call had not been made.", "quantifier": "all call trees, all points of failure, all histories", "why_tests_cant": "Crash points and histories.", "anchors": ["btalib/indicator.py:MetaIndicator.__call__", "btalib/meta/inputs.py:_from_arg_dataframe"]}
{"id": "C58", "title": "Results do not depend on earlier calls", "statement": "The outcome of an indicator call only depends on its arguments and the configuration, not on which indicators were evaluated before (e.g. with fewer inputs, or in ta-lib mode).", "quantifier": "all histories of calls", "why_tests_cant": "Histories.", "anchors": ["btalib/meta/inputs.py:_from_args", "btalib/indicators/stochrsi.py:stochrsi"]}
{"id": "C59", "title": "The library is usable from any thread", "statement": "An indicator can be evaluated in any thread.", "quantifier": "all schedules/threads", "why_tests_cant": "Tests run in the importing thread.", "anchors": ["btalib/meta/metadata.py", "btalib/indicator.py", "btalib/meta/lines.py"]}
{"id": "C60", "title": "ta-lib compatibility never overrides what the user passed", "statement": "In ta-lib mode the adapted parameter defaults only apply to parameters the caller did not give, and the `_talib` keyword itself never reaches the indicator as parameter.", "quantifier": "all keyword sets, all indicators", "why_tests_cant": "All keyword sets.", "anchors": ["btalib/indicator.py:MetaIndicator.__call__"]}
{"id": "C61", "title": "Each alias names its indicator and each indicator is in its group", "statement": "Every alias declared by an indicator resolves (as attribute of the package) to that indicator, and every registered indicator with a declared group is found under it.", "quantifier": "all indicators of the library", "why_tests_cant": "Collisions only show on the combination of all modules.", "anchors": ["btalib/meta/aliases.py", "btalib/indicator.py:MetaIndicator.__new__", "btalib/indicators/__init__.py"]}
{"id": "C62", "title": "Each indicator only reads inputs it declares", "statement": "Evaluating an indicator on valid data never fails with a missing attribute (truehigh included).", "quantifier": "all data", "why_tests_cant": "truehigh is not tested.", "anchors": ["btalib/indicators/atr.py:truehigh"]}
{"id": "C63", "title": "Wilder accumulation is a scaled Wilder average", "statement": "The accumulating smoothing used for directional movement (prev - prev/p + x, seeded with a sum) is p times the Wilder average (smma) of the same data in each bar.", "quantifier": "all series, all periods", "why_tests_cant": "Unbounded recursion.", "anchors": ["btalib/indicators/directionalmove.py:smacc", "btalib/indicators/smma.py:smma"]}
{"id": "C64", "title": "StochRSI range", "statement": "stochrsi lies in [0,100] (NaN for a degenerate range).", "quantifier": "all series, all periods", "why_tests_cant": "Universal.", "anchors": ["btalib/indicators/stochrsi.py:stochrsi"]}
{"id": "C65", "title": "Comparison lines have no signal in the warm-up", "statement": "The line returned by comparing two lines does not report True in bars before its minimum period.", "quantifier": "all lines", "why_tests_cant": "All data.", "anchors": ["btalib/meta/lines.py:binary_op"]}
{"id": "C66", "title": "Hilbert outputs are in range", "statement": "ht_trendmode delivers 0 or 1 and ht_sine values in [-1,1] on every computed bar.", "quantifier": "all price series", "why_tests_cant": "Universal.", "anchors": ["btalib/indicators/ht_trendmode.py", "btalib/indicators/ht_sine.py"]}
{"id": "C67", "title": "Indicators do not modify the caller's data", "statement": "Evaluating any indicator leaves the series passed by the caller unchanged.", "quantifier": "all input series, all library indicators using in-place modification", "why_tests_cant": "Aliasing; tests do not compare inputs before and after.", "anchors": ["btalib/meta/lines.py:Line._period", "btalib/meta/lines.py:Line._setval", "btalib/meta/lines.py:Line._apply"]}
{"id": "C68", "title": "ppofast follows its documented formula", "statement": "ppofast = 100*(1 - slow/fast), as its documentation says.", "quantifier": "all series, periods and moving averages", "why_tests_cant": "The tests compare with stored values which have the same sign error.", "anchors": ["btalib/indicators/ppo.py:ppofast"]}
{"id": "C69", "title": "Documented orientation of beta", "statement": "As documented, beta(asset, market) is the slope with the market returns on the x axis and the security returns on the y axis: an asset moving k times as much as the market has beta k.", "quantifier": "all price pairs, all periods", "why_tests_cant": "The orientation only shows for inputs with different variances; the claim is about all inputs.", "anchors": ["btalib/indicators/beta.py:beta"]}
{"id": "C70", "title": "Two-input window statistics respect both warm-ups", "statement": "correl(a, b) declares a minimum period which covers the warm-up of both inputs: from the declared minimum period on values are not NaN unless an input is constant.", "quantifier": "all pairs of inputs with any minimum periods, all periods", "why_tests_cant": "Ranges over all combinations of minimum periods.", "anchors": ["btalib/indicators/correl.py:correl", "btalib/meta/lines.py:multifunc_op"]}
{"id": "C71", "title": "The Hilbert trend line stays among recent prices", "statement": "Every value of ht_trendline lies between the lowest and the highest of the last 53 prices of its input.", "quantifier": "all price series, all bars from the declared minimum period on", "why_tests_cant": "The window length is data dependent and the state is recursive; the bound is about every series.", "anchors": ["btalib/indicators/ht_trendline.py:ht_trendline"]}
{"id": "C72", "title": "The dominant cycle phase is an angle", "statement": "Every value of ht_dcphase lies in (-45, 315] degrees.", "quantifier": "all price series, all bars from the declared minimum period on", "why_tests_cant": "The wrap around depends on data dependent branches over a recursive state.", "anchors": ["btalib/indicators/ht_dcphase.py:ht_dcphase"]}
{"id": "C73", "title": "Hilbert indicators do not depend on the unit of price", "statement": "Multiplying all prices with a positive constant leaves ht_dcperiod, ht_dcphase, ht_sine, leadsine and ht_trendmode as they are and multiplies ht_trendline and both ht_phasor components with the same constant.", "quantifier": "all price series, all positive constants, all bars", "why_tests_cant": "A relation between two runs for all series and constants.", "anchors": ["btalib/indicators/ht_dcperiod.py", "btalib/indicators/ht_phasor.py", "btalib/indicators/ht_trendmode.py"]}
{"id": "C75", "title": "Mean absolute deviation and commodity channel index", "statement": "mad is the mean absolute distance of the last p values from their mean, never negative and zero exactly if these values are equal. cci is (typical price - its average)/(factor * mad of the typical price); with the simple average it is NaN exactly if the typical price did not change within the window.", "quantifier": "all high/low/close series, periods, factors and averages", "why_tests_cant": "All inputs, including flat windows which the sample data do not contain.", "anchors": ["btalib/indicators/cci.py:cci", "btalib/indicators/madev.py:mad"]}
{"id": "C76", "title": "Balance of power", "statement": "bop = (close - open)/(high - low); for valid bars it is NaN exactly if high = low, else within [-1, 1], and its sign tells whether the bar closed above or below its open.", "quantifier": "all valid bars", "why_tests_cant": "Range statement about all bars, including bars without range.", "anchors": ["btalib/indicators/bop.py:bop"]}
{"id": "C77", "title": "Chaikin oscillator", "statement": "adosc is the fast average of the accumulation/distribution line minus its slow average, with any moving average, including the unseeded one selected by _talib; minimum period that of the slower one.", "quantifier": "all bars with high != low, all periods and averages", "why_tests_cant": "All inputs and all averages.", "anchors": ["btalib/indicators/ad.py:adosc"]}
{"id": "C78", "title": "The unseeded exponential average delivers nothing before its minimum period", "statement": "ewma(x, p) (adjust=False) follows e[i] = e[i-1] + 2/(p+1)(x[i]-e[i-1]) from the first value of the input; with adjust=True it is the mean of all values so far, each bar weighing 1-2/(p+1) times as much as the next one. It is NaN before its declared minimum period.", "quantifier": "all series, all periods", "why_tests_cant": "All inputs and periods.", "anchors": ["btalib/indicators/ewma.py:ewma", "btalib/meta/lines.py:multifunc_op"]}
{"id": "C79", "title": "Arithmetic indicators and element-wise functions", "statement": "add, sub, mult and div act bar by bar from the larger of the two minimum periods on and undo each other; the mathematical functions act bar by bar and keep the minimum period.", "quantifier": "all pairs of inputs, all functions", "why_tests_cant": "All inputs and minimum periods.", "anchors": ["btalib/indicators/mathop.py", "btalib/indicators/math.py"]}
{"id": "C74", "title": "MESA adaptive moving average can be applied to any line and stays with the prices", "statement": "mama follows e[i] = e[i-1] + alpha[i](x[i]-e[i-1]) with alpha between slowlimit and fastlimit, fama follows mama with half of alpha, for any input line; like other averages the result of a constant series is this constant.", "quantifier": "all input lines (also outputs of other indicators), all limits", "why_tests_cant": "All series and minimum periods; recursion over the whole history.", "anchors": ["btalib/indicators/mama.py:mama", "btalib/meta/lines.py:multifunc_op"]}
{"id": "C80", "title": "Positional inputs are bound in order", "statement": "Called with at least as many positional arguments as the indicator has inputs, the k-th input is made from the k-th argument and the remaining arguments are forwarded as parameters, untouched.", "quantifier": "all classes, all argument lists", "why_tests_cant": "All numbers of inputs and arguments.", "anchors": ["btalib/meta/inputs.py:Inputs._from_args"]}
{"id": "C81", "title": "Arguments which are not understood are rejected", "statement": "A keyword which is neither a parameter of the indicator nor an argument of one of its initialisers, or a positional argument after the inputs, raises TypeError; it is never silently ignored or taken for something else.", "quantifier": "all indicators of the library, all sets of keywords, any number of arguments", "why_tests_cant": "Any keyword with any other keywords, for all indicators.", "anchors": ["btalib/indicator.py:MetaIndicator.__call__", "btalib/indicators/*.py:__init__"]}
{"id": "C82", "title": "Editing a line in place touches exactly the bars asked for", "statement": "line._period(n, val=v) overwrites exactly the |n| bars by which the start of the valid region moves and changes the minimum period by n; line._setval(i0, cnt, v) overwrites exactly cnt bars (one for cnt=0) counted from the i0-th valid bar, with a negative end up to that many bars before the end; the other bars keep their value. (Code: _setval without positions and _period with a zero increment never change anything.)", "quantifier": "all lines, minimum periods, increments, positions and counts", "why_tests_cant": "Slicing with python's negative indices and clipping has to be right for every position, length and minimum period.", "anchors": ["btalib/meta/lines.py:Line._period", "btalib/meta/lines.py:Line._setval"]}
{"id": "C83", "title": "The minimum period of an indicator is that of its slowest output", "statement": "After construction the minimum period of an indicator instance is at least that of each output and equal to that of one; so a bar counts as valid for the instance exactly if it is valid for each output.", "quantifier": "all lists of outputs with any minimum periods", "why_tests_cant": "Has to hold for any number of outputs and any combination of periods, user defined indicators included.", "anchors": ["btalib/indicator.py:MetaIndicator.__call__", "btalib/meta/lines.py:Lines._minperiod"]}
{"id": "C84", "title": "No indicator of the library repaints", "statement": "If a call of an indicator gives a result on some history, then the same call on the same history with bars added at the end gives a result too, with the same outputs, the same minimum periods and the same value at every bar there was before. It holds for every class of the library with its default parameters or any usable ones (mavp is the exception, see C42; an early smacc on plain data is another).", "quantifier": "every indicator class but mavp and truehigh, all usable parameters, all moving averages which can be given as parameter (nested too), all histories of any length with any values including NaN and infinities, all numbers of added bars", "why_tests_cant": "A test compares a few prefixes of one data set; a look-ahead that depends on the length of the data or on a rare value would not be met.", "anchors": ["btalib/indicators/*.py", "btalib/meta/lines.py: binary_op, standard_op, multifunc_op, Line._apply, Line._period"]}
{"id": "C85", "title": "A window indicator depends on its window only", "statement": "The value of an indicator which is calculated over windows (no recursion, running sum, padding or absolute index) at a bar from its minimum period on depends only on the last minperiod bars: loading more or less history before them, or other prices there, does not change it.", "quantifier": "all window calls with all usable parameters and nested window averages, all histories, all bars from the minimum period on", "why_tests_cant": "Needs all pairs of histories which agree on a window.", "anchors": ["btalib/indicators/*.py", "btalib/meta/lines.py: multifunc_op, standard_op, binary_op"]}
{"id": "C86", "title": "Outputs span the data and start at their minimum period", "statement": "Every output of an indicator has one value per bar of the data, a minimum period of at least 1 and NaN at every bar before it; there are as many outputs as the class declares. Averages with ewma are the exception (their values start earlier, C78).", "quantifier": "all calls with usable parameters and averages other than ewma, all histories of any length", "why_tests_cant": "Each indicator computes its minimum period from parameters and nested indicators; a test checks a few parameter sets.", "anchors": ["btalib/indicators/*.py", "btalib/meta/lines.py: _clone, _period, standard_op, _generate", "btalib/meta/outputs.py: _generate"]}
{"id": "C87", "title": "Missing data is neither hidden nor spread", "statement": "In any formula a user builds from lines with + - * /, abs, clip, shift, diff and rolling sum/mean/max/min, the result is missing (NaN) at each delivered bar for which a missing value is read; and, if nothing is divided, it is a number at each delivered bar for which only numbers are read, whatever is missing elsewhere.", "quantifier": "all formulas, all inputs with any pattern of missing values, infinities and minimum periods, all bars", "why_tests_cant": "The pattern of missing values and the nesting of operations are unbounded; a test checks one series with one gap.", "anchors": ["btalib/meta/lines.py: binary_op, standard_op, multifunc_op", "btalib/meta/linesops.py: _BINOPS, _STDOPS, _MULTIFUNCOPS"]}
{"id": "C88", "title": "Units of price and volume", "statement": "Expressing prices in another currency unit (all price inputs multiplied with a positive constant) and volumes in another unit changes the outputs of every indicator exactly as dimensional analysis says: averages, bands, ranges, SAR, MACD, regression lines are multiplied with the price factor, variance with its square, OBV and A/D with the volume factor, all oscillators, ratios, indices and signals (RSI, CCI, stochastics, ADX family, MFI, aroon, TRIX, ROC, PPO, beta, correl, crossings, Hilbert period and phases, ...) do not change at all; errors, NaN positions and minimum periods stay. The exceptions are linearreg_angle, the element-wise math functions and sarext with a start value.", "quantifier": "all indicators with all parameters (averages as parameters which keep units), all input lines of any length with missing values and infinities anywhere, all positive factors", "why_tests_cant": "A relation between two runs for all series, parameters and factors.", "anchors": ["btalib/indicators/rsi.py:rsi", "btalib/indicators/bbands.py:bbands", "btalib/indicators/sar.py:sar", "btalib/indicators/mfi.py:mfi", "btalib/indicators/mama.py:mama", "btalib/indicators/linreg.py:_linreg_base"]}
{"id": "C89", "title": "Charts turned upside down: no indicator treats rising and falling prices differently", "statement": "Turn a chart upside down: change the sign of all prices, exchange high and low, leave the volume. Whatever the data (missing values and infinities anywhere), an indicator call which gives a result on the chart gives the corresponding result on the turned chart: averages, price functions, sums and differences, macd, apo, mom, cci, cmo, bop, ad, adosc, obv, the regression lines, aroonosc, the Hilbert trend line and phasor and mama change their sign; variance, standard deviation, mean deviation, true range, atr, dx, adx, adxr, correl, beta, the dominant cycle period do not change; plus and minus directional movement and indicators, aroon up and down, the indices of maximum and minimum, crossup and crossdown, max and min, the upper and lower Bollinger band change places. Williams' %R of the turned chart is the fast %K of the chart with its sign changed, and the other way round; the rsi of the turned chart is the complement to 100 of the rsi wherever that is finite; so are the ultimate oscillator of valid bars and the money flow index of prices and volumes which are not negative. The stochastic rsi of the turned chart is the complement to its scale, whatever the data. Rates of change of prices other than zero do not change; natr changes its sign (closes other than zero). ppo with its signal and difference and trix do not change, unless the average they divide by is zero at some bar. The parabolic stop changes its sign if its first two bars show a direction; if they do not it starts long in both charts.", "quantifier": "for all lines of one length with any contents, all parameters and averages given as parameters (of the unit of their input), all the indicator calls named", "why_tests_cant": "Tests compare outputs with stored values of one data file; an asymmetry (a wrong side of a comparison, a tie broken differently for highs and lows, a clipped side) shows only on particular data, and the claim relates two runs over every possible chart.", "anchors": ["btalib/indicators/directionalmove.py", "btalib/indicators/aroon.py", "btalib/indicators/crossover.py", "btalib/indicators/sar.py", "btalib/indicators/rsi.py", "btalib/indicators/williamsr.py", "btalib/indicators/stochastic.py", "btalib/indicators/bbands.py", "btalib/indicators/mathop.py", "btalib/indicators/ultimateoscillator.py", "btalib/indicators/mfi.py", "btalib/indicators/roc.py", "btalib/indicators/stochrsi.py", "btalib/indicators/atr.py", "btalib/indicators/ppo.py", "btalib/indicators/trix.py"]}
{"id": "C90", "title": "Reading results: name, position, iteration and frame show the same lines", "statement": "Every output of an indicator can be read as attribute of `outputs`, by its name in brackets, by its position counted from the front or from the back, by iteration, and as column of `df`; all of these are the same line, the one the initialiser assigned. `len` is the number of outputs and `keys` are their names in the order of declaration. Positions outside raise IndexError, names which are no output ValueError. `ind.i0`, `ind.input0`, ... are the inputs by position. The attribute of the indicator with the name of an output is this output for all indicators of the library except `add`, `sub` and `div`, where it is the operator method. After an assignment to an output all ways of reading show the new line, except a `df` which was read before. `name in ind` holds for all outputs (but also for `size` and `keys`), slices of outputs raise TypeError, and `input1` of an operator with inputs named `input1`, `input2` is the second one.", "quantifier": "for all classes of the library (for reading in `outputs`: all chains of class definitions), all inputs and output lines with any contents, all positions and names", "why_tests_cant": "The tests read single outputs of some indicators by attribute; whether some alias, method or temporary attribute hides an output depends on every declared name, and that all ways agree is a claim for every class a user can define.", "anchors": ["btalib/meta/lines.py:Lines", "btalib/meta/linesholder.py:LinesHolder", "btalib/meta/linesholder.py:SeriesFetcher", "btalib/meta/linesops.py:_BINOPS", "btalib/indicator.py:MetaIndicator.__call__"]}
{"id": "C91", "title": "A window or shift delivers after its own period, however the period is written", "statement": "`shift`, `diff`, `pct_change`, `rolling` and `ewm` called on a line act on its delivered bars as pandas does, and the minimum period of the result grows by the period of the operation, so that no bar counts as delivered which has no value. This holds if the period is written as keyword (for `ewm`: `span`, `com`, or `alpha`/`halflife` along with `span`). It does not hold otherwise: `shift`, `diff`, `pct_change` with the period by position or left out raise TypeError; `rolling(w)` by position gives the same values with the old minimum period; `ewm(alpha=a)` lowers the minimum period by one; `ewm(c)` by position ends in a RecursionError.", "quantifier": "for all lines with any contents and minimum period, all periods, all aggregations and pandas operations of the same length", "why_tests_cant": "The tests call the operations in the way the library itself does; the minimum period is only noticed when a result is used further, and the claim is about all lines, periods and ways of writing them.", "anchors": ["btalib/meta/lines.py:standard_op", "btalib/meta/lines.py:multifunc_op", "btalib/meta/linesops.py:_STDOPS", "btalib/meta/linesops.py:_MULTIFUNCOPS"]}
{"id": "C92", "title": "Reductions summarise exactly the delivered bars", "statement": "A reduction of a line (`mean`, `sum`, `max`, `std`, `quantile`, ...), like `mpseries`, sees exactly the delivered bars in their order and nothing of the warm-up, whatever that holds; a reduction of two lines (`corr`, `cov`, `dot`, `equals`) sees of both exactly the bars which both deliver. `sum` and `mean` are the sum and the mean of the delivered values. For lines with a minimum period below 1, which a forward shift leaves behind, this is false: the mean of `line(k)` is NaN for all data.", "quantifier": "for all lines with minimum period at least 1 and any contents, all reductions, all pairs of lines of one length; for all data and all forward shifts in the negative part", "why_tests_cant": "A reduction which included warm-up bars would give the same number for NaN warm-ups with most pandas reductions; the difference needs particular lines and reductions, and the claim is for all of them.", "anchors": ["btalib/meta/lines.py:reduction_op", "btalib/meta/lines.py:Line.mpseries", "btalib/meta/lines.py:Line._minperiodize", "btalib/meta/linesops.py:_REDOPS"]}
{"id": "C93", "title": "Expanding windows aggregate everything delivered so far", "statement": "`line.expanding(min_periods=k)` (or without argument, k = 1) followed by an aggregation shows at each bar the aggregation of the finite values of all delivered bars up to it, NaN as long as there are less than k; its minimum period is that of the line plus k - 1, the bars before are NaN, and more bars do not change what was shown. With k written by position the minimum period stays that of the line although the first k - 1 bars are NaN.", "quantifier": "for all lines with any contents, all k, all aggregations", "why_tests_cant": "There is no test of expanding windows; the claim covers every position of missing values, every k and aggregation.", "anchors": ["btalib/meta/lines.py:multifunc_op", "btalib/meta/linesops.py:_MULTIFUNCOPS"]}
{"id": "C94", "title": "Items and slices of a line", "statement": "`line[i]` holds the value at bar i, counted from the back for negative i, and is an IndexError outside; to the right of an operator it counts as this value (`a - b[i]`), from the later of the two minimum periods on. It can be used like the number everywhere else (`line[-1] > 5`, `1 + line[0]`, `float`, `if`). Cutting off the last bars (`line[:j]`) commutes with operators and rolling windows: the result for the cut lines is the cut result. Cutting off the first bars (`line[k:]`) is not seen by the minimum period: if the warm-up is cut away, so that all bars are values, every further operation hides the first m - 1 of them.", "quantifier": "for all lines with any contents, all positions and cuts, all element-wise operators and window aggregations", "why_tests_cant": "Slices are not tested; commutation is a relation between two evaluations for every line, cut and operation.", "anchors": ["btalib/meta/lines.py:Line.__getitem__", "btalib/meta/lines.py:Line._clone", "btalib/meta/lines.py:binary_op"]}
{"id": "C95", "title": "Results handed on as series or frame", "statement": "A result may be handed on to another indicator as indicator, or as `series` or frame (also by configuring frames as return values): the values of what is calculated from it are the same. This holds for rolling windows and element-wise operators on results which are NaN in their warm-up; but the minimum period is forgotten (the next result claims to deliver m - 1 bars earlier than it does), and exponential averages take their seed from other bars, hence have other values.", "quantifier": "for all lines with NaN warm-up, all windows, all aggregations and operators which are NaN on NaN", "why_tests_cant": "Tests never chain results through frames; the claim compares two evaluations for all data.", "anchors": ["btalib/meta/linesholder.py:LinesHolder.df", "btalib/meta/linesholder.py:SeriesFetcher", "btalib/meta/lines.py:MetaLine.__call__", "btalib/indicator.py:MetaIndicator.__call__", "btalib/config.py:set_return_dataframe"]}
{"id": "C96", "title": "Which column of a DataFrame an input gets is decided by the documented rule", "statement": "When one DataFrame is passed for all inputs of an indicator, each input in turn gets: with OHLC_FIRST its configured column, if it exists and is not taken; otherwise the first column with its (lower case) name, if not taken; otherwise, if there is no such name, its configured column, if it exists and is not taken; otherwise the leftmost column not taken. The rule determines the column. For a single input: the column of its name, else the configured column, else the first.", "quantifier": "all column names, DataFrames, input definitions, configurations, both settings of OHLC_FIRST", "why_tests_cant": "The choice for an input depends on all the choices before it, on the names and on the configuration; tests use one frame with all columns present.", "anchors": ["btalib/meta/inputs.py:_from_arg_dataframe", "btalib/meta/lines.py:_line_from_dataframe", "btalib/config.py"]}
{"id": "C97", "title": "An indicator of a result is the indicator of what the result delivered, later", "statement": "If all inputs of an indicator call have a common minimum period m (as the results of another indicator have), the call gives a result exactly when the same call on the delivered parts alone (the bars from m on, as plain data) gives one; each output is then the same output put off by m-1 bars: same values m-1 bars later, and a minimum period m-1 higher, so that minimum periods of nested indicators add up.", "quantifier": "All calls of the catalogue of indicators with usable periods which do not use kama, mama or absolute positions; all input lines of any length and content (NaN and infinities included), any number type, any delay k; for the excluded calls the negation.", "why_tests_cant": "Tests compare a few indicators on one data set with known outputs. That nothing in any indicator looks at the undelivered bars, or counts from the first bar instead of from the minimum period, is a statement about all calls, data and delays.", "anchors": ["btalib/meta/lines.py: MetaLine, Line._period, _ewm, std ops", "btalib/indicators/*.py", "btalib/indicator.py: Indicator"]}
{"id": "C98", "title": "The lists of indicators agree with each other and with the classes defined", "statement": "After any sequence of class definitions: get_ind_names gives the names of the listed classes (in a submodule of btalib's subpackages, not starting with an underscore), each once and sorted; get_ind_by_name maps each to the class defined last with it, in the same order, and get_indicators lists these classes; get_groups gives each group named by a listed class once in order of first use; get_ind_by_group gives the members in order of creation; get_ind_names_by_group never raises and gives the sorted names of the members. The views agree: members of groups are exactly the listed indicators with a group. Answers are independent copies.", "quantifier": "All sequences of class definitions in any modules with any names and groups; the classes of the library.", "why_tests_cant": "Classes may be defined in any number and order, with repeated names and groups, by any importer; tests see one import.", "anchors": ["btalib/indicator.py: get_indicators, get_ind_names, get_ind_by_name, get_ind_by_group, get_ind_names_by_group, get_groups, MetaIndicator.__new__", "btalib/meta/groups.py: _generate"]}
{"id": "C99", "title": "Defining an indicator in a module adds its names and changes nothing else", "statement": "In a module which defines indicators, each class is available under its name and each of its aliases (the last binding of a name wins), and `from module import *` exports them; whatever else the module exports stays exported, and a module with any form of __all__ can define indicators.", "quantifier": "All modules, as sequences of statements which bind names, set __all__ or define indicators with any aliases.", "why_tests_cant": "The library's own modules define only indicators and no __all__; the effect on a user's module depends on what else is in it and in which order.", "anchors": ["btalib/meta/aliases.py: _generate", "btalib/indicators/__init__.py"]}
{"id": "C100", "title": "Parameters of an indicator read the same as attribute, item and dictionary", "statement": "For the parameters object of an indicator call: each declared parameter is readable as attribute, item and by _get with the value the call gave it (passed or default), and is in the object; iteration, keys(), len, _items, _values and dict(p)/**p show exactly the declared parameters in declaration order with these values; a name which is no parameter is not in it, raises AttributeError as attribute and KeyError as item; exactly the declared parameters can be set, and setting one changes no other.", "quantifier": "All classes with any declared parameters and defaults, all keyword arguments, all names.", "why_tests_cant": "Names of parameters are chosen by the authors of indicators; the mapping interface has to agree with itself for each name, including names which coincide with methods.", "anchors": ["btalib/meta/params.py: Params, _from_kwargs"]}
{"id": "C101", "title": "Averages follow their input", "statement": "If one series of data is nowhere below another one, its sma, wma, trima, ema, smma, rolling sum, rolling maximum and rolling minimum are nowhere below those of the other one. The averages which compensate for lag or adapt (dema, tema, t3, kama) do not have this property: a higher price can lower them.", "quantifier": "all periods, all pairs of input lines with the same bars and minimum period (raw data or results), all bars; for the counterpart, existence of data", "why_tests_cant": "It compares the results for every pair of inputs; tests compare one input with a table of expected values.", "anchors": ["btalib/indicators/sma.py:sma", "btalib/indicators/ema.py:ema", "btalib/indicators/smma.py:smma", "btalib/indicators/wma.py:wma", "btalib/indicators/trima.py:trima", "btalib/indicators/dema.py:dema", "btalib/indicators/tema.py:tema", "btalib/indicators/t3.py:t3", "btalib/indicators/kama.py:kama", "btalib/indicators/mathop.py:max"]}
{"id": "C102", "title": "How a history began is forgotten", "statement": "Averages, apo, macd and rsi calculated from two histories which agree from some bar on (for instance because one was downloaded with an earlier start) become equal: for bounded data and any tolerance there is a number of bars, the same for all such data, after which the results differ by at most the tolerance. For ema, smma and atr the difference shrinks by exactly 1-2/(p+1), resp. 1-1/p, with each bar; for kama, after one period, by at least the squared factor of the slow average. For rsi the price has to have moved in the last p bars; where it stands still the rsi keeps whatever value it had.", "quantifier": "all periods, all pairs of histories of any lengths and minimum periods which agree from some bar on, all bars after that", "why_tests_cant": "It is a statement about all pairs of histories of unbounded length; the tests use one file of 255 bars.", "anchors": ["btalib/meta/lines.py:_ewm", "btalib/indicators/ema.py:ema", "btalib/indicators/smma.py:smma", "btalib/indicators/dema.py:dema", "btalib/indicators/tema.py:tema", "btalib/indicators/t3.py:t3", "btalib/indicators/macd.py:macd", "btalib/indicators/ppo.py:apo", "btalib/indicators/atr.py:atr", "btalib/indicators/rsi.py:rsi", "btalib/indicators/kama.py:kama"]}
{"id": "C103", "title": "Adding an amount to all prices", "statement": "If one amount is added to every price (back-adjusted series, another base), volume left as it is, then averages, price means, extremes, bands, regressions and sar are raised by that amount (sums by period times the amount); differences, ranges, dispersions, oscillators, directional movement, positions of extremes, correlation, cross signals, obv, ad and adosc are exactly the same; a call raises if and only if it raised before. Products, quotients, rates of change, percentages of price (ppo, natr), money flow, beta and sarext are raised by no fixed amount. Nothing is claimed for the Hilbert transform indicators and functions like sin.", "quantifier": "all amounts, all calls of the catalogue with all parameters (averages given as parameters must be averages, divisors not zero), all data of any length with missing values and infinities anywhere", "why_tests_cant": "The claim relates the results on two whole series for every amount and every average which may be passed as a parameter; tests compare single runs with stored numbers.", "anchors": ["btalib/indicators/sma.py: sma", "btalib/indicators/rsi.py: rsi", "btalib/indicators/sar.py: _sarize", "btalib/indicators/bbands.py: bbands", "btalib/indicators/directionalmove.py: plus_dm, minus_dm, adx", "btalib/indicators/ad.py: ad"]}
{"id": "C104", "title": "Operands with other dates are combined by date or refused", "statement": "An arithmetic operator between two lines whose series have increasing, possibly different dates (two instruments, data of different length) gives a result if and only if each date of the second operand from the common minimum period on (counted in its own bars) is such a date of the first, otherwise ValueError. The result has the dates of the first operand and the greater minimum period, is the operation on the values of the same date where both have one, and NaN elsewhere; values of different dates are never combined. Hence `a + b` may give a result while `b + a` raises: both do if and only if the dates are the same. Comparisons are refused unless the dates are the same. An operand which is listed k bars later is used k bars too late: for k bars the result is NaN although both operands have values.", "quantifier": "all pairs of lines with increasing dates, all values, minimum periods from 1 on and lengths, any arithmetic", "why_tests_cant": "The tests use one index for everything; the claim is about every pair of indices and every overlap.", "anchors": ["btalib/meta/lines.py: binary_op", "btalib/meta/linesops.py: _BINOPS"]}
{"id": "C105", "title": "Operations which select bars never move values, except for the greatest and the least", "statement": "An operation of a line which gives another number of bars than the line delivers (head, tail, dropna, drop_duplicates, append, ...) raises ValueError; with the same number it stores them from the minimum period on, in the order the operation gave them, NaN before. Hence head(k) and tail(k) give the line itself if it delivers not more than k bars, dropna() if nothing is missing, drop_duplicates() if all values differ, append(other) if the other line has no bar from the common minimum period on, and otherwise ValueError: none of them ever gives a value to another bar. The claim fails for nlargest and nsmallest: with k not less than the number of bars they give a line whose values are sorted, i.e. moved to other bars.", "quantifier": "all lines with minimum period from 1 on, all data with missing values, all k, any operation on a series", "why_tests_cant": "The tests call none of these; the claim is about every line and every operation.", "anchors": ["btalib/meta/lines.py: standard_op", "btalib/meta/linesops.py: _STDOPS"]}
{"id": "C106", "title": "Cumulating, filling and testing operations of a line", "statement": "cummax, cummin and cumprod of a line show the greatest value, the least value and the product of all it has delivered so far; fillna, where, mask, combine_first, combine, apply and replace work bar by bar from the common minimum period on, with NaN before; isna, notna, between and isin with a list of numbers test bar by bar. These, ffill and duplicated never look ahead: more bars change none of the earlier ones. The claim fails for bfill, which fills a missing bar from a later one, for interpolate, which puts missing bars on the straight line to the next value, for isin with another line, which finds values of later bars, for rank, whose value at a bar grows with each lower value that comes later, and for notna, isin and between in the warm-up, where they are True although there is nothing.", "quantifier": "all lines of any length and minimum period from 1 on, all data; all continuations of the data", "why_tests_cant": "The tests call none of these; looking ahead shows only in a comparison of all continuations.", "anchors": ["btalib/meta/lines.py: standard_op", "btalib/meta/linesops.py: _STDOPS"]}
{"id": "C107", "title": "Ranges in floating point arithmetic", "statement": "The documented ranges hold for the floats a user gets, not only in exact arithmetic. However each operation is rounded (any rounding that keeps the order, e.g. IEEE double precision): rsi is from 0 to 100 and stochrsi from 0 to its scale for any data, with missing and infinite values; mfi of prices and volumes which are not negative is from 0 to 100, if each window is summed by itself (see C146 for sums which are updated); aroon is from 0 to 100 and its oscillator from -100 to 100; bop is from -1 to 1; the median, mid and weighted close prices and the mid point are from low to high. The flow which a bar adds to the accumulation/distribution line is never more than its volume, and is the volume (with its sign changed) if the bar closes at its high (low), as long as the low is not below a quarter of the high. The claim fails in double precision for %K of the stochastics, Williams' %R and cmo, which can pass 100 (-100) by one unit in the last place and, with exponential sums in cmo, by no more; for the ultimate oscillator, which is 100.00000000000001 if all bars close at their high; and for the typical price and the simple and exponential averages, which can be above (below) all the prices they average.", "quantifier": "all roundings that keep the order and the numbers up to 2^24, all data, periods and bars; for the exact margin IEEE binary64", "why_tests_cant": "The tests compare a few values with a tolerance; an excess of one unit in the last place needs particular prices, and a test such as value <= 100 on a sample says nothing about other prices.", "anchors": ["btalib/indicators/rsi.py: rsi", "btalib/indicators/stochrsi.py: stochrsi", "btalib/indicators/aroon.py: aroon, aroonosc", "btalib/indicators/bop.py: bop", "btalib/indicators/price.py: medprice, wclprice, typprice", "btalib/indicators/midpoint.py: midprice, midpoint", "btalib/indicators/stochastic.py: stochf", "btalib/indicators/williamsr.py: williamsr", "btalib/indicators/cmo.py: cmo", "btalib/indicators/ad.py: ad", "btalib/indicators/ultimateoscillator.py: ultimateoscillator", "btalib/indicators/mfi.py"]}
{"id": "C108", "title": "What a missing price does to the cycle indicators", "statement": "ht_dcphase, ht_sine, ht_trendline and ht_trendmode raise ValueError if and only if the price has more than 36 bars after its first value and one of the prices from 34 bars after the first value on (for plain data: from the 35th bar on) is NaN or infinite; one such bar anywhere in the rest of the history is enough, however long the history is. Otherwise they give a result. ht_dcperiod and ht_phasor never raise. The prices before have no influence on ht_dcphase and ht_sine at all, whatever they are.", "quantifier": "all price histories of any length and minimum period with any finite, infinite or NaN values, all positions of the missing price", "why_tests_cant": "The tests use one complete data set. Whether a missing bar raises depends on its position relative to the 31 bars the loop skips and the 4 bars of the smoothed price, and on NaN passing through the whole recursion before int() is reached.", "anchors": ["btalib/indicators/ht_dcphase.py: ht_dcphase._periodize", "btalib/indicators/ht_sine.py: ht_sine._periodize", "btalib/indicators/ht_trendline.py: ht_trendline._periodize", "btalib/indicators/ht_trendmode.py: ht_trendmode._periodize", "btalib/indicators/ht_dcperiod.py: ht_dcperiod._periodize", "btalib/indicators/ht_phasor.py: ht_phasor._periodize"]}
{"id": "C109", "title": "What the user no longer holds is released", "statement": "When an indicator call has ended and the user drops the result, the result, the data it was calculated from and everything calculated on the way can be freed; a program which calls indicators again and again and keeps none of the results does not need more and more memory.", "quantifier": "all histories of calls, nested to any depth, ended normally or by an exception, with any results dropped at any time", "why_tests_cant": "Tests look at the values of single calls; what is kept depends on the whole history.", "anchors": ["btalib/meta/lines.py:Lines.__init__", "btalib/meta/lines.py:metadata.minperiods", "btalib/indicator.py:MetaIndicator.__call__"]}
{"id": "C110", "title": "Bars by label", "statement": "`line.loc[label]` is the value at the bar with this label of the index, and `line.loc[l:l']` the bars from l to l', both included, as for a pandas Series.", "quantifier": "all lines, all indices with labels of any type, all labels of the index", "why_tests_cant": "loc is not tested; all indices and labels.", "anchors": ["btalib/meta/linesops.py:_MULTIFUNCOPS", "btalib/meta/lines.py:multifunc_op"]}
{"id": "C111", "title": "Signals do not depend on rounding", "statement": "In floating point arithmetic crossup and crossdown (strict or not) signal at exactly the bars at which the numbers stored in the two lines cross, even by the last digit, and give the same result as with exact arithmetic; the greatest and least value of a period and their positions are exact as well. No rounding of a difference hides or invents a signal, whatever the data (missing and infinite values included).", "quantifier": "all pairs of lines of stored numbers, both forms of crossing, all periods, all roundings in which a difference of two different numbers is not rounded to zero (binary64 is shown to be one)", "why_tests_cant": "Rounding errors show only for particular numbers; tests compare a few series within a tolerance.", "anchors": ["btalib/indicators/crossover.py:_crossbase", "btalib/indicators/crossover.py:crossup", "btalib/indicators/crossover.py:crossdown", "btalib/indicators/mathop.py:max", "btalib/indicators/mathop.py:min", "btalib/indicators/mathop.py:maxindex", "btalib/indicators/mathop.py:minindex"]}
{"id": "C112", "title": "Ranges and spreads in floating point arithmetic", "statement": "However results are rounded (any rounding which keeps the order, e.g. double precision): the true range is the greatest of high - low, |high - previous close| and |low - previous close| as rounded; true range, average true range, normalised average true range, directional movement, directional indicators, dx, adx, adxr and the mean absolute deviation are never negative; the lower Bollinger band is never above and the upper never below the average.", "quantifier": "all data with high not below low (missing and infinite values included), all periods, all seeds, smoothing with or without scipy, every order preserving rounding", "why_tests_cant": "Rounding errors depend on the data; the claim is about all data and all numbers of bars.", "anchors": ["btalib/indicators/atr.py:truerange", "btalib/indicators/atr.py:atr", "btalib/indicators/atr.py:natr", "btalib/indicators/directionalmove.py", "btalib/indicators/madev.py:mad", "btalib/indicators/bbands.py:bbands"]}
{"id": "C113", "title": "A market which does not move", "statement": "While prices do not change (a halted or padded series) the indicators say so: averages show the price, momentum, rates of change, MACD/APO/PPO and dispersion measures show zero, bands and midpoints are at the price, and indicators which compare movements with each other (RSI, CMO, stochastics, Williams %R, CCI, BOP, directional indicators) show nothing. No bar is an infinity and no call raises. When prices move again, the values come back.", "quantifier": "every price, every number of bars, every minimum period of the input, all periods and parameters", "why_tests_cant": "Tests use moving market data. A flat stretch hits 0/0 in each ratio; which of these become NaN, an infinity or stay in a recursion for ever depends on the formula, for every period.", "anchors": ["btalib/indicators/rsi.py:rsi", "btalib/indicators/kama.py:kama", "btalib/indicators/stochastic.py:stochf", "btalib/indicators/directionalmove.py:dx", "btalib/indicators/macd.py:macd", "btalib/meta/lines.py:Line"]}
{"id": "C114", "title": "Settings are what they were last set to, and calls follow them", "statement": "Each setting of the library (columns configured for input names, configured columns first, form of results, ta-lib compatibility) has the value it was last given, whatever other settings were changed, read or calls made in between. What get_input_indices returns is a snapshot: changing it does not change the setting and later settings do not change it; passing it to set_input_indices puts the configuration back. A column configured by name is found in every DataFrame which has it. Calls return a DataFrame exactly when 'df' or 'dataframe' was last set, and run in ta-lib mode as the call says (_talib=True or False) or else as was last set.", "quantifier": "all programs of settings, readings, changes of what was read and calls of any indicators (failing or not), in any order", "why_tests_cant": "Ranges over all histories of interleaved settings and calls, and over what a user may do to an object which was handed out; tests set one option and make one call.", "anchors": ["btalib/config.py:12-67", "btalib/indicator.py:98", "btalib/indicator.py:175-181", "btalib/meta/inputs.py:108-131", "btalib/meta/lines.py:402-419"]}
{"id": "C115", "title": "Conditions written with python's and, or, not, chained comparisons, in, min and max", "statement": "A python expression which combines conditions on lines or indicators - chained comparisons (low <= close <= high), and, or, not, if, all, any, membership in a list, the builtins max and min - takes every operand into account in every bar, or is refused as pandas refuses it; in particular low <= close <= high is in each bar whether both comparisons hold.", "quantifier": "all lines and indicators, all values, all lengths, all comparisons, chains and lists of any length", "why_tests_cant": "All data and all expressions; the results have the right type and length and are often right, so that example data seldom shows which operand was ignored.", "anchors": ["btalib/meta/lines.py:108-134", "btalib/meta/lines.py:493-494", "btalib/meta/linesholder.py:40-44", "btalib/meta/linesholder.py:74-75", "btalib/meta/linesops.py:32-56"]}
{"id": "C116", "title": "Rounding errors of exponential averages do not add up", "statement": "The exponential averages ema and smma compute each value from the value of the bar before, in double precision. For finite data of size at most B (away from overflow and from subnormal numbers) and a period p up to 2^20, every value of the result, on however long a history, is finite and differs from the exact average of the data by at most 30 p 2^-53 B. The lines derived from them (dema, tema, apo, macd with its signal and histogram, atr from highs, lows and closes) keep a bound of the same kind. Two histories which agree from some bar on give, k bars later, values which differ by at most 2 B (1 - 2/(p+1))^k + 60 p 2^-53 B. Running totals (obv) have no such bound: their error is at most 3 k^2 2^-53 B after k summands (up to 2^30 bars), and with volumes up to 2^53 the error exceeds any number if the history is long enough.", "quantifier": "every number of bars, every finite data column of doubles with any minimum period, every size B between 2^-1022 and 2^980, every period from 1 to 2^20; for the limit: every number N", "why_tests_cant": "errors which grow with the number of bars show only in histories longer than those of any test, and a test compares with a tolerance instead of a bound valid for all data", "anchors": ["btalib/indicators/ema.py:37-39", "btalib/indicators/smma.py:39-41", "btalib/indicators/dema.py:32-35", "btalib/indicators/tema.py:35-39", "btalib/indicators/macd.py:39-47", "btalib/indicators/obv.py:42-49", "btalib/meta/lines.py:253-308", "btalib/indicators/atr.py:118-119", "btalib/indicators/ppo.py:48-49"]}
{"id": "C117", "title": "What a call with keywords calculates", "statement": "An indicator called without keywords calculates what is documented with the documented default of every parameter. Keywords may be given in any order; giving a parameter its default changes nothing; a keyword which is neither a parameter of the indicator nor taken by one of its initialisers is refused with TypeError, whatever else is given.", "quantifier": "every public indicator of the library (mavp and truehigh excepted for the default call), all keyword dictionaries, all data", "why_tests_cant": "Tests call each indicator with a few keywords on one data set; the claim ranges over every class, every dictionary of keywords and all data.", "anchors": ["btalib/indicator.py:79-181", "btalib/meta/params.py:76-132", "btalib/indicators/macd.py:30-60", "btalib/indicators/bbands.py:23-42"]}
{"id": "C118", "title": "Every declared parameter has an effect", "statement": "For every parameter an indicator declares there are data and two admissible values for which the results differ; a class given where a moving average, deviation or accumulation is asked for is the one which is used.", "quantifier": "every declared parameter of every public indicator, all values, keywords and data", "why_tests_cant": "That a parameter is ignored is a statement about all values and all data; tests pass one value and cannot see that others would give the same.", "anchors": ["btalib/indicators/bbands.py:23-37", "btalib/indicators/cci.py:28-41", "btalib/indicators/correl.py:20-31", "btalib/indicators/madev.py:23-31", "btalib/indicators/trima.py:26-39", "btalib/indicators/t3.py:63-108", "btalib/indicators/wma.py:26-40", "btalib/indicators/ewma.py:27-35", "btalib/indicators/directionalmove.py:71-101"]}
{"id": "C119", "title": "ta-lib compatibility changes the documented defaults and nothing else", "statement": "A call with _talib=True is the call without it in which the documented ta-lib defaults stand for the parameters not given, except for the indicators documented to calculate in another way (linearreg_intercept, plus_di, minus_di, di, dx, adx, adxr, macd, stochrsi, obv); it has no effect on the other indicators or if the changed parameters are given. _talib=False is the same as nothing, and the global setting is the same as giving _talib=True in every call.", "quantifier": "every indicator, all keywords (averages included) and all data", "why_tests_cant": "The equality of two calls for all keywords and data cannot be tested; tests compare defaults with ta-lib on one data set.", "anchors": ["btalib/indicator.py:97-141", "btalib/config.py:10-60", "btalib/indicators/macd.py:39-60", "btalib/indicators/kama.py:68-85", "btalib/indicators/mathop.py:225-236", "btalib/indicators/stochrsi.py:42-79"]}
{"id": "C120", "title": "A call finds its inputs in the data and gives the documented outputs", "statement": "Called with a data frame in which each input of the indicator is a column (in any order, upper or lower case, with other columns between), an indicator calculates with exactly these columns; with one series, line or result per input, with these in the order of the inputs; with one result having as many outputs as there are inputs, with its outputs in order. The indicators documented to take the middle of high and low also take one series; others with several inputs refuse a single series, and arguments left over are refused. Inputs whose name is neither a column nor configured take the first columns of the frame. A result has one line for each documented output.", "quantifier": "every public indicator, all frames, column orders and letter cases, all data and all keywords", "why_tests_cant": "Tests pass one frame in the usual order; that the binding is right for every order, number and case of columns, and for every indicator, is a statement about all of them.", "anchors": ["btalib/meta/inputs.py:25-148", "btalib/meta/outputs.py:18-30", "btalib/indicator.py:97-160", "btalib/config.py:10-60"]}
{"id": "C121", "title": "Every call keeps the promises of the library", "statement": "Whatever indicator is called with whatever usable keywords (periods not 0, averages given by class, ta-lib compatibility or not): each output has exactly the bars of the data and a minimum period of at least 1; nothing is delivered before the minimum period (unless ewma is used); rows added to the data, also at the end of a data frame, neither make the call fail nor change any value already shown; and on inputs which start later the same values come later. The documented defaults of every indicator are usable.", "quantifier": "every public indicator, all usable keywords and combinations of averages, all data, all frames and column orders", "why_tests_cant": "Tests call each indicator with its defaults on one data set; that no combination of keywords, averages and data repaints or delivers early cannot be enumerated.", "anchors": ["btalib/indicator.py:79-181", "btalib/meta/lines.py:207-330", "btalib/meta/inputs.py:39-148", "btalib/indicators/ema.py:30-39", "btalib/indicators/macd.py:39-60"]}
{"id": "C122", "title": "The help text tells the truth", "statement": "The help text of an indicator class (help(btalib.x), x.__doc__) consists of its docstring followed by all its aliases, inputs and outputs, each of its parameters with the default value and the documentation, and the remarks on ta-lib compatibility; nothing is lost by breaking lines, each parameter has a line of its own, and the default which is stated is the value a call without this keyword uses.", "quantifier": "all classes, of the library or defined by users: all docstrings, names, defaults and documentation of parameters of any length; all calls", "why_tests_cant": "The texts of the library are a sample; the way lines are broken depends on the length of every word.", "anchors": ["btalib/meta/docs.py:15-29", "btalib/meta/docs.py:32-35", "btalib/meta/docs.py:38-93", "btalib/meta/aliases.py:23-33", "btalib/meta/params.py:76-122", "btalib/indicator.py:61-66"]}
{"id": "C123", "title": "Reading results changes no data", "statement": "Reading results (`ind.series`, `ind.x.series`, iteration, `ind.df`) changes no value of any Series; the Series one gets has the name and the values of the line it is read from and keeps its name; the Series of the caller keep their names; `ind.df` has one column per output, under its name, and is the same each time it is asked for.", "quantifier": "all histories of calls, assignments of lines to other lines and reads, in any order, for any sharing of Series between lines", "why_tests_cant": "Effects on names depend on what else shares the Series and on the order in which lines are read.", "anchors": ["btalib/meta/lines.py:423-453", "btalib/meta/lines.py:510-512", "btalib/meta/linesholder.py:13-40", "btalib/meta/linesholder.py:90-102"]}
{"id": "C124", "title": "Whether a call raises does not depend on the values", "statement": "For a given indicator and given keywords, whether a call gives a result or raises, and which exception it raises, depends on the number of bars (and on where the data start) only, never on the values: not on prices, NaN or infinities. On plain series a call either always raises the same exception, or there is one number of bars from which on it always gives a result and below which it always raises an IndexError; without keywords these numbers are known for every indicator.", "quantifier": "every public indicator, all usable keywords, all data and all numbers of bars", "why_tests_cant": "A test shows that one series of one length gives a result; that no values of that length make the call fail, and that no length beyond the threshold does, ranges over all data.", "anchors": ["btalib/indicator.py:79-181", "btalib/meta/lines.py:207-383", "btalib/indicators/ema.py:30-39", "btalib/indicators/kama.py:kama", "btalib/indicators/sar.py:sar"]}
{"id": "C125", "title": "The average with variable period shows the averages asked for", "statement": "From its first bar on, mavp shows at each bar what the average with the period asked for at this bar (restricted to the allowed range) shows there. It begins where all averages asked for have begun, no later. It raises exactly if one of these averages raises. Bars added later change no value shown, except that the result may begin later; with ta-lib compatibility and an average which needs no more bars than its period, nothing changes at all.", "quantifier": "all moving averages, bounds, price series (NaN and infinities included) and period series, in any arithmetic, exact or rounded", "why_tests_cant": "The average at a bar is chosen by data; the claim is about every series of periods, and about every continuation of the data.", "anchors": ["btalib/indicators/mavp.py:10-16", "btalib/indicators/mavp.py:47-61"]}
{"id": "C126", "title": "Averages within indicators are the averages one can call", "statement": "An indicator with a choice of average gives what its documented formula gives, written by the user with calls of the public classes and operators between lines: the average used is the class given as keyword (or by default) called with the period given as keyword (or by default) on the line in question. This holds for dema, tema, trix, apo, ppo, ppofast, macd, rsi, cmo, bbands, cci, stochf, stochastic, stochrsi, atr, natr, adosc and mavp.", "quantifier": "all keywords, with and without ta-lib compatibility (macd and stochrsi: without), all averages of the library, all data, any arithmetic", "why_tests_cant": "The combinations of indicators, averages and keywords are many, and equality is claimed for all data, NaN and infinities included.", "anchors": ["btalib/indicator.py:79-181", "btalib/indicators/mavp.py:47-61", "btalib/indicators/macd.py:39-48", "btalib/indicators/ppo.py:21-25", "btalib/indicators/dema.py:32-35", "btalib/indicators/rsi.py", "btalib/indicators/atr.py:118-119"]}
{"id": "C127", "title": "Indicators documented in terms of each other agree", "statement": "Indicators which the documentation defines through other indicators of the library give exactly what one gets by calling those with the same keywords and combining the results with the documented operators: di is plus_di and minus_di, dm is plus_dm and minus_dm, dx is 100*abs(pdi-mdi)/(pdi+mdi), adx is the average of dx, adxr is the mean of adx and the adx some bars ago, natr is 100*atr/close, aroonosc is up minus down of aroon, minmax is min and max, minmaxindex is minindex and maxindex, rocp, roc and rocr100 follow from rocr, midpoint is midprice of one line, linearreg_angle is the angle of linearreg_slope, and midprice, williamsr, trima, gdema, t3, ultimateoscillator and mfi are their formulas over max, min, sma, ema, sum, truerange, truelow and typprice. Where the parts are called with the same keywords they also raise in the same cases.", "quantifier": "all keywords and values of keywords, with and without ta-lib compatibility, all input lines, all arithmetics (exact or rounded)", "why_tests_cant": "a comparison of two results for some data and keywords says nothing about other keywords (private ones such as _alt, _prating, _accum included), other data, or the cases which raise", "anchors": ["btalib/indicators/directionalmove.py: dm, di, dx, adx, adxr", "btalib/indicators/atr.py: natr", "btalib/indicators/aroon.py: aroonosc", "btalib/indicators/mathop.py: minmax, minmaxindex", "btalib/indicators/roc.py", "btalib/indicators/midpoint.py", "btalib/indicators/linreg.py: linearreg_angle", "btalib/indicators/williamsr.py", "btalib/indicators/trima.py", "btalib/indicators/t3.py", "btalib/indicators/ultimateoscillator.py", "btalib/indicators/mfi.py", "btalib/indicator.py: Indicator.__call__"]}
{"id": "C128", "title": "Data of whole numbers behave like floats", "statement": "An indicator or a formula of lines applied to series of whole numbers (dtype int64, e.g. a volume, or prices in cents) has the same outcome as for the same series converted to floats: the same values and minimum periods, or the same exception; and a signal (the result of a comparison) counts as 1 or 0 in arithmetic. Violated: a signal with a warm-up times (plus, minus) an int number or a series of whole numbers always raises ValueError, as does its cumsum(), while the same with floats works; and mavp of closes of whole numbers delivers the averages cut to whole numbers. Every other indicator, and every formula in which signals meet only floats, has the property.", "quantifier": "all formulas built from inputs, arithmetic between lines and with ints or floats on either side, comparisons, logic, abs, pow(2), cumsum, shifts, differences, windows, exponential means and clips; all indicators of the catalogue with all parameters and averages; all data, each input of whole numbers or of floats, of any length; all minimum periods", "why_tests_cant": "Tests run on one file of floats (volume included); which mixture of dtypes, warm-ups and operations raises or cuts values depends on the formula and is open-ended.", "anchors": ["btalib/meta/lines.py: binary_op, standard_op, multifunc_op call_op (astype(r.dtype)), Line._apply", "btalib/meta/linesops.py: _BINOPS, _STDOPS", "btalib/indicators/mavp.py: _mavp", "btalib/indicators/*.py: __init__"]}
{"id": "C129", "title": "Refused inputs and only those are an InputsError", "statement": "A call of an indicator ends with an InputsError exactly if its inputs cannot be bound, and the text tells which of the reasons it is: no input at all; a DataFrame with fewer columns than inputs are needed, or without a column which the configuration names for an input; another indicator with fewer outputs than inputs; anything else with one dimension where several inputs are needed. `except InputsError` and `except TaPyError` catch the same. Whatever else goes wrong (too few bars, unknown keywords, missing values, unsuitable averages) is an IndexError, ValueError, OverflowError, TypeError or AttributeError, never an InputsError.", "quantifier": "all classes, argument lists (series, frames, lines, indicators), keywords, configurations and data", "why_tests_cant": "The claim is an equivalence over all argument lists, configurations and parameters: that no calculation whatsoever raises the exception, and that each refusal has the text of its own reason.", "anchors": ["btalib/errors.py:InputsError", "btalib/errors.py:TaPyError", "btalib/errors.py:OneInputNeededZeroProvided", "btalib/errors.py:MultiDimSmall", "btalib/errors.py:MultiDimType", "btalib/errors.py:ColdIndexStrNotFound", "btalib/meta/inputs.py:_from_args", "btalib/meta/lines.py:_line_from_dataframe"]}
{"id": "C130", "title": "Periods add up", "statement": "What an indicator says about a longer period follows from what it says about shorter ones. The highest (lowest) of p values of the highest (lowest) over q bars is the highest (lowest) over p + q - 1 bars, for all data including NaN and infinities and in rounded arithmetic as well. Values q bars ago of values p bars ago are the values p + q bars ago. mom and sum over p + q bars are those over p bars plus, p bars ago, those over q bars; rocr over p + q bars is the product likewise, where no price is 0. The sum over p bars of the one-bar change is the change over p bars, and summing over p bars the change over q bars is the same as summing over q bars the change over p. Averages, sum and extremes over a period of one bar (sma, ema, smma, wma, dema, tema, trima, t3, gdema, sum, max, min) are the line itself with its minimum period; of sum, max, min, sma, wma and trima this holds in floating point to the last digit. Without the first k bars of the data, obv and ad differ from what they are with them by one number at all bars.", "quantifier": "all lines (for the extremes and delays with any values, else finite from the minimum period on), all numbers of bars, all periods p, q >= 1, both settings of the ta-lib compatibility", "why_tests_cant": "the identities relate calls with every pair of periods on every data and every length; a test fixes the periods and one file of prices", "anchors": ["btalib/indicators/mathop.py: max, min, sum", "btalib/indicators/mom.py: mom", "btalib/indicators/roc.py: rocr", "btalib/indicators/obv.py: obv", "btalib/indicators/ad.py: ad", "btalib/indicators/t3.py: t3, gdema", "btalib/meta/lines.py: Line.__call__"]}
{"id": "C131", "title": "Averages follow their input in floating point arithmetic", "statement": "In rounded arithmetic, with data which may be missing or infinite: if one series of data is nowhere above another one, then its sma, trima and rolling sum (each window summed by itself), wma, rolling maximum and minimum, mid point, mid price and its median, typical, average and weighted close prices are nowhere above those of the other one, wherever both are there; so is the recursive accumulation smacc, with any seed, if data are missing at the same bars. It is not so for ema and smma: in double precision a price raised by one unit in the last place can lower them, and they can fall below all the prices they average.", "quantifier": "all roundings which keep the order (IEEE double precision among them), all periods, all pairs of input lines with the same bars and minimum period, with missing and infinite values, all bars; for the counterpart, existence of data in double precision", "why_tests_cant": "It compares the results for every pair of inputs under every rounding; the counterpart is one unit in the last place at particular prices, within the tolerance of any test.", "anchors": ["btalib/indicators/sma.py:sma", "btalib/indicators/wma.py:wma", "btalib/indicators/trima.py:trima", "btalib/indicators/mathop.py:max, min, sum", "btalib/indicators/midpoint.py:midpoint, midprice", "btalib/indicators/price.py:medprice, typprice, avgprice, wclprice", "btalib/indicators/directionalmove.py:smacc", "btalib/indicators/ema.py:ema", "btalib/meta/lines.py:_ewm"]}
{"id": "C132", "title": "Every way of writing an operator", "statement": "For lines, indicators and numbers, `x + y`, `x += y` and the methods documented as the same (`x.add(y)`, `x.div(y)`, `x.divide(y)`, `x.subtract(y)`, ...) give one and the same line for + - * / // % **, bar by bar the sign of the values of both from the later minimum period on; with a number on the left (`c - x`) and in the methods with r (`x.rsub(c)`) the number is the left operand; the comparisons < <= > >= == != agree with their methods and, with a number on the left, are mirrored. Whatever else a pandas Series offers as a sign or function (`-x`, `~x`, `abs(x)`, `round(x)`, `c & x`) can be written too.", "quantifier": "all lines, indicators and numbers, all signs and all names of methods, any warm-up and contents", "why_tests_cant": "The tests use a few signs on fixed data; all signs, operands and data.", "anchors": ["btalib/meta/linesops.py:_BINOPS", "btalib/meta/lines.py:binary_op", "btalib/meta/linesholder.py:binary_op", "btalib/meta/linesops.py:_STDOPS"]}
{"id": "C133", "title": "Small errors in the data stay small in averages, extremes and ranges", "statement": "If two price histories differ by at most d at each bar, then the results of sma, ema, smma, wma and trima, of highest, lowest, midpoint, midprice and of the bar means (medprice, typprice, avgprice, wclprice), and of stddev (population form), differ by at most d at each bar; those of mom, apo, macd (line and signal), mad, truerange and atr by at most 2d, a sum over p bars by at most p d, the macd histogram by at most 4d, dema by at most 3d, the outer Bollinger bands by at most (1+|devs|) d, tema by at most 7d and t3 by at most (1+2v)^3 d. The periods do not matter and errors do not add up along the history, although ema and smma feed their results back. There is no such bound for rsi: for each d > 0, however small, there are two histories which differ by at most d and have rsi 100 and 0 at the same bar.", "quantifier": "all pairs of price histories, all lengths, all error sizes d, all periods, all bars (exact arithmetic); for macd, apo, atr all averages with this property", "why_tests_cant": "A statement about pairs of arbitrarily long histories and all sizes of error; recursive averages could add errors up slowly over long histories.", "anchors": ["btalib/indicators/sma.py:sma", "btalib/indicators/ema.py:ema", "btalib/indicators/smma.py:smma", "btalib/indicators/dema.py:dema", "btalib/indicators/tema.py:tema", "btalib/indicators/t3.py:t3", "btalib/indicators/macd.py:macd", "btalib/indicators/atr.py:atr", "btalib/indicators/rsi.py:rsi", "btalib/indicators/stddev.py:stddev", "btalib/indicators/bbands.py:bbands"]}
{"id": "C134", "title": "What averages show in a steady trend", "statement": "If prices rise (or fall) by the same amount each bar, sma, ema, trima and midpoint show, from their first value on, the price of (p-1)/2 bars ago, wma that of (p-1)/3 bars ago, dema and tema the price of the bar itself, t3 that of 3(1-v)(p-1)/2 bars ago; smma starts (p-1)/2 bars behind and falls back towards p-1 bars. apo and macd are constant (slope times half the difference of the periods), so is the signal, and the macd histogram is zero. mom is slope times period, the highest and lowest prices are the two ends of the window, and the variance is slope^2 (p^2-1)/12.", "quantifier": "all slopes and starting prices, all lengths, all periods, all minimum periods of the data, all bars from the first value on (exact arithmetic)", "why_tests_cant": "An exact law over all slopes, periods and lengths; a wrong weight, factor or seed shows up as a lag which changes along the history and can be too small to be seen in a test.", "anchors": ["btalib/indicators/sma.py:sma", "btalib/indicators/ema.py:ema", "btalib/indicators/smma.py:smma", "btalib/indicators/wma.py:wma", "btalib/indicators/trima.py:trima", "btalib/indicators/dema.py:dema", "btalib/indicators/tema.py:tema", "btalib/indicators/t3.py:t3", "btalib/indicators/macd.py:macd", "btalib/indicators/mom.py:mom", "btalib/indicators/var.py:var"]}
{"id": "C135", "title": "Averages of spreads, of changes and of averages", "statement": "For sma, wma, trima and rolling sums: the average of a sum or difference of two lines is the sum or difference of their averages, the average of momentum is the momentum of the average, the average of a delayed line is the delayed average, and two averages can be applied in either order; the results are the same lines (values, bars and minimum period), also if the two lines start at different bars. For ema, smma, dema, tema, gdema, t3 (in both forms), apo and macd (line, signal, histogram) sums and differences of lines which start at the same bar are averaged line by line; if they start at different bars, or if the order of averages, or of average and momentum, is exchanged, the results of the exponential averages differ, since they start with a mean of the first values.", "quantifier": "all pairs of lines with finite values, all lengths, minimum periods and periods (exact arithmetic)", "why_tests_cant": "An equation between two programs for all pairs of histories; the seed of the recursion makes it fail only for lines with different starts.", "anchors": ["btalib/indicators/sma.py:sma", "btalib/indicators/wma.py:wma", "btalib/indicators/trima.py:trima", "btalib/indicators/ema.py:ema", "btalib/indicators/smma.py:smma", "btalib/indicators/dema.py:dema", "btalib/indicators/tema.py:tema", "btalib/indicators/macd.py:macd", "btalib/indicators/mom.py:mom", "btalib/meta/lines.py:Line", "btalib/indicators/t3.py:t3, gdema"]}
{"id": "C136", "title": "What one wrong price does", "statement": "If one price is wrong by d, sma is wrong by d/p at this bar and the p-1 following ones and right afterwards; wma by d times p, p-1, ..., 1 over p(p+1)/2, trima by d times the triangular weights, a rolling sum by d, each for these p bars only; mom is wrong by d at this bar and by -d p bars later. ema and smma stay wrong: by 2d/(p+1) (d/p for smma) at the bar, or d/p at the first value if the price is among those it is the mean of, and 1-2/(p+1) (1-1/p) times less at each following bar. No value before the wrong price changes.", "quantifier": "all histories, all bars of the wrong price, all sizes of the error, all periods, lengths and minimum periods (exact arithmetic)", "why_tests_cant": "An exact law for each position of the wrong price and each later bar, without a bound on the length of the history.", "anchors": ["btalib/indicators/sma.py:sma", "btalib/indicators/wma.py:wma", "btalib/indicators/trima.py:trima", "btalib/indicators/ema.py:ema", "btalib/indicators/smma.py:smma", "btalib/indicators/mom.py:mom", "btalib/meta/lines.py:Line"]}
{"id": "C137", "title": "Prices on another scale", "statement": "If the prices are shown on another scale which keeps their order (a logarithmic one, another unit, any increasing function), maxindex, minindex, minmaxindex, aroon, aroonosc and obv show the same lines, and crossup/crossdown of two lines which are both shown on the new scale give the same signals; max (highest) and min (lowest) show the extremes on the new scale. This is not so for indicators which compare the sizes of moves, as rsi.", "quantifier": "all pairs of histories whose bars are in the same order, all lengths, minimum periods and periods, both readings of a cross (exact arithmetic)", "why_tests_cant": "It compares all pairs of histories related by any increasing function, at every bar.", "anchors": ["btalib/indicators/mathop.py:maxindex", "btalib/indicators/mathop.py:minindex", "btalib/indicators/mathop.py:minmaxindex", "btalib/indicators/aroon.py:aroon", "btalib/indicators/aroon.py:aroonosc", "btalib/indicators/obv.py:obv", "btalib/indicators/crossover.py:crossup", "btalib/indicators/crossover.py:crossdown", "btalib/indicators/mathop.py:max", "btalib/indicators/mathop.py:min"]}
{"id": "C138", "title": "The adaptive average adapts as documented", "statement": "From each bar to the next kama goes a part of the way from its value to the new price, and the part follows the market: it is never less than the squared smoothing factor of the slow exponential average and never more than that of the fast one, it is the fast one exactly if prices moved in one direction only in the last p bars, and the slow one exactly if the price is where it was p bars ago. The first value is one such step from the average of the first p prices (or the last of them, if chosen as seed). In a steady trend kama therefore falls back from the lag of its seed to (1-c)/c bars, where c is the squared fast factor.", "quantifier": "all histories which move in each period, all periods p >= 1, all fast periods below the slow one, both seeds, all bars; volatility of one bar changes (the default); exact arithmetic", "why_tests_cant": "The direction and efficiency of each window decide over the step; the exact conditions range over all price paths.", "anchors": ["btalib/indicators/kama.py:kama", "btalib/meta/lines.py:Line"]}
{"id": "C139", "title": "Two lines compared: correl and beta", "statement": "correl does not depend on the order of two lines which begin at the same bar. Where both lines moved in the last p bars it is 1 exactly if the one is a positive multiple of the other plus a fixed amount in these bars, and -1 exactly if it is a negative multiple. beta (of prices, without _rets) of a line which moves u times as much as the first line is u; beta of a combination of two lines is the combination of their betas, at every bar; the product of the betas of two lines against each other is the square of their correlation; and linreg_slope is the beta of the line against the number of the bar.", "quantifier": "all pairs of histories, lengths, minimum periods, all periods p >= 2 (beta: p >= 1) and all bars (exact arithmetic with an exact square root)", "why_tests_cant": "Laws which relate the results for all pairs and combinations of histories; the 'exactly if' speaks about every pair of lines with correlation 1.", "anchors": ["btalib/indicators/correl.py:correl", "btalib/indicators/beta.py:beta", "btalib/indicators/linreg.py:linearreg_slope"]}
{"id": "C140", "title": "How far the price can be from its average", "statement": "bbands around a simple average contain all prices of the window if the square of devs is at least period-1, and for each smaller devs there is a market which closes outside of them. cci is never further from 0 than period/(2*factor) (2000/3 by default), and reaches this. mad is at most the standard deviation, and this at most half of the distance between max and min. For positive prices ppo is above -100 and at most 100*(2*pslow/(pfast+1)-1) (300 by default), or 100*(pslow/pfast-1) with simple averages, and roc is above -100.", "quantifier": "all histories, lengths, minimum periods, periods, all devs and positive factors, all bars (exact arithmetic with an exact square root)", "why_tests_cant": "These are the greatest possible values over all histories; a sample of histories shows neither that they are never exceeded nor for which parameters.", "anchors": ["btalib/indicators/bbands.py:bbands", "btalib/indicators/cci.py:cci", "btalib/indicators/madev.py:mad", "btalib/indicators/ppo.py:ppo", "btalib/indicators/roc.py:roc"]}
{"id": "C141", "title": "A market which only rises or only falls", "statement": "Of prices which never fall, sma, ema, smma, wma and trima (and averages of these averages) never fall and are never above the price, so the price never crosses below them; so does kama, if the price moves in each period; macd and apo (the faster average minus the slower one) are never negative, nor are mom and linreg_slope; if highs and lows never fall, the negative directional movement is 0 and minus_di is 0 (or NaN while the true range is 0). If prices rise from bar to bar, rsi is 100, aroon up 100, aroon down 0, obv grows by the whole volume of each bar, and mfi is 100 (positive prices and volumes). Of prices which never rise the averages (kama too) never rise and are never below the price, and macd and apo are never positive; if they fall from bar to bar rsi is 0, aroon up 0 and aroon down 100. In floating point arithmetic the rolling sum, maximum, minimum and sma, wma and trima of prices which never fall never fall either (missing bars aside); ema and smma can fall there, in the last digit, although the price does not.", "quantifier": "all such histories, all lengths, minimum periods and periods (fast period not above the slow one), all bars (exact arithmetic; the last sentence: any monotone rounding, each window summed by itself)", "why_tests_cant": "It speaks about all monotone histories of any length; that the faster exponential average is above the slower one needs an induction over the seeds and the recursion.", "anchors": ["btalib/indicators/sma.py:sma", "btalib/indicators/ema.py:ema", "btalib/indicators/macd.py:macd", "btalib/indicators/ppo.py:apo", "btalib/indicators/rsi.py:rsi", "btalib/indicators/aroon.py:aroon", "btalib/indicators/obv.py:obv", "btalib/indicators/mfi.py:mfi", "btalib/indicators/directionalmove.py:minus_di", "btalib/indicators/linreg.py:linearreg_slope", "btalib/indicators/kama.py:kama"]}
{"id": "C142", "title": "A market which repeats itself", "statement": "If prices repeat themselves every q bars, g higher each time (a season of q bars with a trend), then sma over k*q bars is a straight line which rises by g/q per bar, and so is trima with (period+1)//2 = k*q; mom over k*q bars is k*g. ema and smma repeat themselves from season to season, g higher, but for a difference which each bar multiplies by 1-2/(p+1) or 1-1/p. Without a trend (g = 0) roc over k*q bars is zero, rsi with simple averages over k*q bars is 50 (NaN only if no price in the window moved), and every output of every indicator calculated over windows has equal values at bars i and i+q, for all kinds of values, floats too.", "quantifier": "all seasons q, trends g, numbers of seasons k, lengths, periods and minimum periods of the data, all bars; for the last sentence all window calls with all parameters", "why_tests_cant": "Ranges over all periodic price histories of all lengths and over all window indicators with all their parameters.", "anchors": ["btalib/indicators/sma.py:sma", "btalib/indicators/trima.py:trima", "btalib/indicators/mom.py:mom", "btalib/indicators/ema.py:ema", "btalib/indicators/smma.py:smma", "btalib/indicators/rsi.py:rsi", "btalib/indicators/roc.py:roc"]}
{"id": "C143", "title": "Positions from crosses", "statement": "The signals of crossup and crossdown (not strict) can be used to hold positions: no change of sides is missed (if the first line was below the second at one bar and is above it at a later one, crossup has signalled in between, at the latest at the later bar; likewise crossdown); upward and downward signals alternate; from an upward signal until the next downward one the first line is never below the second, and vice versa; added up from any bar on, the signals give -1, 0 or 1. With strict exactly those signals remain before which the lines were on the other side at the bar just before, so that a change of sides with a touch in between is not signalled.", "quantifier": "all pairs of lines, all minimum periods and lengths, all pairs of bars, all numbers of equal bars in between", "why_tests_cant": "Speaks of all pairs of bars in all histories; a single missed or doubled signal after some pattern of ties would leave a position open for ever.", "anchors": ["btalib/indicators/crossover.py:crossup", "btalib/indicators/crossover.py:crossdown"]}
{"id": "C144", "title": "How measures of spread compare", "statement": "At every bar the indicators of spread agree with each other as their definitions say: mad is at most stddev; the square of stddev is at most (highest - sma) * (sma - lowest), so stddev is at most half of highest - lowest, and the Bollinger bands are at most devs * (highest - lowest) apart; (period - 1) times the sample variance is period times the variance. The absolute changes from bar to bar over p bars add up to at least highest - lowest of the p + 1 prices, which is at least the absolute momentum over p bars. For bars with low <= close <= high the true ranges of p bars add up to at least the highest high minus the lowest low of these bars and to at least the absolute momentum of the close.", "quantifier": "all data, all periods, all lengths and minimum periods, all bars, all averages in the middle of the bands, all devs >= 0", "why_tests_cant": "Inequalities between outputs of different indicators for all prices; a wrong divisor or a window shifted by one bar breaks them only for some data.", "anchors": ["btalib/indicators/madev.py:mad", "btalib/indicators/stddev.py:stddev", "btalib/indicators/bbands.py:bbands", "btalib/indicators/mom.py:mom", "btalib/indicators/atr.py:truerange"]}
{"id": "C145", "title": "Bars filled forward and bars recorded several times", "statement": "Where a data provider repeats the last bar because there was no trade, crossup and crossdown (strict or not) give no signal in the repeated bars and in all others the signal they give without the repetitions, and the on balance volume is at every bar what it is without the repetitions, whatever volumes the repeated bars carry. If every bar is recorded k times, then at the last record of each bar sma, highest, lowest, var, stddev, mad, mom and rsi (simple average) with k times the period show what they show for the bars themselves, and sum shows k times as much.", "quantifier": "all data, all patterns of repetitions, all numbers k of records, all periods, all lengths, all bars", "why_tests_cant": "Ranges over all patterns of repeated bars; a tie treated as a new move shows only for particular patterns.", "anchors": ["btalib/indicators/crossover.py:crossup", "btalib/indicators/crossover.py:crossdown", "btalib/indicators/obv.py:obv", "btalib/indicators/sma.py:sma", "btalib/indicators/stddev.py:stddev", "btalib/indicators/rsi.py:rsi"]}
{"id": "C146", "title": "Values updated from bar to bar", "statement": "sum, sma, var, stddev, highest and lowest are computed by pandas with running values: the new bar is added, the bar which leaves the window is removed. What they show at a bar is nevertheless the sum, mean, variance, standard deviation, greatest and least of the last values, whatever values, also missing ones, came before, and NaN only where the window is not full or has a missing value. In double precision this must hold as well, so that one absurd price disappears from the results once it has left the window. The oscillators made of such sums (mfi, ultimateoscillator, cmo) are those of the sums over each window, so that they stay within their ranges and show no number where the price stands still. With prices in whole units (e.g. cents) the sums are exact, the simple average is the exact average rounded once and within the prices of its window, cmo is within -100..100 and the ultimate oscillator within 0..100.00000000000001.", "quantifier": "all data with missing values at any bars, all periods, all bars; all lengths of the history after an absurd price", "why_tests_cant": "Ranges over all histories: errors of updated values pile up and do not fade, which no short history shows.", "anchors": ["btalib/indicators/sma.py:sma", "btalib/indicators/mathop.py:sum", "btalib/indicators/mathop.py:max", "btalib/indicators/mathop.py:min", "btalib/indicators/var.py:var", "btalib/indicators/stddev.py:stddev", "btalib/indicators/mfi.py:mfi", "btalib/indicators/ultimateoscillator.py:ultimateoscillator", "btalib/indicators/cmo.py:cmo"]}
{"id": "C147", "title": "The chart read backwards", "statement": "Run on the same bars in reverse order, sum, sma, trima, highest, lowest, mad, var, stddev, correl and beta (of prices) show for every window the same value as on the original chart. The momentum and the slope of the linear regression change their sign, the regression and its intercept (value at the first bar of the window) change places, and so do the forecast for the next bar and the value before the first bar. A strict crossing upwards becomes a strict crossing downwards at the bar on the other side of the step. Not so for weighted averages and for crossings which pass through equal bars.", "quantifier": "all data, all numbers of bars, all periods, all windows within the data", "why_tests_cant": "Relates two runs on arbitrary data of arbitrary length; a window which is off by one at one end is visible in the mirror only.", "anchors": ["btalib/indicators/sma.py:sma", "btalib/indicators/trima.py:trima", "btalib/indicators/mathop.py:sum", "btalib/indicators/mathop.py:max", "btalib/indicators/mathop.py:min", "btalib/indicators/madev.py:mad", "btalib/indicators/var.py:var", "btalib/indicators/stddev.py:stddev", "btalib/indicators/linreg.py:linearreg", "btalib/indicators/mom.py:mom", "btalib/indicators/correl.py:correl", "btalib/indicators/beta.py:beta", "btalib/indicators/crossover.py:crossup"]}
{"id": "C148", "title": "Questions asked of a whole line", "statement": "max and min of a line are the greatest and the least value it has delivered, idxmax and idxmin the first bar which shows them; count is the number of bars delivered and first_valid_index the first of them; the greatest of all highest values of windows is the greatest value of the line, and likewise for the lowest; the changes from bar to bar add up to the last delivered value less the first; dot adds the products over the bars which both lines have delivered, in either order. all, any and sum of a comparison tell of the bars which both sides have delivered and not of the warm-up, where the line shows True. The claim fails after a forward shift, which leaves a minimum period below 1: max and min are NaN, count is 0 and there is no greatest bar, whatever the data.", "quantifier": "all lines of numbers with minimum period at least 1 and any length, all windows, all pairs of lines, any contents of the warm-up; all data and all forward shifts in the negative part", "why_tests_cant": "The tests call none of these; that the warm-up is never counted must hold for all contents of it and all minimum periods.", "anchors": ["btalib/meta/lines.py: reduction_op", "btalib/meta/linesops.py: _REDOPS"]}
