{
 "C06": {
  "status": "partial",
  "note": "The property fails as stated (C06_swap_fails): with a result of several outputs, 'x op result' is a line and 'result op x' a result; their minimum periods differ when another output starts later than the first one and x. Proved: C06_swap_partial (lines), C06_holder_partial (no output starts later than the later of the first output and x)."
 },
 "C07": {
  "status": "partial",
  "note": "The property fails: C07_reuse_inflates, C07_second_use_differs and C07_ewm_inflates show that a second use of a window object differs. C07_histories: for any history of reading attributes, calling operations and _seeded, the values are those of a fresh object and the minimum period is a closed formula of the number of reads; C07_right_partial: exactly when it is right. Operations are pure here (pandas functions which change the data in place are not used on a kept object by the library)."
 },
 "C08": {
  "status": "partial",
  "note": "Backward shifts hold for k >= 1; C08_zero_is_nan and C08_forward_shift_lost are counterexamples to the full statement."
 },
 "C12": {
  "status": "partial",
  "note": "The property is violated: seeded averages and sar raise an IndexError. C12_raises_below gives, for every call of the catalogue (all seeds, kama and mama included) and any minimum periods of the inputs, the exact number of bars below which it raises (0 for those which never do; more than there are if no number is enough, as for kama and mama of data which start late); C12_indicators_partial the NaN lines of those which give a result; C12_defaults the numbers for the default parameters. Left out: crossover, which always raises (C37), and the four Hilbert indicators which look back a calculated number of bars (C108). C124 lifts it to calls with keywords."
 },
 "C65": {
  "status": "partial",
  "note": "Fails in the warm-up: comparisons of lines are True there, whatever the values and whatever the operands (C65_any_warmup_true; for whole expressions C65_comparison_warmup_true). From the minimum period on they are right (C65_delivered_partial)."
 },
 "C48": {
  "status": "proved",
  "note": "Exact numbers: C48_apo, C48_ppo (slow average not 0). Floating point numbers with whatever data, division by 0 included: C48_apo_bars, C48_ppo_bars. ppofast is C68."
 },
 "C68": {
  "status": "partial",
  "note": "The property fails: the sign is reversed for all data (C68_ppofast_sign proves the exact delivered values)."
 },
 "C29": {
  "status": "partial",
  "note": "The property fails for all data and periods (C29_one_bar_late): without ta-lib compatibility +DI/-DI are one bar late. C29_values_partial proves the values from then on."
 },
 "C69": {
  "status": "partial",
  "note": "The property fails for all data: if the security moves k times as much as the market, the delivered value is 1/k (C69_reversed), because the code uses the first input as the x axis. C69_swapped_partial: with the inputs swapped the documented slope is delivered."
 },
 "C70": {
  "status": "partial",
  "note": "The property fails: the minimum period of the second input is ignored, for all data, periods and second inputs which start later (C70_too_early). C70_order_partial: holds if the first input is not earlier than the second."
 },
 "C37": {
  "status": "partial",
  "note": "The property fails for all data (C37_crossover_raises): crossover subtracts boolean series, a TypeError in numpy. C37_sum_partial: crossup + crossdown is the documented signal."
 },
 "C43": {
  "status": "partial",
  "note": "Relative positions hold for every input. The absolute index (ta-lib mode) is counted from the first bar where the input delivers: right for raw data, wrong at every bar for any input with minimum period > 1 (C43_absolute_wrong)."
 },
 "C42": {
  "status": "partial",
  "note": "Values after the warm-up are those of the average with the period of the bar; the warm-up depends on the greatest period anywhere in the series, also on later bars (C42_warmup_looks_ahead)."
 },
 "C19": {
  "status": "partial",
  "note": "Holds for raw data (minimum period 1) with moving prices. C19_raises: IndexError for every input with minimum period > 1; C19_flat_window: one window without price changes makes all later values NaN."
 },
 "C74": {
  "status": "partial",
  "note": "Violated for inputs with minperiod > 1 (C74_raises: IndexError for all data) and for constant series (C74_constant: always below a positive constant, because the recursion starts at 0). Proved for raw prices: recursion, bounds of alpha, range including the seed 0."
 },
 "C78": {
  "status": "partial",
  "note": "Violated: ewma delivers numbers before the minimum period it declares (C78_early, all data and periods >= 2). The recursion itself is proved (C78_partial), and for adjust=True the weighted mean (C78_adjusted)."
 },
 "C50": {
  "status": "partial",
  "note": "Violated: when a wanted column is missing, a column is taken by configured position even if it is the named column of another input (C50_stolen, all frames); names configured with upper case never match (C50_configured_case). Proved when every input name is a column, or names and positions do not collide."
 },
 "C51": {
  "status": "partial",
  "note": "Violated: the size tested is the number of bars, not of lines (C51_wrong_error, C51_false_alarm). Proved: a rejected call never binds (C51_rejected_partial), binding is in order (C51_in_order)."
 },
 "C53": {
  "status": "partial",
  "note": "Violated: the docs of an inherited parameter are lost (C53_doc_lost) and a tuple as default is corrupted (C53_tuple_default), for all declarations. Proved for non-tuple defaults and for own parameters."
 },
 "C55": {
  "status": "partial",
  "note": "Violated: with more than one alias pair all alias properties act on the last one (C55_late_binding). Proved for a single remapping and for the automatic mapping."
 },
 "C57": {
  "status": "partial",
  "note": "Violated: there is no try/finally around the initialisers, so a call which raises after its inputs were bound leaves metadata.callstack one longer; from then on every DataFrame is rejected by every indicator with several inputs (C57_poisoned) and results are never returned as DataFrame (C57_no_dataframe), for all histories. Proved: success and failures while binding inputs are neutral."
 },
 "C58": {
  "status": "partial",
  "note": "Violated by allowinputs (C58_allowinputs: the second input is ignored for ever after a call with one series) and by stochrsi in ta-lib mode (C58_appended_output), for all histories. Proved: after any history without those and without failing initialisers each call has the outcome it would have had at first (C58_history_partial)."
 },
 "C59": {
  "status": "partial",
  "note": "Violated: metadata is threading.local and its attributes are set at import, so in all other threads each call raises AttributeError (C59_other_threads, all schedules). Proved: the importing thread is not disturbed (C59_importer_partial)."
 },
 "C61": {
  "status": "partial",
  "note": "Violated by fifteen aliases (C61_hijacked, exact list) and three indicators without group (C61_ungrouped). Proved for all others, and in general who gets an alias and where a class is listed."
 },
 "C62": {
  "status": "partial",
  "note": "Violated by truehigh, for all data (C62_truehigh). Proved for all other classes of the library, over the table of accesses generated from the source."
 },
 "C81": {
  "status": "partial",
  "note": "Keywords: all but ewma and minmaxindex, which hand them on. Positional: all but ema, gdema, mad and stochrsi, which take the argument for an internal one (C81_taken)."
 },
 "C67": {
  "status": "proved",
  "note": "C67_unchanged: every program of the memory model that follows the ownership rules leaves all Series (values and name) and Line objects of the caller as they were, also on exceptions; C67_values: such programs compute what the functional models compute; C67_obv, _sar, _sarext, _ht_*, _mama give both for the initialisers which write in place, C67_mavp the first; C67_pure for initialisers which only make new lines. C67_reading_series_renames: reading .series of an input does rename the caller's Series (outside evaluation). Assumes that a slice of a Series is a view and that other pandas operations return new objects."
 },
 "C84": {
  "status": "partial",
  "note": "Every class of the library except mavp (C42, which looks ahead) and truehigh (C62, raises): C84_covers, C84_defaults. For the four Hilbert indicators which round the period the statement is false: a bar added without a price makes the whole call raise (C84_not_hilbert, C108). What holds for them, any prices: if the longer history gives a result, so did the shorter one, with the same values (C84_hilbert_partial, exact arithmetic). C84_early_smacc shows that the side condition on an early smacc is needed."
 },
 "C85": {
  "status": "proved",
  "note": "Windowed calls are listed by Call.Windowed (Spec/Catalog.lean)."
 },
 "C86": {
  "status": "proved",
  "note": "Averages with ewma excluded (C78: its values start before its minimum period). mavp: C86_mavp."
 },
 "C87": {
  "status": "proved",
  "note": "C87_missing_stays_missing (a missing value which is read makes the result missing) and C87_nothing_spread (without division, numbers in give a number out). The bars which are read are defined by Formula.Reads, by recursion on the formula. Added after the mutant 'clip replaces nan' of clipLo survived."
 },
 "C02": {
  "status": "proved",
  "note": "Line operations: C02_*; all indicator classes: C02_indicators, mavp: C86_mavp."
 },
 "C13": {
  "status": "partial",
  "note": "Proved for plain data and _pvol=1 (C13_kama_partial) and for the other averages. Fails for _pvol > 1 (C13_kama_pvol_fails: the average leaves the range of the prices); on a flat window it is NaN; on the output of another indicator kama raises (C19_raises)."
 },
 "C33": {
  "status": "proved",
  "note": "correl whose second input has the larger minimum period: C33_correl_later (values once both have filled a window; the bars before are C70). beta with returns: prices without zeros, a hypothesis of the theorem."
 },
 "C52": {
  "status": "partial",
  "note": "Fails for defaults which are tuples (C52_tuple_default_fails); proved for all other defaults (C52_resolution_partial)."
 },
 "C60": {
  "status": "partial",
  "note": "Fails for minmaxindex, which hands _talib on to its parts again (C60_given_back); proved for the other classes (C60_popped_partial)."
 },
 "C88": {
  "status": "proved",
  "note": "Exact arithmetic (Ext K) with infinities and NaN anywhere; square roots need sqrt(u^2 x) = u sqrt x (C88_root: real square root). mavp is not in the catalogue. C88_not_unit_free shows that the listed exceptions are exceptions."
 },
 "C89": {
  "status": "proved",
  "note": "C89_mirror: exact arithmetic (Ext K) with infinities and NaN anywhere. C89_rounded: the same with each step rounded (any sign-symmetric rounding, so binary64) for all these calls but avgprice, ad and adosc, which add prices in an order the turned chart changes; C89_rounded_order is a binary64 bar on which avgprice and ad differ. Stated for calls which give a result (the order in which two averages raise differs in the turned chart). C89_ultosc, C89_mfi and C89_roc: exact arithmetic, for data without missing values. C89_roc_rounded, C89_natr_rounded: the same in any sign-symmetric rounding, with missing values. C89_ppo and C89_trix (and the same with _rounded): any data for which the average in the denominator is never zero. Nothing is claimed of sarext, the phase of the Hilbert family and mavp."
 },
 "C90": {
  "status": "partial",
  "note": "Proved for all chains of classes (reading in outputs) and for the whole table of classes (attributes). False for the attribute of add, sub, div (a method hides the output), for df after an assignment, for 'size' in ind, for slices and for input1 of two-input operators: shown as negations."
 },
 "C91": {
  "status": "partial",
  "note": "Keyword periods proved for all lines; the other ways of writing a period raise or leave a wrong minimum period (negations for all lines)."
 },
 "C92": {
  "status": "partial",
  "note": "Proved for all lines with minimum period at least 1; after a forward shift the mean is NaN for all data (negation)."
 },
 "C93": {
  "status": "partial",
  "note": "Proved for min_periods as keyword or left out; by position the minimum period is too small (negation)."
 },
 "C94": {
  "status": "partial",
  "note": "Items, items to the right of an operator (C94_item_right) and front slices proved. Violated: line[i] is no number but a line object around one, and everything else asked of it raises (C94_item_negation: operators with it on the left, methods, reductions, iteration, len, truth value); back slices keep the old minimum period and hide values (C94_back_negation). For whole formulas and indicators see C01, C84."
 },
 "C95": {
  "status": "partial",
  "note": "Same values proved for rolling windows and element-wise operators; the minimum period is forgotten (negation for all lines), exponential averages change (example)."
 },
 "C96": {
  "status": "proved",
  "note": "C96_rule/C96_frame: the column of every input follows the rule (specified separately as an inductive relation over the columns taken before); C96_unique: the rule determines the column; C96_single for one input (configured numbers not negative; a configured name raises TypeError there)."
 },
 "C97": {
  "status": "partial",
  "note": "Proved for every call of the catalogue with usable periods that does not use kama, mama or absolute positions, in both directions (results and raises), with delivered parts and minimum periods adding up as corollaries. Missing because false: kama and mama raise IndexError on any line with a minimum period above 1 (C97_kama, C97_mama), and absolute positions are delivered from the first bar on (C97_absolute)."
 },
 "C98": {
  "status": "partial",
  "note": "Names, classes by name, groups, members, names by group: proved for all histories; the views agree if no name is used twice (C98_views_partial; met by the library, C98_library_views). False otherwise: a redefined class stays in its groups (C98_redefined), and get_ind_by_group hands out the library's own lists, appending to which breaks get_ind_names_by_group (C98_live)."
 },
 "C99": {
  "status": "partial",
  "note": "Names, aliases and their export: proved for all modules which do not mention __all__. False: other names of a module with an indicator are no longer exported by a star import (C99_others_lost; without indicators they are, C99_others_partial), and a module whose __all__ is a tuple cannot define an indicator (C99_tuple)."
 },
 "C100": {
  "status": "partial",
  "note": "Reading, setting and unknown names proved for all classes, keywords and names; the dictionary view for classes without a parameter called keys (C100_dict_partial). False: a parameter called keys breaks dict(p) and **p (C100_keys_param); the names of methods count as contained and their items are methods (C100_methods)."
 },
 "C101": {
  "status": "proved",
  "note": "Stated as Spec.Follows for two inputs; dema, tema, t3 and kama are shown not to follow on concrete data."
 },
 "C102": {
  "status": "proved",
  "note": "Spec.Forgets (uniform number of bars for bounded data, any Archimedean field) and Spec.Geometric (exact rate). rsi: with the necessary condition of a move in the last p bars; the example beside the theorem shows why. Exact arithmetic."
 },
 "C103": {
  "status": "proved",
  "note": "for every amount, call and data: outputs raised by the amounts of Spec.levelOut (C103_level), oscillators unchanged (C103_level_free); the calls left out are raised by no fixed amount on a chart (C103_not_level). Over exact arithmetic (Ext K): in floats a raised price is rounded. Not claimed: Hilbert transforms, mathematical functions, averages with seeds not taken from prices."
 },
 "C104": {
  "status": "proved",
  "note": "model Align.lean: series with dates; C104_ok_iff, C104_values, C104_both_orders, C104_compare, C104_late_start (for k bars NaN although both have values). pandas' alignment (outer join of increasing indices) and the length check of slice assignment are described, not modelled from source."
 },
 "C105": {
  "status": "partial",
  "note": "C105_any, C105_head, C105_tail, C105_dropna, C105_drop_duplicates, C105_append prove the claim; C105_nlargest and C105_nsmallest prove that it fails for these two (sorted values)."
 },
 "C106": {
  "status": "partial",
  "note": "C106_pointwise, C106_pointwise_more, C106_tests, C106_cumulative, C106_no_lookahead, C106_no_lookahead2, C106_no_lookahead_more prove the claim; C106_bfill_looks_ahead, C106_interpolate_looks_ahead, C106_isin_looks_ahead and C106_rank_looks_ahead are the negations; C106_interpolate says what interpolate shows; C106_tests shows the True of the warm-up. apply and combine with functions of numbers, replace with two numbers, interpolate with its defaults."
 },
 "C107": {
  "status": "partial",
  "note": "Proved for every rounding which keeps the order (structure Rounding, Float.lean; binary64 is shown to be one, and to be the arithmetic of IEEE 754: C107_binary64_nearest, C107_binary64_overflow, C107_binary64_numbers): rsi, stochrsi, aroon, aroonosc, bop, medprice, midprice, midpoint, wclprice. For the flows of ad: C107_ad_partial in double precision where the low is not below a quarter of the high, false without this condition (C107_not_ad). In double precision the claim is false for %K, %R, cmo, typprice, sma, ema, smma and ultimateoscillator (C107_not_*); what holds there is proved as C107_stochf_partial, C107_williamsr_partial, C107_cmo_partial, C107_dx_partial: at most one unit in the last place beyond. The indicators on rolling sums (mfi, cmo with its default sum, ultimateoscillator) are treated in C146, with the sums as pandas updates them."
 },
 "C108": {
  "status": "proved",
  "note": "For functions atan, sin, cos, int as in C41 (HtFns.Agrees: exact arithmetic, int(nan) raises, atan(nan) is nan). C108_early for ht_dcphase and ht_sine only: the trend line reads earlier raw prices. A window of the trend line with +inf and -inf among those earlier prices makes python's fsum raise too; the model gives nan there."
 },
 "C11": {
  "status": "proved",
  "note": "Exact arithmetic: any factor. Rounded arithmetic: the factor 1, the one smacc passes (C11_smacc_rounded for the whole indicator); another factor differs in double precision (C11_other_factors_differ). Assumes that scipy rounds each product and sum (no fused operations)."
 },
 "C109": {
  "status": "partial",
  "note": "Violated: the tables of minimum periods have the inputs and outputs of each call as keys and are never emptied, so all data given to a call and all outputs are kept whatever the user drops (C109_not_released, C109_grows). The object of a call which raises stays on the call stack for ever (C109_raised). C109_partial: else the indicator object itself is released. C109_result, C109_nested_result: nothing in use is released."
 },
 "C110": {
  "status": "partial",
  "note": "Violated: loc is iloc. Dates raise TypeError (C110_raises), integer labels are taken as positions (C110_numbers, exact condition), slices lack their last bar (C110_slice). C110_partial: single bars with an index 0, 1, 2, ... The value comes inside of a line object, see C94."
 },
 "C111": {
  "status": "proved",
  "note": "Flt R: any rounding with the laws of Float.lean and Spec.Gradual (no difference of different numbers is rounded to zero); binary64_gradual proves it for IEEE double precision, thanks to its subnormal numbers. Positions for periods up to 2^24."
 },
 "C112": {
  "status": "proved",
  "note": "Rounded arithmetic: any Rounding R. dm needs no hypothesis on the data; C112_bbands holds for any computed square root without negative results and any average whose results are stored numbers (sma, ema, smma: givesStored)."
 },
 "C113": {
  "status": "partial",
  "note": "Violated by kama (C113_kama_lost: no value ever again after a flat window; C19_flat_window). All others proved for constant lines of any length and minimum period: C113_averages, C113_differences, C113_oscillators, C113_dispersion, C113_levels, C113_movement, C113_no_value, C113_directional; values come back: C113_rsi_returns, C113_cmo_returns, C113_stochastic_returns (with williamsr), C113_cci_returns, C113_directional_returns (+di, -di, dx). beta and correlation of flat windows: C33_beta, C33_correl."
 },
 "C114": {
  "status": "partial",
  "note": "Proved for all programs: each setting is what it was last set to, what get_input_indices returned is a snapshot, DataFrames are returned as set (C114_return_partial: as long as no initialiser has failed, C57). Violated: passing a snapshot to set_input_indices does not remove names configured since (C114_restore_lost; otherwise it restores every call, C114_restore_partial), a column configured by a name with upper case letters is never found (C114_name_lost; lower case names are, C114_name_partial), and _talib=False does not switch the global ta-lib mode off (C114_mode_ignored; otherwise C114_mode_partial)."
 },
 "C115": {
  "status": "partial",
  "note": "Violated: lines have __len__ and no __bool__, so each condition with at least one bar is true: in a chain all comparisons but the last are ignored (C115_chain_lost, C115_chain_wrong), and/or/not/if/all/any do not look at values (C115_truth_lost), builtin max and min return their last argument (C115_builtin_lost), in is always true (C115_in_lost). Proved: (x < y) & (y < z) has the expected value in every delivered bar (C115_and_partial)."
 },
 "C116": {
  "status": "proved",
  "note": "Binary64 arithmetic (fl64, shown to be that of IEEE 754 by C107_binary64_nearest). Compared with the exact averages of Spec (C10, C16, C20). The seed is summed from left to right (Series.mean may use another order; the bound used for it, 4 p 2^-53 B, is larger than that of any order). C116_obv_drift is the limit stated in the property."
 },
 "C117": {
  "status": "proved",
  "note": "Calls with python keywords, from the keyword dictionary to the calculation (Api.call joins the models of parameters, hooks and initialisers). C117_defaults: the default call of each public class is the documented calculation (table Spec.documented, written by hand); C117_covered: all public classes but mavp (C42) and truehigh (C62) are in the table; C117_order, C117_explicit, C117_unknown. The results of the calculations themselves are the subject of the other properties."
 },
 "C118": {
  "status": "partial",
  "note": "The property is violated: bbands _stdev, cci _dev, correl _rets and _prets, mad _ma, trima _ma, wma coef and ewma _seed (documented as having no effect) are never read (C118_unread: any value, other keywords and data), t3 _ma is read with _gd only (C118_t3), and _accum of the directional movement indicators takes no class of the library but smacc (C118_accum: TypeError for all data). C118_effect_partial: every other parameter of every other public class but mavp, truehigh and crossover (which always raises) has an effect; C118_degrees says what degrees does, for any numpy functions."
 },
 "C119": {
  "status": "partial",
  "note": "C119_defaults, C119_unchanged, C119_given, C119_false and C119_documented hold for all keywords and data. The property is violated in two points: macd with compatibility raises TypeError for any average of the library but ema (C119_macd), and the keyword does not reach kama (or smacc) given as average of another indicator while the setting does (C119_global_kama); C119_global_partial: keyword and setting are the same otherwise, C119_setting the default calls."
 },
 "C120": {
  "status": "proved",
  "note": "Inputs and outputs of all classes written down independently and proved to be those of the declarations (C120_outputs also shows that the calculation gives as many lines, for all keywords and data). stochrsi with ta-lib compatibility has a second output (C120_outputs_stochrsi). ema, mad, stochrsi and gdema have initialisers which take positional arguments, so C120_too_many excludes them (ema(data, 5) would take 5 as poffset). Observed: the output of linearreg_angle is named slope, the one of ht_trendmode trendline; add(df), sub(df) etc. take the first two columns (C120_first_columns), open and high in a usual frame."
 },
 "C121": {
  "status": "partial",
  "note": "C121_bars and C121_starts hold for all usable calls. C121_no_repaint_partial (C121_frame_partial for frames) holds for all but ht_dcphase, ht_sine, ht_trendline and ht_trendmode: they raise if a bar without price is added (C121_not_hilbert), and if they give a result it is the earlier one with bars added (C121_hilbert_partial). C121_later_partial excludes kama, mama and positions (C97). Usable: C121_defaults shows that all indicators as they come are (but smacc itself, see C84_early_smacc); an offset of ema within its period repaints (C121_not_offset). The condition that macd with ta-lib compatibility has a fast period not longer than the slow one is sufficient, its necessity is not claimed."
 },
 "C122": {
  "status": "partial",
  "note": "Proved for all classes and all texts: the help text, blanks aside, is the docstring, aliases, inputs, outputs, parameters with defaults and documentation, and the ta-lib remarks, in this order (C122_text, C122_names, C122_parameter); each parameter has its own line unless the line is wider than 78 (C122_line); for the library the stated default is what a call without the keyword uses (C122_told). The loop of textwrap.wrap is written out and proved to lose only blanks; its splitting into words, dedent, expandtabs and str.format are parameters with the laws of Spec.Python, which docs0 meets. Violated: a class which declares no alias lists the aliases of its base, although these names stand for the base (C122_not_aliases; C122_aliases_partial for classes with own aliases); the documentation of inherited parameters is missing (C122_not_docs, the cause is that of C53). Aliases of the library taken away by other classes: C61. Blank lines inside of documentation of parameters are dropped."
 },
 "C123": {
  "status": "partial",
  "note": "Proved for all histories: no values change (C123_values), the Series read has name and values of its line (C123_read), the frame has one column per output with its name and values and stays (C123_frame), and a name only changes to that of a line which shares the Series and is read (C123_name_partial). Violated: Line.series renames in place, so reading an input of an indicator renames the caller's Series (C123_not_caller) and lines which share a Series rename the Series already read from each other (C123_not_shared)."
 },
 "C124": {
  "status": "partial",
  "note": "Holds for all classes and usable keywords but four: C124_shape_partial (same shape, same outcome), C124_threshold_partial (always the same exception, or a threshold), C124_defaults_partial (the thresholds without keywords). It fails for ht_dcphase, ht_sine, ht_trendline, ht_trendmode: C124_not_hilbert (a NaN price gives a ValueError, see C108). mavp takes integer periods as an input and is not a call of this kind (C42)."
 },
 "C125": {
  "status": "proved",
  "note": "For every average and every arithmetic (C42 is about exact arithmetic and the formulas of the averages). With dema and ta-lib compatibility added bars can take back a value, see C125_talib_not_dema, which is why the last part of the claim is about averages of one pass."
 },
 "C126": {
  "status": "proved",
  "note": "Spec.ByCalls gives the formulas with Api.call and operators between lines. With ta-lib compatibility macd calls the fast average with an offset (C119) and stochrsi has a second output, which is why both are without it."
 },
 "C127": {
  "status": "proved",
  "note": "Equations between calls (C127_dm, _di, _dx, _natr, _roc, _midpoint, _minmax, _aroonosc, _angle) hold with exceptions included: both sides are the same outcome for every dictionary of keywords. C127_minmaxindex and C127_parts say what a result is when there is one; whether a call raises is C124. The averages inside adx and gdema are those a user can call (as in C126)."
 },
 "C128": {
  "status": "partial",
  "note": "Formulas which keep to a static rule (a signal meets only things which are float for sure) and all indicators of the catalogue: proved, for any data of whole numbers and floats (C128_formula_partial, C128_indicators_partial; the right hand side is the model of the other properties). Where inputs are added, subtracted or multiplied before they meet a float, the floats are assumed to calculate exactly with whole numbers (ExactInts: holds for the exact values Ext K by exactInts_ext, for float64 only while numbers stay below 2^53); for the other indicators nothing is assumed (C128_any_floats). Violated, proved: signal with an int number (C128_not_signal; with floats: C128_signal_float), signal with a series of whole numbers (C128_not_volume), cumsum of a signal (C128_not_count), mavp (C128_mavp, C128_not_mavp). Loops (sar, Hilbert family, mama) and averages count as one operation with float result; overflow of int64 is not modelled."
 },
 "C129": {
  "status": "partial",
  "note": "Proved for all classes, arguments, keywords and configurations: the text of the InputsError a call raises is exactly the one the specification gives (C129_inputs_partial, C129_caught_partial); all other exceptions are of five kinds (C129_others). Violated in two cases, which are characterized: another indicator as the only argument is refused by its number of bars, not of outputs (C129_indicator, C129_not_indicator); for an indicator with one input, a column configured by name leads to a TypeError if the frame has no column with the name of the input, even if the configured one is there (C129_not_remapped). A DataFrame given within an indicator (PandasNotTopStack) is in C49_rejects."
 },
 "C130": {
  "status": "proved",
  "note": "exact arithmetic, extremes also in rounded arithmetic and delays in any; running totals with default parameters; C130_one_rounded: sum, extremes, simple, weighted and triangular average over one bar in any rounded arithmetic, for lines of numbers the format can show and missing values"
 },
 "C131": {
  "status": "proved",
  "note": "For every rounding which keeps the order (binary64 is one), with Spec.Beneath for two lines; C131_not_ema and C131_not_smma show on concrete doubles that the exponential averages do not follow (pandas returns the average unchanged if it equals the new value, and divides rounded weights otherwise). As in C107 a rolling sum is the sum of each window by itself. With sums updated from bar to bar, as pandas 1.0 does, a sum does not follow its input in double precision (C131_not_updated), but the simple average of prices in whole units does (C131_whole)."
 },
 "C132": {
  "status": "partial",
  "note": "Signs, in-place signs, methods, reflected forms and comparisons proved (C132_signs, C132_reflected, C132_compare, C132_compare_derived, C132_logic), given what pandas documents of its method names (Spec.Documented). Violated: -x, +x, ~x, round(x), x @ y, divmod raise TypeError; abs(x) and hash(x) do for indicators; & | ^ have no reflected form; __div__ and __rdiv__ are there but raise (C132_unary_negation, C132_signs_negation, C132_div_negation). Numpy numbers and pandas objects on the left are not modelled."
 },
 "C133": {
  "status": "proved",
  "note": "Spec.Near and Spec.Steady state the bounds for two lines; each theorem covers all lengths, periods and minimum periods. For stddev and bbands the root is assumed to be exact (as for real numbers). C133_rsi_not is the counterpart for rsi; kama, sar, the stochastic oscillators and ratios are not claimed."
 },
 "C134": {
  "status": "proved",
  "note": "Spec.Trend and Spec.Lags say what a lag is; C134_averages, C134_fast (for any line which is itself a delayed trend, so they compose), C134_smma with the exact lag at each bar, C134_macd (with apo), C134_extremes, C134_var. linearreg and tsf on straight lines: C32_on_line."
 },
 "C135": {
  "status": "proved",
  "note": "Equality of whole lines. C135_weighted shows that the window averages are Spec.Weighted, C135_spread, C135_change and C135_order hold for everything which is; C135_exponential, C135_fast, C135_gdema, C135_t3 and C135_macd for Spec.Superposes (lines which start at the same bar). C135_not_ema: concrete lines for which the exponential averages differ, as the property says."
 },
 "C136": {
  "status": "proved",
  "note": "Spec.Pulse says by which share of the error each value is wrong; Spec.during and Spec.fading are the two kinds of shares. C136_window, C136_exponential, C136_mom. Indicators which are not linear are not claimed (for extremes see C133, for windows C85)."
 },
 "C137": {
  "status": "proved",
  "note": "exact arithmetic; whole lines are equal (values and minimum period); obv in both forms (C137_obv, C137_obv_talib); C137_not_rsi is the counterpart for rsi"
 },
 "C138": {
  "status": "proved",
  "note": "exact arithmetic, input with minimum period 1 (else kama raises: C19_raises), look-back of the volatility 1 (with another one the part can exceed 1: C13_kama_pvol_fails); a period without any move is C19_flat_window"
 },
 "C139": {
  "status": "proved",
  "note": "exact arithmetic and an exact square root (the real one is shown to be one); lines which begin at different bars: see C33_correl_later; beta of returns is the same function on the returns"
 },
 "C140": {
  "status": "proved",
  "note": "exact arithmetic with an exact square root; bounds of bbands and cci are shown to be the best possible ones"
 },
 "C141": {
  "status": "proved",
  "note": "exact arithmetic; rsi with Wilder's average (the default); C141_rounded and C141_rounded_false: floating point"
 },
 "C142": {
  "status": "proved",
  "note": "Spec.Season says what a season with a trend is; the straight lines are stated with Spec.Trend of C134, so that the theorems there apply to them. C142_windows uses C85 (windowed calls are listed by Call.Windowed) and holds for every type of values; the others are in exact arithmetic."
 },
 "C143": {
  "status": "proved",
  "note": "C143_none_missed, _alternate, _side, _total, _strict speak of the delivered numbers of crossup and crossdown and of the inputs, in exact arithmetic; C143_binary64 says the same for double precision. crossover itself raises (C37)."
 },
 "C144": {
  "status": "proved",
  "note": "Exact arithmetic. Theorems on the root of the variance take a root that is exact on numbers >= 0 (the real square root is one)."
 },
 "C145": {
  "status": "proved",
  "note": "Exact arithmetic, data from the first bar on. Spec.Fills says which bar is shown at each bar of the filled data."
 },
 "C146": {
  "status": "partial",
  "note": "Proved in exact arithmetic for pandas' loops (Verif/Running.lean describes aggregations.pyx of pandas 1.0), with missing and infinite values; for highest and lowest under any rounding (C146_extremes); for sums of whole numbers in double precision (C146_whole). For other numbers the error grows at most in proportion to the number of bars times the greatest price (C146_accuracy). It does not fade, so the property is false in double precision: C146_binary64_false - after one price of 2^53 a price of 3 has an sma of 4 and a variance of 2^52 at all later bars. Oscillators: C146_oscillators_partial in exact arithmetic; in double precision they leave their ranges by far when the price stands still after moves (C146_oscillators_false: mfi 160, cmo -300, ultimateoscillator below -20); with prices in whole units cmo is exact but for one rounding and within -100..100 (C146_cmo_whole), sma likewise and within its prices (C146_sma_whole), ultimateoscillator from 0 to 100 + 2^-46 (C146_ultosc_whole)."
 },
 "C147": {
  "status": "proved",
  "note": "In exact arithmetic, for data from the first bar on (bars n x). C147_others_false refutes the symmetry for the default crossings and for wma."
 },
 "C148": {
  "status": "partial",
  "note": "In exact arithmetic for lines with minimum period at least 1; C148_forward_false is the negation for forward shifts. With the default index, whose labels are the numbers of the bars."
 }
}