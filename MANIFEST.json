{
 "claims": [
  {
   "property": "C01",
   "status": "proved",
   "theorems": [
    "Bta.C01_no_repaint"
   ],
   "note": ""
  },
  {
   "property": "C02",
   "status": "proved",
   "theorems": [
    "Bta.C02_indicators",
    "Bta.C02_length"
   ],
   "note": "Line operations: C02_*; all indicator classes: C02_indicators, mavp: C86_mavp."
  },
  {
   "property": "C03",
   "status": "proved",
   "theorems": [
    "Bta.C03_warmup_nan",
    "Bta.C03_operands",
    "Bta.C03_standard"
   ],
   "note": ""
  },
  {
   "property": "C04",
   "status": "proved",
   "theorems": [
    "Bta.C04_minperiod",
    "Bta.C04_operands",
    "Bta.C04_indicators",
    "Bta.C04_defaults"
   ],
   "note": ""
  },
  {
   "property": "C05",
   "status": "proved",
   "theorems": [
    "Bta.C05_binop",
    "Bta.C05_binop_scalar"
   ],
   "note": ""
  },
  {
   "property": "C06",
   "status": "partial",
   "theorems": [
    "Bta.C06_swap_partial",
    "Bta.C06_holder_partial",
    "Bta.C06_swap_fails"
   ],
   "note": "The property fails as stated (C06_swap_fails): with a result of several outputs, 'x op result' is a line and 'result op x' a result; their minimum periods differ when another output starts later than the first one and x. Proved: C06_swap_partial (lines), C06_holder_partial (no output starts later than the later of the first output and x)."
  },
  {
   "property": "C07",
   "status": "partial",
   "theorems": [
    "Bta.C07_reuse_inflates",
    "Bta.C07_second_use_differs",
    "Bta.C07_first_use_partial",
    "Bta.C07_histories",
    "Bta.C07_right_partial",
    "Bta.C07_fresh_partial",
    "Bta.C07_ewm_inflates"
   ],
   "note": "The property fails: C07_reuse_inflates, C07_second_use_differs and C07_ewm_inflates show that a second use of a window object differs. C07_histories: for any history of reading attributes, calling operations and _seeded, the values are those of a fresh object and the minimum period is a closed formula of the number of reads; C07_right_partial: exactly when it is right. Operations are pure here (pandas functions which change the data in place are not used on a kept object by the library)."
  },
  {
   "property": "C08",
   "status": "partial",
   "theorems": [
    "Bta.C08_forward_minperiod",
    "Bta.C08_zero_is_nan",
    "Bta.C08_forward_shift_lost",
    "Bta.C08_backward_partial"
   ],
   "note": "Backward shifts hold for k >= 1; C08_zero_is_nan and C08_forward_shift_lost are counterexamples to the full statement."
  },
  {
   "property": "C09",
   "status": "proved",
   "theorems": [
    "Bta.C09_sma",
    "Bta.C09_sum",
    "Bta.C09_max",
    "Bta.C09_min",
    "Bta.C09_minmax"
   ],
   "note": ""
  },
  {
   "property": "C10",
   "status": "proved",
   "theorems": [
    "Bta.C10_ema",
    "Bta.C10_smma",
    "Bta.C10_ema_last"
   ],
   "note": ""
  },
  {
   "property": "C11",
   "status": "proved",
   "theorems": [
    "Bta.C11_scipy_same",
    "Bta.C11_scipy_same_rounded",
    "Bta.C11_smacc_rounded",
    "Bta.C11_other_factors_differ"
   ],
   "note": "Exact arithmetic: any factor. Rounded arithmetic: the factor 1, the one smacc passes (C11_smacc_rounded for the whole indicator); another factor differs in double precision (C11_other_factors_differ). Assumes that scipy rounds each product and sum (no fused operations)."
  },
  {
   "property": "C12",
   "status": "partial",
   "theorems": [
    "Bta.C12_short_input_partial",
    "Bta.C12_ewm_short_raises",
    "Bta.C12_raises_below",
    "Bta.C12_indicators_partial",
    "Bta.C12_defaults"
   ],
   "note": "The property is violated: seeded averages and sar raise an IndexError. C12_raises_below gives, for every call of the catalogue (all seeds, kama and mama included) and any minimum periods of the inputs, the exact number of bars below which it raises (0 for those which never do; more than there are if no number is enough, as for kama and mama of data which start late); C12_indicators_partial the NaN lines of those which give a result; C12_defaults the numbers for the default parameters. Left out: crossover, which always raises (C37), and the four Hilbert indicators which look back a calculated number of bars (C108). C124 lifts it to calls with keywords."
  },
  {
   "property": "C13",
   "status": "partial",
   "theorems": [
    "Bta.C13_kama_partial",
    "Bta.C13_kama_pvol_fails",
    "Bta.C13_sma",
    "Bta.C13_wma",
    "Bta.C13_trima",
    "Bta.C13_ema",
    "Bta.C13_smma"
   ],
   "note": "Proved for plain data and _pvol=1 (C13_kama_partial) and for the other averages. Fails for _pvol > 1 (C13_kama_pvol_fails: the average leaves the range of the prices); on a flat window it is NaN; on the output of another indicator kama raises (C19_raises)."
  },
  {
   "property": "C14",
   "status": "proved",
   "theorems": [
    "Bta.C14_sma",
    "Bta.C14_wma",
    "Bta.C14_trima",
    "Bta.C14_ema",
    "Bta.C14_smma",
    "Bta.C14_dema",
    "Bta.C14_tema",
    "Bta.C14_t3"
   ],
   "note": ""
  },
  {
   "property": "C15",
   "status": "proved",
   "theorems": [
    "Bta.C15_wma"
   ],
   "note": ""
  },
  {
   "property": "C16",
   "status": "proved",
   "theorems": [
    "Bta.C16_dema",
    "Bta.C16_tema",
    "Bta.C16_trix"
   ],
   "note": ""
  },
  {
   "property": "C17",
   "status": "proved",
   "theorems": [
    "Bta.C17_trima"
   ],
   "note": ""
  },
  {
   "property": "C18",
   "status": "proved",
   "theorems": [
    "Bta.C18_t3",
    "Bta.C18_t3_gd"
   ],
   "note": ""
  },
  {
   "property": "C19",
   "status": "partial",
   "theorems": [
    "Bta.C19_raises",
    "Bta.C19_kama_partial",
    "Bta.C19_flat_window",
    "Bta.C19_range"
   ],
   "note": "Holds for raw data (minimum period 1) with moving prices. C19_raises: IndexError for every input with minimum period > 1; C19_flat_window: one window without price changes makes all later values NaN."
  },
  {
   "property": "C20",
   "status": "proved",
   "theorems": [
    "Bta.C20_macd",
    "Bta.C20_macd_talib"
   ],
   "note": ""
  },
  {
   "property": "C21",
   "status": "proved",
   "theorems": [
    "Bta.C21_formula",
    "Bta.C21_range",
    "Bta.C21_nan",
    "Bta.C21_no_down",
    "Bta.C21_no_up"
   ],
   "note": ""
  },
  {
   "property": "C22",
   "status": "proved",
   "theorems": [
    "Bta.C22_stochf",
    "Bta.C22_stochastic",
    "Bta.C22_any_average"
   ],
   "note": ""
  },
  {
   "property": "C23",
   "status": "proved",
   "theorems": [
    "Bta.C23_complement",
    "Bta.C23_range"
   ],
   "note": ""
  },
  {
   "property": "C24",
   "status": "proved",
   "theorems": [
    "Bta.C24_formula",
    "Bta.C24_range",
    "Bta.C24_rsi",
    "Bta.C24_rsi_sum"
   ],
   "note": ""
  },
  {
   "property": "C25",
   "status": "proved",
   "theorems": [
    "Bta.C25_up",
    "Bta.C25_down",
    "Bta.C25_up_extremes",
    "Bta.C25_down_extremes",
    "Bta.C25_osc"
   ],
   "note": ""
  },
  {
   "property": "C26",
   "status": "proved",
   "theorems": [
    "Bta.C26_formula",
    "Bta.C26_range"
   ],
   "note": ""
  },
  {
   "property": "C27",
   "status": "proved",
   "theorems": [
    "Bta.C27_truerange",
    "Bta.C27_atr",
    "Bta.C27_natr"
   ],
   "note": ""
  },
  {
   "property": "C28",
   "status": "proved",
   "theorems": [
    "Bta.C28_exclusive",
    "Bta.C28_dm",
    "Bta.C28_di",
    "Bta.C28_adx",
    "Bta.C28_adxr",
    "Bta.C28_adxr_talib"
   ],
   "note": ""
  },
  {
   "property": "C29",
   "status": "partial",
   "theorems": [
    "Bta.C29_one_bar_late",
    "Bta.C29_values_partial"
   ],
   "note": "The property fails for all data and periods (C29_one_bar_late): without ta-lib compatibility +DI/-DI are one bar late. C29_values_partial proves the values from then on."
  },
  {
   "property": "C30",
   "status": "proved",
   "theorems": [
    "Bta.C30_bbands",
    "Bta.C30_order"
   ],
   "note": ""
  },
  {
   "property": "C31",
   "status": "proved",
   "theorems": [
    "Bta.C31_var",
    "Bta.C31_affine",
    "Bta.C31_stddev",
    "Bta.C31_degenerate"
   ],
   "note": ""
  },
  {
   "property": "C32",
   "status": "proved",
   "theorems": [
    "Bta.C32_linreg",
    "Bta.C32_angle",
    "Bta.C32_on_line"
   ],
   "note": ""
  },
  {
   "property": "C33",
   "status": "proved",
   "theorems": [
    "Bta.C33_beta",
    "Bta.C33_beta_returns",
    "Bta.C33_correl",
    "Bta.C33_correl_later"
   ],
   "note": "correl whose second input has the larger minimum period: C33_correl_later (values once both have filled a window; the bars before are C70). beta with returns: prices without zeros, a hypothesis of the theorem."
  },
  {
   "property": "C34",
   "status": "proved",
   "theorems": [
    "Bta.C34_obv",
    "Bta.C34_talib"
   ],
   "note": ""
  },
  {
   "property": "C35",
   "status": "proved",
   "theorems": [
    "Bta.C35_ad"
   ],
   "note": ""
  },
  {
   "property": "C36",
   "status": "proved",
   "theorems": [
    "Bta.C36_cross",
    "Bta.C36_never_both"
   ],
   "note": ""
  },
  {
   "property": "C37",
   "status": "partial",
   "theorems": [
    "Bta.C37_crossover_raises",
    "Bta.C37_sum_partial"
   ],
   "note": "The property fails for all data (C37_crossover_raises): crossover subtracts boolean series, a TypeError in numpy. C37_sum_partial: crossup + crossdown is the documented signal."
  },
  {
   "property": "C38",
   "status": "proved",
   "theorems": [
    "Bta.C38_values",
    "Bta.C38_short_raises",
    "Bta.C38_sar",
    "Bta.C38_acceleration"
   ],
   "note": ""
  },
  {
   "property": "C39",
   "status": "proved",
   "theorems": [
    "Bta.C39_offset_values",
    "Bta.C39_values",
    "Bta.C39_offset_away",
    "Bta.C39_sarext"
   ],
   "note": ""
  },
  {
   "property": "C40",
   "status": "proved",
   "theorems": [
    "Bta.C40_dcperiod",
    "Bta.C40_range",
    "Bta.C40_inphase",
    "Bta.C40_quadrature"
   ],
   "note": ""
  },
  {
   "property": "C41",
   "status": "proved",
   "theorems": [
    "Bta.C41_dcphase",
    "Bta.C41_sine",
    "Bta.C41_leadsine",
    "Bta.C41_trendline",
    "Bta.C41_trendmode",
    "Bta.C41_window",
    "Bta.C41_no_future"
   ],
   "note": ""
  },
  {
   "property": "C42",
   "status": "partial",
   "theorems": [
    "Bta.C42_mavp_partial",
    "Bta.C42_warmup_looks_ahead"
   ],
   "note": "Values after the warm-up are those of the average with the period of the bar; the warm-up depends on the greatest period anywhere in the series, also on later bars (C42_warmup_looks_ahead)."
  },
  {
   "property": "C43",
   "status": "partial",
   "theorems": [
    "Bta.C43_maxindex",
    "Bta.C43_minindex",
    "Bta.C43_absolute_max_partial",
    "Bta.C43_absolute_min_partial",
    "Bta.C43_absolute_wrong",
    "Bta.C43_minmaxindex",
    "Bta.C43_minmaxindex_absolute_partial"
   ],
   "note": "Relative positions hold for every input. The absolute index (ta-lib mode) is counted from the first bar where the input delivers: right for raw data, wrong at every bar for any input with minimum period > 1 (C43_absolute_wrong)."
  },
  {
   "property": "C44",
   "status": "proved",
   "theorems": [
    "Bta.C44_mom",
    "Bta.C44_rocr",
    "Bta.C44_roc",
    "Bta.C44_consistent"
   ],
   "note": ""
  },
  {
   "property": "C45",
   "status": "proved",
   "theorems": [
    "Bta.C45_medprice",
    "Bta.C45_typprice",
    "Bta.C45_avgprice",
    "Bta.C45_wclprice"
   ],
   "note": ""
  },
  {
   "property": "C46",
   "status": "proved",
   "theorems": [
    "Bta.C46_midprice",
    "Bta.C46_midpoint"
   ],
   "note": ""
  },
  {
   "property": "C47",
   "status": "proved",
   "theorems": [
    "Bta.C47_range"
   ],
   "note": ""
  },
  {
   "property": "C48",
   "status": "proved",
   "theorems": [
    "Bta.C48_apo_bars",
    "Bta.C48_ppo_bars",
    "Bta.C48_apo",
    "Bta.C48_ppo"
   ],
   "note": "Exact numbers: C48_apo, C48_ppo (slow average not 0). Floating point numbers with whatever data, division by 0 included: C48_apo_bars, C48_ppo_bars. ppofast is C68."
  },
  {
   "property": "C49",
   "status": "proved",
   "theorems": [
    "Bta.Meta.C49_columns",
    "Bta.Meta.C49_rejects",
    "Bta.Meta.C49_frame"
   ],
   "note": ""
  },
  {
   "property": "C50",
   "status": "partial",
   "theorems": [
    "Bta.Meta.C50_named_or_taken_partial",
    "Bta.Meta.C50_by_name_partial",
    "Bta.Meta.C50_stolen",
    "Bta.Meta.C50_configured_case"
   ],
   "note": "Violated: when a wanted column is missing, a column is taken by configured position even if it is the named column of another input (C50_stolen, all frames); names configured with upper case never match (C50_configured_case). Proved when every input name is a column, or names and positions do not collide."
  },
  {
   "property": "C51",
   "status": "partial",
   "theorems": [
    "Bta.Meta.C51_wrong_error",
    "Bta.Meta.C51_rejected_partial",
    "Bta.Meta.C51_false_alarm",
    "Bta.Meta.C51_in_order"
   ],
   "note": "Violated: the size tested is the number of bars, not of lines (C51_wrong_error, C51_false_alarm). Proved: a rejected call never binds (C51_rejected_partial), binding is in order (C51_in_order)."
  },
  {
   "property": "C52",
   "status": "partial",
   "theorems": [
    "Bta.Meta.C52_resolution_partial",
    "Bta.Meta.C52_tuple_default_fails",
    "Bta.Meta.C52_order"
   ],
   "note": "Fails for defaults which are tuples (C52_tuple_default_fails); proved for all other defaults (C52_resolution_partial)."
  },
  {
   "property": "C53",
   "status": "partial",
   "theorems": [
    "Bta.Meta.C53_doc_lost",
    "Bta.Meta.C53_tuple_default",
    "Bta.Meta.C53_default_partial",
    "Bta.Meta.C53_own_doc_partial"
   ],
   "note": "Violated: the docs of an inherited parameter are lost (C53_doc_lost) and a tuple as default is corrupted (C53_tuple_default), for all declarations. Proved for non-tuple defaults and for own parameters."
  },
  {
   "property": "C54",
   "status": "proved",
   "theorems": [
    "Bta.Meta.C54_nodup",
    "Bta.Meta.C54_redefine",
    "Bta.Meta.C54_remap",
    "Bta.Meta.C54_extend",
    "Bta.Meta.C54_inherit"
   ],
   "note": ""
  },
  {
   "property": "C55",
   "status": "partial",
   "theorems": [
    "Bta.Meta.C55_explicit_partial",
    "Bta.Meta.C55_single_partial",
    "Bta.Meta.C55_auto_partial",
    "Bta.Meta.C55_late_binding",
    "Bta.Meta.C55_two_levels"
   ],
   "note": "Violated: with more than one alias pair all alias properties act on the last one (C55_late_binding). Proved for a single remapping and for the automatic mapping."
  },
  {
   "property": "C56",
   "status": "proved",
   "theorems": [
    "Bta.Meta.C56_order",
    "Bta.Meta.C56_once"
   ],
   "note": ""
  },
  {
   "property": "C57",
   "status": "partial",
   "theorems": [
    "Bta.Meta.C57_success_partial",
    "Bta.Meta.C57_bind_failure_partial",
    "Bta.Meta.C57_poisoned",
    "Bta.Meta.C57_no_dataframe",
    "Bta.Meta.C57_dataframe_partial"
   ],
   "note": "Violated: there is no try/finally around the initialisers, so a call which raises after its inputs were bound leaves metadata.callstack one longer; from then on every DataFrame is rejected by every indicator with several inputs (C57_poisoned) and results are never returned as DataFrame (C57_no_dataframe), for all histories. Proved: success and failures while binding inputs are neutral."
  },
  {
   "property": "C58",
   "status": "partial",
   "theorems": [
    "Bta.Meta.C58_history_partial",
    "Bta.Meta.C58_allowinputs",
    "Bta.Meta.C58_fresh_two",
    "Bta.Meta.C58_appended_output",
    "Bta.Meta.C58_allowinputs_classes"
   ],
   "note": "Violated by allowinputs (C58_allowinputs: the second input is ignored for ever after a call with one series) and by stochrsi in ta-lib mode (C58_appended_output), for all histories. Proved: after any history without those and without failing initialisers each call has the outcome it would have had at first (C58_history_partial)."
  },
  {
   "property": "C59",
   "status": "partial",
   "theorems": [
    "Bta.Meta.C59_other_threads",
    "Bta.Meta.C59_importer_partial",
    "Bta.Meta.C59_imported",
    "Bta.Meta.C59_imported_partial"
   ],
   "note": "Violated: metadata is threading.local and its attributes are set at import, so in all other threads each call raises AttributeError (C59_other_threads, all schedules). Proved: the importing thread is not disturbed (C59_importer_partial)."
  },
  {
   "property": "C60",
   "status": "partial",
   "theorems": [
    "Bta.Meta.C60_user_wins",
    "Bta.Meta.C60_only_defaults",
    "Bta.Meta.C60_off",
    "Bta.Meta.C60_off_values",
    "Bta.Meta.C60_popped_partial",
    "Bta.Meta.C60_given_back",
    "Bta.Meta.C60_params",
    "Bta.Meta.C60_global_wins",
    "Bta.Meta.C60_talib_key_classes"
   ],
   "note": "Fails for minmaxindex, which hands _talib on to its parts again (C60_given_back); proved for the other classes (C60_popped_partial)."
  },
  {
   "property": "C61",
   "status": "partial",
   "theorems": [
    "Bta.Meta.C61_alias_partial",
    "Bta.Meta.C61_hijacked",
    "Bta.Meta.C61_name",
    "Bta.Meta.C61_ungrouped",
    "Bta.Meta.C61_last_wins",
    "Bta.Meta.C61_group_listed",
    "Bta.Meta.C61_group_own",
    "Bta.Meta.C61_group_inherited"
   ],
   "note": "Violated by fifteen aliases (C61_hijacked, exact list) and three indicators without group (C61_ungrouped). Proved for all others, and in general who gets an alias and where a class is listed."
  },
  {
   "property": "C62",
   "status": "partial",
   "theorems": [
    "Bta.Meta.C62_names_partial",
    "Bta.Meta.C62_truehigh",
    "Bta.Meta.C62_unset"
   ],
   "note": "Violated by truehigh, for all data (C62_truehigh). Proved for all other classes of the library, over the table of accesses generated from the source."
  },
  {
   "property": "C63",
   "status": "proved",
   "theorems": [
    "Bta.C63_recursion",
    "Bta.C63_smacc"
   ],
   "note": ""
  },
  {
   "property": "C64",
   "status": "proved",
   "theorems": [
    "Bta.C64_range",
    "Bta.C64_range_d"
   ],
   "note": ""
  },
  {
   "property": "C65",
   "status": "partial",
   "theorems": [
    "Bta.C65_comparison_warmup_true",
    "Bta.C65_delivered_partial",
    "Bta.C65_any_warmup_true"
   ],
   "note": "Fails in the warm-up: comparisons of lines are True there, whatever the values and whatever the operands (C65_any_warmup_true; for whole expressions C65_comparison_warmup_true). From the minimum period on they are right (C65_delivered_partial)."
  },
  {
   "property": "C66",
   "status": "proved",
   "theorems": [
    "Bta.C66_trendmode",
    "Bta.C66_sine"
   ],
   "note": ""
  },
  {
   "property": "C67",
   "status": "proved",
   "theorems": [
    "Bta.Heap.C67_unchanged",
    "Bta.Heap.C67_values",
    "Bta.Heap.C67_apply_writes",
    "Bta.Heap.C67_pure",
    "Bta.Heap.C67_obv",
    "Bta.Heap.C67_sar",
    "Bta.Heap.C67_sarext",
    "Bta.Heap.C67_ht_dcperiod",
    "Bta.Heap.C67_ht_dcphase",
    "Bta.Heap.C67_ht_phasor",
    "Bta.Heap.C67_ht_sine",
    "Bta.Heap.C67_ht_trendline",
    "Bta.Heap.C67_ht_trendmode",
    "Bta.Heap.C67_mama",
    "Bta.Heap.C67_mavp",
    "Bta.Heap.C67_reading_series_renames",
    "Bta.Heap.C67_not_raw_overwrites"
   ],
   "note": "C67_unchanged: every program of the memory model that follows the ownership rules leaves all Series (values and name) and Line objects of the caller as they were, also on exceptions; C67_values: such programs compute what the functional models compute; C67_obv, _sar, _sarext, _ht_*, _mama give both for the initialisers which write in place, C67_mavp the first; C67_pure for initialisers which only make new lines. C67_reading_series_renames: reading .series of an input does rename the caller's Series (outside evaluation). Assumes that a slice of a Series is a view and that other pandas operations return new objects."
  },
  {
   "property": "C68",
   "status": "partial",
   "theorems": [
    "Bta.C68_ppofast_sign"
   ],
   "note": "The property fails: the sign is reversed for all data (C68_ppofast_sign proves the exact delivered values)."
  },
  {
   "property": "C69",
   "status": "partial",
   "theorems": [
    "Bta.C69_documented_beta_fails",
    "Bta.C69_reversed",
    "Bta.C69_swapped_partial"
   ],
   "note": "The property fails for all data: if the security moves k times as much as the market, the delivered value is 1/k (C69_reversed), because the code uses the first input as the x axis. C69_swapped_partial: with the inputs swapped the documented slope is delivered."
  },
  {
   "property": "C70",
   "status": "partial",
   "theorems": [
    "Bta.C70_second_input_ignored",
    "Bta.C70_too_early",
    "Bta.C70_order_partial"
   ],
   "note": "The property fails: the minimum period of the second input is ignored, for all data, periods and second inputs which start later (C70_too_early). C70_order_partial: holds if the first input is not earlier than the second."
  },
  {
   "property": "C71",
   "status": "proved",
   "theorems": [
    "Bta.C71_trendline_range"
   ],
   "note": ""
  },
  {
   "property": "C72",
   "status": "proved",
   "theorems": [
    "Bta.C72_dcphase_range"
   ],
   "note": ""
  },
  {
   "property": "C73",
   "status": "proved",
   "theorems": [
    "Bta.C73_unit"
   ],
   "note": ""
  },
  {
   "property": "C75",
   "status": "proved",
   "theorems": [
    "Bta.C75_mad",
    "Bta.C75_cci",
    "Bta.C75_cci_flat"
   ],
   "note": ""
  },
  {
   "property": "C76",
   "status": "proved",
   "theorems": [
    "Bta.C76_bop"
   ],
   "note": ""
  },
  {
   "property": "C77",
   "status": "proved",
   "theorems": [
    "Bta.C77_adosc"
   ],
   "note": ""
  },
  {
   "property": "C78",
   "status": "partial",
   "theorems": [
    "Bta.C78_early",
    "Bta.C78_partial",
    "Bta.C78_adjusted"
   ],
   "note": "Violated: ewma delivers numbers before the minimum period it declares (C78_early, all data and periods >= 2). The recursion itself is proved (C78_partial), and for adjust=True the weighted mean (C78_adjusted)."
  },
  {
   "property": "C79",
   "status": "proved",
   "theorems": [
    "Bta.C79_arith",
    "Bta.C79_div_mult",
    "Bta.C79_mult_div",
    "Bta.C79_fn"
   ],
   "note": ""
  },
  {
   "property": "C74",
   "status": "partial",
   "theorems": [
    "Bta.C74_mama_partial",
    "Bta.C74_raises",
    "Bta.C74_range",
    "Bta.C74_constant"
   ],
   "note": "Violated for inputs with minperiod > 1 (C74_raises: IndexError for all data) and for constant series (C74_constant: always below a positive constant, because the recursion starts at 0). Proved for raw prices: recursion, bounds of alpha, range including the seed 0."
  },
  {
   "property": "C80",
   "status": "proved",
   "theorems": [
    "Bta.Meta.C80_positional",
    "Bta.Meta.C80_conversion",
    "Bta.Meta.C80_frame_named"
   ],
   "note": ""
  },
  {
   "property": "C81",
   "status": "partial",
   "theorems": [
    "Bta.Meta.C81_unknown_keyword_partial",
    "Bta.Meta.C81_extra_positional_partial",
    "Bta.Meta.C81_taken"
   ],
   "note": "Keywords: all but ewma and minmaxindex, which hand them on. Positional: all but ema, gdema, mad and stochrsi, which take the argument for an internal one (C81_taken)."
  },
  {
   "property": "C82",
   "status": "proved",
   "theorems": [
    "Bta.C82_period_grow",
    "Bta.C82_period_shrink",
    "Bta.C82_period_zero",
    "Bta.C82_setval",
    "Bta.C82_setval_end",
    "Bta.C82_setval_default"
   ],
   "note": ""
  },
  {
   "property": "C83",
   "status": "proved",
   "theorems": [
    "Bta.C83_instance",
    "Bta.C83_all_ready"
   ],
   "note": ""
  },
  {
   "property": "C84",
   "status": "partial",
   "theorems": [
    "Bta.C84_no_repaint",
    "Bta.C84_covers",
    "Bta.C84_defaults",
    "Bta.C84_early_smacc",
    "Bta.C84_hilbert_partial",
    "Bta.C84_not_hilbert"
   ],
   "note": "Every class of the library except mavp (C42, which looks ahead) and truehigh (C62, raises): C84_covers, C84_defaults. For the four Hilbert indicators which round the period the statement is false: a bar added without a price makes the whole call raise (C84_not_hilbert, C108). What holds for them, any prices: if the longer history gives a result, so did the shorter one, with the same values (C84_hilbert_partial, exact arithmetic). C84_early_smacc shows that the side condition on an early smacc is needed."
  },
  {
   "property": "C85",
   "status": "proved",
   "theorems": [
    "Bta.C85_window_only",
    "Bta.C85_window"
   ],
   "note": "Windowed calls are listed by Call.Windowed (Spec/Catalog.lean)."
  },
  {
   "property": "C86",
   "status": "proved",
   "theorems": [
    "Bta.C86_starts_at_minperiod",
    "Bta.C86_mavp",
    "Bta.C86_outputs"
   ],
   "note": "Averages with ewma excluded (C78: its values start before its minimum period). mavp: C86_mavp."
  },
  {
   "property": "C87",
   "status": "proved",
   "theorems": [
    "Bta.C87_missing_stays_missing",
    "Bta.C87_nothing_spread"
   ],
   "note": "C87_missing_stays_missing (a missing value which is read makes the result missing) and C87_nothing_spread (without division, numbers in give a number out). The bars which are read are defined by Formula.Reads, by recursion on the formula. Added after the mutant 'clip replaces nan' of clipLo survived."
  },
  {
   "property": "C88",
   "status": "proved",
   "theorems": [
    "Bta.C88_units",
    "Bta.C88_unit_free",
    "Bta.C88_root",
    "Bta.C88_not_unit_free"
   ],
   "note": "Exact arithmetic (Ext K) with infinities and NaN anywhere; square roots need sqrt(u^2 x) = u sqrt x (C88_root: real square root). mavp is not in the catalogue. C88_not_unit_free shows that the listed exceptions are exceptions."
  },
  {
   "property": "C89",
   "status": "proved",
   "theorems": [
    "Bta.C89_mirror",
    "Bta.C89_rounded",
    "Bta.C89_rounded_order",
    "Bta.C89_sar",
    "Bta.C89_sar_undirected",
    "Bta.C89_williamsr",
    "Bta.C89_stochf",
    "Bta.C89_rsi",
    "Bta.C89_ultosc",
    "Bta.C89_mfi",
    "Bta.C89_roc",
    "Bta.C89_stochrsi",
    "Bta.C89_natr",
    "Bta.C89_ppo",
    "Bta.C89_trix",
    "Bta.C89_ppo_rounded",
    "Bta.C89_trix_rounded",
    "Bta.C89_roc_rounded",
    "Bta.C89_natr_rounded"
   ],
   "note": "C89_mirror: exact arithmetic (Ext K) with infinities and NaN anywhere. C89_rounded: the same with each step rounded (any sign-symmetric rounding, so binary64) for all these calls but avgprice, ad and adosc, which add prices in an order the turned chart changes; C89_rounded_order is a binary64 bar on which avgprice and ad differ. Stated for calls which give a result (the order in which two averages raise differs in the turned chart). C89_ultosc, C89_mfi and C89_roc: exact arithmetic, for data without missing values. C89_roc_rounded, C89_natr_rounded: the same in any sign-symmetric rounding, with missing values. C89_ppo and C89_trix (and the same with _rounded): any data for which the average in the denominator is never zero. Nothing is claimed of sarext, the phase of the Hilbert family and mavp."
  },
  {
   "property": "C90",
   "status": "partial",
   "theorems": [
    "Bta.Meta.C90_same_line",
    "Bta.Meta.C90_all_lines",
    "Bta.Meta.C90_frame",
    "Bta.Meta.C90_unknown",
    "Bta.Meta.C90_attribute_partial",
    "Bta.Meta.C90_attribute_negation",
    "Bta.Meta.C90_inputs",
    "Bta.Meta.C90_input1_negation",
    "Bta.Meta.C90_removed",
    "Bta.Meta.C90_get",
    "Bta.Meta.C90_write_read",
    "Bta.Meta.C90_write_position",
    "Bta.Meta.C90_stale_frame_negation",
    "Bta.Meta.C90_contains",
    "Bta.Meta.C90_contains_negation",
    "Bta.Meta.C90_slice_negation"
   ],
   "note": "Proved for all chains of classes (reading in outputs) and for the whole table of classes (attributes). False for the attribute of add, sub, div (a method hides the output), for df after an assignment, for 'size' in ind, for slices and for input1 of two-input operators: shown as negations."
  },
  {
   "property": "C91",
   "status": "partial",
   "theorems": [
    "Bta.C91_keyword_partial",
    "Bta.C91_pct_change",
    "Bta.C91_position_raises",
    "Bta.C91_rolling_keyword_partial",
    "Bta.C91_rolling_position_negation",
    "Bta.C91_ewm_partial",
    "Bta.C91_ewm_alpha_negation",
    "Bta.C91_ewm_raises"
   ],
   "note": "Keyword periods proved for all lines; the other ways of writing a period raise or leave a wrong minimum period (negations for all lines)."
  },
  {
   "property": "C92",
   "status": "partial",
   "theorems": [
    "Bta.C92_delivered",
    "Bta.C92_both_delivered",
    "Bta.C92_mean",
    "Bta.C92_forward_negation"
   ],
   "note": "Proved for all lines with minimum period at least 1; after a forward shift the mean is NaN for all data (negation)."
  },
  {
   "property": "C93",
   "status": "partial",
   "theorems": [
    "Bta.C93_value",
    "Bta.C93_full",
    "Bta.C93_no_repaint",
    "Bta.C93_position_negation"
   ],
   "note": "Proved for min_periods as keyword or left out; by position the minimum period is too small (negation)."
  },
  {
   "property": "C94",
   "status": "partial",
   "theorems": [
    "Bta.C94_lines",
    "Bta.C94_item_object",
    "Bta.C94_item_right",
    "Bta.C94_item_negation",
    "Bta.C94_front_binop",
    "Bta.C94_front_rolling",
    "Bta.C94_item",
    "Bta.C94_back_negation"
   ],
   "note": "Items, items to the right of an operator (C94_item_right) and front slices proved. Violated: line[i] is no number but a line object around one, and everything else asked of it raises (C94_item_negation: operators with it on the left, methods, reductions, iteration, len, truth value); back slices keep the old minimum period and hide values (C94_back_negation). For whole formulas and indicators see C01, C84."
  },
  {
   "property": "C95",
   "status": "partial",
   "theorems": [
    "Bta.C95_rolling_partial",
    "Bta.C95_binop_partial",
    "Bta.C95_minperiod_negation",
    "Bta.C95_aggs"
   ],
   "note": "Same values proved for rolling windows and element-wise operators; the minimum period is forgotten (negation for all lines), exponential averages change (example)."
  },
  {
   "property": "C96",
   "status": "proved",
   "theorems": [
    "Bta.Meta.C96_rule",
    "Bta.Meta.C96_unique",
    "Bta.Meta.C96_frame",
    "Bta.Meta.C96_single"
   ],
   "note": "C96_rule/C96_frame: the column of every input follows the rule (specified separately as an inductive relation over the columns taken before); C96_unique: the rule determines the column; C96_single for one input (configured numbers not negative; a configured name raises TypeError there)."
  },
  {
   "property": "C97",
   "status": "partial",
   "theorems": [
    "Bta.C97_put_off_partial",
    "Bta.C97_put_off_conv_partial",
    "Bta.C97_delivered_partial",
    "Bta.C97_minperiod_partial",
    "Bta.C97_kama",
    "Bta.C97_mama",
    "Bta.C97_absolute"
   ],
   "note": "Proved for every call of the catalogue with usable periods that does not use kama, mama or absolute positions, in both directions (results and raises), with delivered parts and minimum periods adding up as corollaries. Missing because false: kama and mama raise IndexError on any line with a minimum period above 1 (C97_kama, C97_mama), and absolute positions are delivered from the first bar on (C97_absolute)."
  },
  {
   "property": "C98",
   "status": "partial",
   "theorems": [
    "Bta.Meta.C98_names",
    "Bta.Meta.C98_by_name",
    "Bta.Meta.C98_groups",
    "Bta.Meta.C98_names_by_group",
    "Bta.Meta.C98_views_partial",
    "Bta.Meta.C98_redefined",
    "Bta.Meta.C98_live",
    "Bta.Meta.C98_library",
    "Bta.Meta.C98_library_views"
   ],
   "note": "Names, classes by name, groups, members, names by group: proved for all histories; the views agree if no name is used twice (C98_views_partial; met by the library, C98_library_views). False otherwise: a redefined class stays in its groups (C98_redefined), and get_ind_by_group hands out the library's own lists, appending to which breaks get_ind_names_by_group (C98_live)."
  },
  {
   "property": "C99",
   "status": "partial",
   "theorems": [
    "Bta.Meta.C99_names",
    "Bta.Meta.C99_exported",
    "Bta.Meta.C99_others_partial",
    "Bta.Meta.C99_others_lost",
    "Bta.Meta.C99_tuple"
   ],
   "note": "Names, aliases and their export: proved for all modules which do not mention __all__. False: other names of a module with an indicator are no longer exported by a star import (C99_others_lost; without indicators they are, C99_others_partial), and a module whose __all__ is a tuple cannot define an indicator (C99_tuple)."
  },
  {
   "property": "C100",
   "status": "partial",
   "theorems": [
    "Bta.Meta.C100_read",
    "Bta.Meta.C100_dict_partial",
    "Bta.Meta.C100_values",
    "Bta.Meta.C100_keys_param",
    "Bta.Meta.C100_unknown",
    "Bta.Meta.C100_methods",
    "Bta.Meta.C100_set"
   ],
   "note": "Reading, setting and unknown names proved for all classes, keywords and names; the dictionary view for classes without a parameter called keys (C100_dict_partial). False: a parameter called keys breaks dict(p) and **p (C100_keys_param); the names of methods count as contained and their items are methods (C100_methods)."
  },
  {
   "property": "C101",
   "status": "proved",
   "theorems": [
    "Bta.C101_sma",
    "Bta.C101_wma",
    "Bta.C101_trima",
    "Bta.C101_ema",
    "Bta.C101_smma",
    "Bta.C101_sum",
    "Bta.C101_max",
    "Bta.C101_min",
    "Bta.C101_not_dema",
    "Bta.C101_not_tema",
    "Bta.C101_not_t3",
    "Bta.C101_not_kama"
   ],
   "note": "Stated as Spec.Follows for two inputs; dema, tema, t3 and kama are shown not to follow on concrete data."
  },
  {
   "property": "C102",
   "status": "proved",
   "theorems": [
    "Bta.C102_kama",
    "Bta.C102_ema_rate",
    "Bta.C102_smma_rate",
    "Bta.C102_sma",
    "Bta.C102_wma",
    "Bta.C102_trima",
    "Bta.C102_ema",
    "Bta.C102_smma",
    "Bta.C102_dema",
    "Bta.C102_tema",
    "Bta.C102_t3",
    "Bta.C102_apo",
    "Bta.C102_macd",
    "Bta.C102_atr",
    "Bta.C102_rsi"
   ],
   "note": "Spec.Forgets (uniform number of bars for bounded data, any Archimedean field) and Spec.Geometric (exact rate). rsi: with the necessary condition of a move in the last p bars; the example beside the theorem shows why. Exact arithmetic."
  },
  {
   "property": "C103",
   "status": "proved",
   "theorems": [
    "Bta.C103_level",
    "Bta.C103_level_free",
    "Bta.C103_not_level"
   ],
   "note": "for every amount, call and data: outputs raised by the amounts of Spec.levelOut (C103_level), oscillators unchanged (C103_level_free); the calls left out are raised by no fixed amount on a chart (C103_not_level). Over exact arithmetic (Ext K): in floats a raised price is rounded. Not claimed: Hilbert transforms, mathematical functions, averages with seeds not taken from prices."
  },
  {
   "property": "C104",
   "status": "proved",
   "theorems": [
    "Bta.C104_ok_iff",
    "Bta.C104_values",
    "Bta.C104_both_orders",
    "Bta.C104_late_start",
    "Bta.C104_compare"
   ],
   "note": "model Align.lean: series with dates; C104_ok_iff, C104_values, C104_both_orders, C104_compare, C104_late_start (for k bars NaN although both have values). pandas' alignment (outer join of increasing indices) and the length check of slice assignment are described, not modelled from source."
  },
  {
   "property": "C105",
   "status": "partial",
   "theorems": [
    "Bta.C105_any",
    "Bta.C105_head",
    "Bta.C105_tail",
    "Bta.C105_dropna",
    "Bta.C105_drop_duplicates",
    "Bta.C105_append",
    "Bta.C105_nlargest",
    "Bta.C105_nsmallest"
   ],
   "note": "C105_any, C105_head, C105_tail, C105_dropna, C105_drop_duplicates, C105_append prove the claim; C105_nlargest and C105_nsmallest prove that it fails for these two (sorted values)."
  },
  {
   "property": "C106",
   "status": "partial",
   "theorems": [
    "Bta.C106_no_lookahead",
    "Bta.C106_no_lookahead2",
    "Bta.C106_pointwise",
    "Bta.C106_tests",
    "Bta.C106_pointwise_more",
    "Bta.C106_no_lookahead_more",
    "Bta.C106_cumulative",
    "Bta.C106_bfill_looks_ahead",
    "Bta.C106_bfill_far",
    "Bta.C106_rank_looks_ahead",
    "Bta.C106_rank_value",
    "Bta.C106_interpolate",
    "Bta.C106_interpolate_looks_ahead",
    "Bta.C106_isin_looks_ahead"
   ],
   "note": "C106_pointwise, C106_pointwise_more, C106_tests, C106_cumulative, C106_no_lookahead, C106_no_lookahead2, C106_no_lookahead_more prove the claim; C106_bfill_looks_ahead, C106_interpolate_looks_ahead, C106_isin_looks_ahead and C106_rank_looks_ahead are the negations; C106_interpolate says what interpolate shows; C106_tests shows the True of the warm-up. apply and combine with functions of numbers, replace with two numbers, interpolate with its defaults."
  },
  {
   "property": "C107",
   "status": "partial",
   "theorems": [
    "Bta.C107_ad_partial",
    "Bta.C107_not_ad",
    "Bta.C107_not_ema",
    "Bta.C107_not_smma",
    "Bta.C107_binary64_nearest",
    "Bta.C107_binary64_overflow",
    "Bta.C107_binary64_numbers",
    "Bta.C107_rsi",
    "Bta.C107_rsi_binary64",
    "Bta.C107_stochrsi",
    "Bta.C107_aroon",
    "Bta.C107_bop",
    "Bta.C107_medprice",
    "Bta.C107_midprice",
    "Bta.C107_midpoint",
    "Bta.C107_wclprice",
    "Bta.C107_stochf_partial",
    "Bta.C107_williamsr_partial",
    "Bta.C107_cmo_partial",
    "Bta.C107_not_stochf",
    "Bta.C107_not_williamsr",
    "Bta.C107_not_cmo",
    "Bta.C107_not_typprice",
    "Bta.C107_not_sma",
    "Bta.C107_mfi",
    "Bta.C107_not_ultosc",
    "Bta.C107_dx_partial"
   ],
   "note": "Proved for every rounding which keeps the order (structure Rounding, Float.lean; binary64 is shown to be one, and to be the arithmetic of IEEE 754: C107_binary64_nearest, C107_binary64_overflow, C107_binary64_numbers): rsi, stochrsi, aroon, aroonosc, bop, medprice, midprice, midpoint, wclprice. For the flows of ad: C107_ad_partial in double precision where the low is not below a quarter of the high, false without this condition (C107_not_ad). In double precision the claim is false for %K, %R, cmo, typprice, sma, ema, smma and ultimateoscillator (C107_not_*); what holds there is proved as C107_stochf_partial, C107_williamsr_partial, C107_cmo_partial, C107_dx_partial: at most one unit in the last place beyond. The indicators on rolling sums (mfi, cmo with its default sum, ultimateoscillator) are treated in C146, with the sums as pandas updates them."
  },
  {
   "property": "C108",
   "status": "proved",
   "theorems": [
    "Bta.C108_raises",
    "Bta.C108_else",
    "Bta.C108_others",
    "Bta.C108_early"
   ],
   "note": "For functions atan, sin, cos, int as in C41 (HtFns.Agrees: exact arithmetic, int(nan) raises, atan(nan) is nan). C108_early for ht_dcphase and ht_sine only: the trend line reads earlier raw prices. A window of the trend line with +inf and -inf among those earlier prices makes python's fsum raise too; the model gives nan there."
  },
  {
   "property": "C109",
   "status": "partial",
   "theorems": [
    "Bta.Life.C109_not_released",
    "Bta.Life.C109_grows",
    "Bta.Life.C109_partial",
    "Bta.Life.C109_result",
    "Bta.Life.C109_nested_result",
    "Bta.Life.C109_raised"
   ],
   "note": "Violated: the tables of minimum periods have the inputs and outputs of each call as keys and are never emptied, so all data given to a call and all outputs are kept whatever the user drops (C109_not_released, C109_grows). The object of a call which raises stays on the call stack for ever (C109_raised). C109_partial: else the indicator object itself is released. C109_result, C109_nested_result: nothing in use is released."
  },
  {
   "property": "C110",
   "status": "partial",
   "theorems": [
    "Bta.C110_raises",
    "Bta.C110_numbers",
    "Bta.C110_slice",
    "Bta.C110_partial"
   ],
   "note": "Violated: loc is iloc. Dates raise TypeError (C110_raises), integer labels are taken as positions (C110_numbers, exact condition), slices lack their last bar (C110_slice). C110_partial: single bars with an index 0, 1, 2, ... The value comes inside of a line object, see C94."
  },
  {
   "property": "C111",
   "status": "proved",
   "theorems": [
    "Bta.C111_crossup",
    "Bta.C111_crossdown",
    "Bta.C111_crossup_binary64",
    "Bta.C111_crossdown_binary64",
    "Bta.C111_extremes",
    "Bta.C111_index"
   ],
   "note": "Flt R: any rounding with the laws of Float.lean and Spec.Gradual (no difference of different numbers is rounded to zero); binary64_gradual proves it for IEEE double precision, thanks to its subnormal numbers. Positions for periods up to 2^24."
  },
  {
   "property": "C112",
   "status": "proved",
   "theorems": [
    "Bta.C112_truerange",
    "Bta.C112_truerange_sign",
    "Bta.C112_atr",
    "Bta.C112_natr",
    "Bta.C112_dm",
    "Bta.C112_di",
    "Bta.C112_dx",
    "Bta.C112_adx",
    "Bta.C112_adxr",
    "Bta.C112_mad",
    "Bta.C112_bbands"
   ],
   "note": "Rounded arithmetic: any Rounding R. dm needs no hypothesis on the data; C112_bbands holds for any computed square root without negative results and any average whose results are stored numbers (sma, ema, smma: givesStored)."
  },
  {
   "property": "C113",
   "status": "partial",
   "theorems": [
    "Bta.C113_averages",
    "Bta.C113_differences",
    "Bta.C113_oscillators",
    "Bta.C113_dispersion",
    "Bta.C113_levels",
    "Bta.C113_movement",
    "Bta.C113_no_value",
    "Bta.C113_directional",
    "Bta.C113_rsi_returns",
    "Bta.C113_kama_lost",
    "Bta.C113_cmo_returns",
    "Bta.C113_stochastic_returns",
    "Bta.C113_cci_returns",
    "Bta.C113_directional_returns"
   ],
   "note": "Violated by kama (C113_kama_lost: no value ever again after a flat window; C19_flat_window). All others proved for constant lines of any length and minimum period: C113_averages, C113_differences, C113_oscillators, C113_dispersion, C113_levels, C113_movement, C113_no_value, C113_directional; values come back: C113_rsi_returns, C113_cmo_returns, C113_stochastic_returns (with williamsr), C113_cci_returns, C113_directional_returns (+di, -di, dx). beta and correlation of flat windows: C33_beta, C33_correl."
  },
  {
   "property": "C114",
   "status": "partial",
   "theorems": [
    "Bta.Meta.C114_last_set",
    "Bta.Meta.C114_snapshot",
    "Bta.Meta.C114_restore_partial",
    "Bta.Meta.C114_restore_lost",
    "Bta.Meta.C114_config",
    "Bta.Meta.C114_name_lost",
    "Bta.Meta.C114_name_partial",
    "Bta.Meta.C114_return_partial",
    "Bta.Meta.C114_mode_partial",
    "Bta.Meta.C114_mode_ignored"
   ],
   "note": "Proved for all programs: each setting is what it was last set to, what get_input_indices returned is a snapshot, DataFrames are returned as set (C114_return_partial: as long as no initialiser has failed, C57). Violated: passing a snapshot to set_input_indices does not remove names configured since (C114_restore_lost; otherwise it restores every call, C114_restore_partial), a column configured by a name with upper case letters is never found (C114_name_lost; lower case names are, C114_name_partial), and _talib=False does not switch the global ta-lib mode off (C114_mode_ignored; otherwise C114_mode_partial)."
  },
  {
   "property": "C115",
   "status": "partial",
   "theorems": [
    "Bta.C115_chain_lost",
    "Bta.C115_truth_lost",
    "Bta.C115_truth_is_length",
    "Bta.C115_builtin_lost",
    "Bta.C115_in_lost",
    "Bta.C115_and_partial",
    "Bta.C115_chain_wrong"
   ],
   "note": "Violated: lines have __len__ and no __bool__, so each condition with at least one bar is true: in a chain all comparisons but the last are ignored (C115_chain_lost, C115_chain_wrong), and/or/not/if/all/any do not look at values (C115_truth_lost), builtin max and min return their last argument (C115_builtin_lost), in is always true (C115_in_lost). Proved: (x < y) & (y < z) has the expected value in every delivered bar (C115_and_partial)."
  },
  {
   "property": "C116",
   "status": "proved",
   "theorems": [
    "Bta.C116_ema",
    "Bta.C116_smma",
    "Bta.C116_dema",
    "Bta.C116_tema",
    "Bta.C116_macd",
    "Bta.C116_obv_drift",
    "Bta.C116_atr",
    "Bta.C116_apo",
    "Bta.C116_restart",
    "Bta.C116_obv"
   ],
   "note": "Binary64 arithmetic (fl64, shown to be that of IEEE 754 by C107_binary64_nearest). Compared with the exact averages of Spec (C10, C16, C20). The seed is summed from left to right (Series.mean may use another order; the bound used for it, 4 p 2^-53 B, is larger than that of any order). C116_obv_drift is the limit stated in the property."
  },
  {
   "property": "C117",
   "status": "proved",
   "theorems": [
    "Bta.Api.C117_defaults",
    "Bta.Api.C117_covered",
    "Bta.Api.C117_order",
    "Bta.Api.C117_explicit",
    "Bta.Api.C117_unknown"
   ],
   "note": "Calls with python keywords, from the keyword dictionary to the calculation (Api.call joins the models of parameters, hooks and initialisers). C117_defaults: the default call of each public class is the documented calculation (table Spec.documented, written by hand); C117_covered: all public classes but mavp (C42) and truehigh (C62) are in the table; C117_order, C117_explicit, C117_unknown. The results of the calculations themselves are the subject of the other properties."
  },
  {
   "property": "C118",
   "status": "partial",
   "theorems": [
    "Bta.Api.C118_unread",
    "Bta.Api.C118_t3",
    "Bta.Api.C118_accum",
    "Bta.Api.C118_effect_partial",
    "Bta.Api.C118_degrees"
   ],
   "note": "The property is violated: bbands _stdev, cci _dev, correl _rets and _prets, mad _ma, trima _ma, wma coef and ewma _seed (documented as having no effect) are never read (C118_unread: any value, other keywords and data), t3 _ma is read with _gd only (C118_t3), and _accum of the directional movement indicators takes no class of the library but smacc (C118_accum: TypeError for all data). C118_effect_partial: every other parameter of every other public class but mavp, truehigh and crossover (which always raises) has an effect; C118_degrees says what degrees does, for any numpy functions."
  },
  {
   "property": "C119",
   "status": "partial",
   "theorems": [
    "Bta.Api.C119_defaults",
    "Bta.Api.C119_unchanged",
    "Bta.Api.C119_given",
    "Bta.Api.C119_false",
    "Bta.Api.C119_documented",
    "Bta.Api.C119_setting",
    "Bta.Api.C119_macd",
    "Bta.Api.C119_global_partial",
    "Bta.Api.C119_global_kama"
   ],
   "note": "C119_defaults, C119_unchanged, C119_given, C119_false and C119_documented hold for all keywords and data. The property is violated in two points: macd with compatibility raises TypeError for any average of the library but ema (C119_macd), and the keyword does not reach kama (or smacc) given as average of another indicator while the setting does (C119_global_kama); C119_global_partial: keyword and setting are the same otherwise, C119_setting the default calls."
  },
  {
   "property": "C120",
   "status": "proved",
   "theorems": [
    "Bta.Api.C120_frame",
    "Bta.Api.C120_documented",
    "Bta.Api.C120_series",
    "Bta.Api.C120_lines",
    "Bta.Api.C120_single",
    "Bta.Api.C120_too_few",
    "Bta.Api.C120_result",
    "Bta.Api.C120_too_many",
    "Bta.Api.C120_none",
    "Bta.Api.C120_first_columns",
    "Bta.Api.C120_outputs",
    "Bta.Api.C120_outputs_stochrsi"
   ],
   "note": "Inputs and outputs of all classes written down independently and proved to be those of the declarations (C120_outputs also shows that the calculation gives as many lines, for all keywords and data). stochrsi with ta-lib compatibility has a second output (C120_outputs_stochrsi). ema, mad, stochrsi and gdema have initialisers which take positional arguments, so C120_too_many excludes them (ema(data, 5) would take 5 as poffset). Observed: the output of linearreg_angle is named slope, the one of ht_trendmode trendline; add(df), sub(df) etc. take the first two columns (C120_first_columns), open and high in a usual frame."
  },
  {
   "property": "C121",
   "status": "partial",
   "theorems": [
    "Bta.Api.C121_bars",
    "Bta.Api.C121_starts",
    "Bta.Api.C121_no_repaint_partial",
    "Bta.Api.C121_later_partial",
    "Bta.Api.C121_frame_partial",
    "Bta.Api.C121_defaults",
    "Bta.Api.C121_hilbert_partial",
    "Bta.Api.C121_not_hilbert",
    "Bta.Api.C121_not_offset"
   ],
   "note": "C121_bars and C121_starts hold for all usable calls. C121_no_repaint_partial (C121_frame_partial for frames) holds for all but ht_dcphase, ht_sine, ht_trendline and ht_trendmode: they raise if a bar without price is added (C121_not_hilbert), and if they give a result it is the earlier one with bars added (C121_hilbert_partial). C121_later_partial excludes kama, mama and positions (C97). Usable: C121_defaults shows that all indicators as they come are (but smacc itself, see C84_early_smacc); an offset of ema within its period repaints (C121_not_offset). The condition that macd with ta-lib compatibility has a fast period not longer than the slow one is sufficient, its necessity is not claimed."
  },
  {
   "property": "C122",
   "status": "partial",
   "theorems": [
    "Bta.Meta.C122_text",
    "Bta.Meta.C122_parameter",
    "Bta.Meta.C122_names",
    "Bta.Meta.C122_line",
    "Bta.Meta.C122_told",
    "Bta.Meta.C122_library_aliases",
    "Bta.Meta.C122_aliases_partial",
    "Bta.Meta.C122_not_aliases",
    "Bta.Meta.C122_not_docs"
   ],
   "note": "Proved for all classes and all texts: the help text, blanks aside, is the docstring, aliases, inputs, outputs, parameters with defaults and documentation, and the ta-lib remarks, in this order (C122_text, C122_names, C122_parameter); each parameter has its own line unless the line is wider than 78 (C122_line); for the library the stated default is what a call without the keyword uses (C122_told). The loop of textwrap.wrap is written out and proved to lose only blanks; its splitting into words, dedent, expandtabs and str.format are parameters with the laws of Spec.Python, which docs0 meets. Violated: a class which declares no alias lists the aliases of its base, although these names stand for the base (C122_not_aliases; C122_aliases_partial for classes with own aliases); the documentation of inherited parameters is missing (C122_not_docs, the cause is that of C53). Aliases of the library taken away by other classes: C61. Blank lines inside of documentation of parameters are dropped."
  },
  {
   "property": "C123",
   "status": "partial",
   "theorems": [
    "Bta.Names.C123_values",
    "Bta.Names.C123_read",
    "Bta.Names.C123_name_partial",
    "Bta.Names.C123_not_caller",
    "Bta.Names.C123_not_shared",
    "Bta.Names.C123_frame"
   ],
   "note": "Proved for all histories: no values change (C123_values), the Series read has name and values of its line (C123_read), the frame has one column per output with its name and values and stays (C123_frame), and a name only changes to that of a line which shares the Series and is read (C123_name_partial). Violated: Line.series renames in place, so reading an input of an indicator renames the caller's Series (C123_not_caller) and lines which share a Series rename the Series already read from each other (C123_not_shared)."
  },
  {
   "property": "C124",
   "status": "partial",
   "theorems": [
    "Bta.Api.C124_shape_partial",
    "Bta.Api.C124_threshold_partial",
    "Bta.Api.C124_defaults_partial",
    "Bta.Api.C124_not_hilbert"
   ],
   "note": "Holds for all classes and usable keywords but four: C124_shape_partial (same shape, same outcome), C124_threshold_partial (always the same exception, or a threshold), C124_defaults_partial (the thresholds without keywords). It fails for ht_dcphase, ht_sine, ht_trendline, ht_trendmode: C124_not_hilbert (a NaN price gives a ValueError, see C108). mavp takes integer periods as an input and is not a call of this kind (C42)."
  },
  {
   "property": "C125",
   "status": "proved",
   "theorems": [
    "Bta.C125_values",
    "Bta.C125_first",
    "Bta.C125_raises",
    "Bta.C125_added",
    "Bta.C125_talib",
    "Bta.C125_one_pass",
    "Bta.C125_talib_not_dema"
   ],
   "note": "For every average and every arithmetic (C42 is about exact arithmetic and the formulas of the averages). With dema and ta-lib compatibility added bars can take back a value, see C125_talib_not_dema, which is why the last part of the claim is about averages of one pass."
  },
  {
   "property": "C126",
   "status": "proved",
   "theorems": [
    "Bta.Api.C126_formula",
    "Bta.Api.C126_mavp",
    "Bta.Api.C126_mavp_defaults"
   ],
   "note": "Spec.ByCalls gives the formulas with Api.call and operators between lines. With ta-lib compatibility macd calls the fast average with an offset (C119) and stochrsi has a second output, which is why both are without it."
  },
  {
   "property": "C127",
   "status": "proved",
   "theorems": [
    "Bta.Api.C127_dm",
    "Bta.Api.C127_di",
    "Bta.Api.C127_dx",
    "Bta.Api.C127_natr",
    "Bta.Api.C127_roc",
    "Bta.Api.C127_midpoint",
    "Bta.Api.C127_minmax",
    "Bta.Api.C127_minmaxindex",
    "Bta.Api.C127_aroonosc",
    "Bta.Api.C127_angle",
    "Bta.Api.C127_parts"
   ],
   "note": "Equations between calls (C127_dm, _di, _dx, _natr, _roc, _midpoint, _minmax, _aroonosc, _angle) hold with exceptions included: both sides are the same outcome for every dictionary of keywords. C127_minmaxindex and C127_parts say what a result is when there is one; whether a call raises is C124. The averages inside adx and gdema are those a user can call (as in C126)."
  },
  {
   "property": "C128",
   "status": "partial",
   "theorems": [
    "Bta.Dt.C128_formula_partial",
    "Bta.Dt.C128_indicators_partial",
    "Bta.Dt.C128_any_floats",
    "Bta.Dt.C128_not_signal",
    "Bta.Dt.C128_signal_float",
    "Bta.Dt.C128_not_volume",
    "Bta.Dt.C128_not_count",
    "Bta.Dt.C128_mavp",
    "Bta.Dt.C128_not_mavp"
   ],
   "note": "Formulas which keep to a static rule (a signal meets only things which are float for sure) and all indicators of the catalogue: proved, for any data of whole numbers and floats (C128_formula_partial, C128_indicators_partial; the right hand side is the model of the other properties). Where inputs are added, subtracted or multiplied before they meet a float, the floats are assumed to calculate exactly with whole numbers (ExactInts: holds for the exact values Ext K by exactInts_ext, for float64 only while numbers stay below 2^53); for the other indicators nothing is assumed (C128_any_floats). Violated, proved: signal with an int number (C128_not_signal; with floats: C128_signal_float), signal with a series of whole numbers (C128_not_volume), cumsum of a signal (C128_not_count), mavp (C128_mavp, C128_not_mavp). Loops (sar, Hilbert family, mama) and averages count as one operation with float result; overflow of int64 is not modelled."
  },
  {
   "property": "C129",
   "status": "partial",
   "theorems": [
    "Bta.Api.C129_inputs_partial",
    "Bta.Api.C129_caught_partial",
    "Bta.Api.C129_others",
    "Bta.Api.C129_indicator",
    "Bta.Api.C129_not_indicator",
    "Bta.Api.C129_not_remapped"
   ],
   "note": "Proved for all classes, arguments, keywords and configurations: the text of the InputsError a call raises is exactly the one the specification gives (C129_inputs_partial, C129_caught_partial); all other exceptions are of five kinds (C129_others). Violated in two cases, which are characterized: another indicator as the only argument is refused by its number of bars, not of outputs (C129_indicator, C129_not_indicator); for an indicator with one input, a column configured by name leads to a TypeError if the frame has no column with the name of the input, even if the configured one is there (C129_not_remapped). A DataFrame given within an indicator (PandasNotTopStack) is in C49_rejects."
  },
  {
   "property": "C130",
   "status": "proved",
   "theorems": [
    "Bta.C130_one_rounded",
    "Bta.C130_ago",
    "Bta.Api.C130_extremes",
    "Bta.Api.C130_extremes_rounded",
    "Bta.Api.C130_add",
    "Bta.Api.C130_telescope",
    "Bta.Api.C130_one",
    "Bta.Api.C130_total"
   ],
   "note": "exact arithmetic, extremes also in rounded arithmetic and delays in any; running totals with default parameters; C130_one_rounded: sum, extremes, simple, weighted and triangular average over one bar in any rounded arithmetic, for lines of numbers the format can show and missing values"
  },
  {
   "property": "C131",
   "status": "proved",
   "theorems": [
    "Bta.C131_sum",
    "Bta.C131_max",
    "Bta.C131_min",
    "Bta.C131_sma",
    "Bta.C131_wma",
    "Bta.C131_trima",
    "Bta.C131_smacc",
    "Bta.C131_midprice",
    "Bta.C131_midpoint",
    "Bta.C131_prices",
    "Bta.C131_not_ema",
    "Bta.C131_not_smma",
    "Bta.C131_not_updated",
    "Bta.C131_whole"
   ],
   "note": "For every rounding which keeps the order (binary64 is one), with Spec.Beneath for two lines; C131_not_ema and C131_not_smma show on concrete doubles that the exponential averages do not follow (pandas returns the average unchanged if it equals the new value, and divides rounded weights otherwise). As in C107 a rolling sum is the sum of each window by itself. With sums updated from bar to bar, as pandas 1.0 does, a sum does not follow its input in double precision (C131_not_updated), but the simple average of prices in whole units does (C131_whole)."
  },
  {
   "property": "C132",
   "status": "partial",
   "theorems": [
    "Bta.C132_signs",
    "Bta.C132_reflected",
    "Bta.C132_compare",
    "Bta.C132_compare_derived",
    "Bta.C132_unary_negation",
    "Bta.C132_signs_negation",
    "Bta.C132_logic",
    "Bta.C132_div_negation"
   ],
   "note": "Signs, in-place signs, methods, reflected forms and comparisons proved (C132_signs, C132_reflected, C132_compare, C132_compare_derived, C132_logic), given what pandas documents of its method names (Spec.Documented). Violated: -x, +x, ~x, round(x), x @ y, divmod raise TypeError; abs(x) and hash(x) do for indicators; & | ^ have no reflected form; __div__ and __rdiv__ are there but raise (C132_unary_negation, C132_signs_negation, C132_div_negation). Numpy numbers and pandas objects on the left are not modelled."
  },
  {
   "property": "C133",
   "status": "proved",
   "theorems": [
    "Bta.C133_averages",
    "Bta.C133_fast_averages",
    "Bta.C133_oscillators",
    "Bta.C133_apo",
    "Bta.C133_extremes",
    "Bta.C133_sums",
    "Bta.C133_prices",
    "Bta.C133_ranges",
    "Bta.C133_rsi_not",
    "Bta.C133_stddev",
    "Bta.C133_bbands"
   ],
   "note": "Spec.Near and Spec.Steady state the bounds for two lines; each theorem covers all lengths, periods and minimum periods. For stddev and bbands the root is assumed to be exact (as for real numbers). C133_rsi_not is the counterpart for rsi; kama, sar, the stochastic oscillators and ratios are not claimed."
  },
  {
   "property": "C134",
   "status": "proved",
   "theorems": [
    "Bta.C134_averages",
    "Bta.C134_smma",
    "Bta.C134_fast",
    "Bta.C134_macd",
    "Bta.C134_extremes",
    "Bta.C134_var"
   ],
   "note": "Spec.Trend and Spec.Lags say what a lag is; C134_averages, C134_fast (for any line which is itself a delayed trend, so they compose), C134_smma with the exact lag at each bar, C134_macd (with apo), C134_extremes, C134_var. linearreg and tsf on straight lines: C32_on_line."
  },
  {
   "property": "C135",
   "status": "proved",
   "theorems": [
    "Bta.C135_weighted",
    "Bta.C135_spread",
    "Bta.C135_change",
    "Bta.C135_order",
    "Bta.C135_exponential",
    "Bta.C135_fast",
    "Bta.C135_macd",
    "Bta.C135_not_ema",
    "Bta.C135_gdema",
    "Bta.C135_t3"
   ],
   "note": "Equality of whole lines. C135_weighted shows that the window averages are Spec.Weighted, C135_spread, C135_change and C135_order hold for everything which is; C135_exponential, C135_fast, C135_gdema, C135_t3 and C135_macd for Spec.Superposes (lines which start at the same bar). C135_not_ema: concrete lines for which the exponential averages differ, as the property says."
  },
  {
   "property": "C136",
   "status": "proved",
   "theorems": [
    "Bta.C136_exponential",
    "Bta.C136_window",
    "Bta.C136_mom"
   ],
   "note": "Spec.Pulse says by which share of the error each value is wrong; Spec.during and Spec.fading are the two kinds of shares. C136_window, C136_exponential, C136_mom. Indicators which are not linear are not claimed (for extremes see C133, for windows C85)."
  },
  {
   "property": "C137",
   "status": "proved",
   "theorems": [
    "Bta.C137_index",
    "Bta.C137_aroon",
    "Bta.C137_obv",
    "Bta.C137_obv_talib",
    "Bta.C137_cross",
    "Bta.C137_extremes",
    "Bta.C137_not_rsi"
   ],
   "note": "exact arithmetic; whole lines are equal (values and minimum period); obv in both forms (C137_obv, C137_obv_talib); C137_not_rsi is the counterpart for rsi"
  },
  {
   "property": "C138",
   "status": "proved",
   "theorems": [
    "Bta.C138_step",
    "Bta.C138_first",
    "Bta.C138_trend"
   ],
   "note": "exact arithmetic, input with minimum period 1 (else kama raises: C19_raises), look-back of the volatility 1 (with another one the part can exceed 1: C13_kama_pvol_fails); a period without any move is C19_flat_window"
  },
  {
   "property": "C139",
   "status": "proved",
   "theorems": [
    "Bta.C139_symmetric",
    "Bta.C139_perfect",
    "Bta.C139_beta_multiple",
    "Bta.C139_beta_combination",
    "Bta.C139_beta_correl",
    "Bta.C139_slope"
   ],
   "note": "exact arithmetic and an exact square root (the real one is shown to be one); lines which begin at different bars: see C33_correl_later; beta of returns is the same function on the returns"
  },
  {
   "property": "C140",
   "status": "proved",
   "theorems": [
    "Bta.C140_bands",
    "Bta.C140_bands_sharp",
    "Bta.C140_cci",
    "Bta.C140_cci_sharp",
    "Bta.C140_spread",
    "Bta.C140_ppo",
    "Bta.C140_ppo_sma",
    "Bta.C140_roc"
   ],
   "note": "exact arithmetic with an exact square root; bounds of bbands and cci are shown to be the best possible ones"
  },
  {
   "property": "C141",
   "status": "proved",
   "theorems": [
    "Bta.C141_kama",
    "Bta.C141_kama_down",
    "Bta.C141_averages",
    "Bta.C141_chain",
    "Bta.C141_macd",
    "Bta.C141_never_below",
    "Bta.C141_slope",
    "Bta.C141_rsi",
    "Bta.C141_obv",
    "Bta.C141_mfi",
    "Bta.C141_directional",
    "Bta.C141_averages_down",
    "Bta.C141_macd_down",
    "Bta.C141_rsi_down",
    "Bta.C141_rounded",
    "Bta.C141_rounded_false"
   ],
   "note": "exact arithmetic; rsi with Wilder's average (the default); C141_rounded and C141_rounded_false: floating point"
  },
  {
   "property": "C142",
   "status": "proved",
   "theorems": [
    "Bta.C142_sma",
    "Bta.C142_trima",
    "Bta.C142_mom",
    "Bta.C142_roc",
    "Bta.C142_rsi",
    "Bta.C142_exponential",
    "Bta.C142_windows"
   ],
   "note": "Spec.Season says what a season with a trend is; the straight lines are stated with Spec.Trend of C134, so that the theorems there apply to them. C142_windows uses C85 (windowed calls are listed by Call.Windowed) and holds for every type of values; the others are in exact arithmetic."
  },
  {
   "property": "C143",
   "status": "proved",
   "theorems": [
    "Bta.C143_none_missed",
    "Bta.C143_alternate",
    "Bta.C143_side",
    "Bta.C143_total",
    "Bta.C143_strict",
    "Bta.C143_binary64"
   ],
   "note": "C143_none_missed, _alternate, _side, _total, _strict speak of the delivered numbers of crossup and crossdown and of the inputs, in exact arithmetic; C143_binary64 says the same for double precision. crossover itself raises (C37)."
  },
  {
   "property": "C144",
   "status": "proved",
   "theorems": [
    "Bta.C144_spread",
    "Bta.C144_sample",
    "Bta.C144_bbands",
    "Bta.C144_path",
    "Bta.C144_truerange"
   ],
   "note": "Exact arithmetic. Theorems on the root of the variance take a root that is exact on numbers >= 0 (the real square root is one)."
  },
  {
   "property": "C145",
   "status": "proved",
   "theorems": [
    "Bta.C145_cross",
    "Bta.C145_obv",
    "Bta.C145_windows",
    "Bta.C145_rsi"
   ],
   "note": "Exact arithmetic, data from the first bar on. Spec.Fills says which bar is shown at each bar of the filled data."
  },
  {
   "property": "C146",
   "status": "partial",
   "theorems": [
    "Bta.C146_windows_partial",
    "Bta.C146_missing_partial",
    "Bta.C146_indicators_partial",
    "Bta.C146_extremes",
    "Bta.C146_binary64_false",
    "Bta.C146_whole",
    "Bta.C146_accuracy",
    "Bta.C146_oscillators_partial",
    "Bta.C146_oscillators_false",
    "Bta.C146_cmo_whole",
    "Bta.C146_sma_whole",
    "Bta.C146_ultosc_whole"
   ],
   "note": "Proved in exact arithmetic for pandas' loops (Verif/Running.lean describes aggregations.pyx of pandas 1.0), with missing and infinite values; for highest and lowest under any rounding (C146_extremes); for sums of whole numbers in double precision (C146_whole). For other numbers the error grows at most in proportion to the number of bars times the greatest price (C146_accuracy). It does not fade, so the property is false in double precision: C146_binary64_false - after one price of 2^53 a price of 3 has an sma of 4 and a variance of 2^52 at all later bars. Oscillators: C146_oscillators_partial in exact arithmetic; in double precision they leave their ranges by far when the price stands still after moves (C146_oscillators_false: mfi 160, cmo -300, ultimateoscillator below -20); with prices in whole units cmo is exact but for one rounding and within -100..100 (C146_cmo_whole), sma likewise and within its prices (C146_sma_whole), ultimateoscillator from 0 to 100 + 2^-46 (C146_ultosc_whole)."
  },
  {
   "property": "C147",
   "status": "proved",
   "theorems": [
    "Bta.C147_windows",
    "Bta.C147_averages",
    "Bta.C147_mom",
    "Bta.C147_linreg",
    "Bta.C147_beta",
    "Bta.C147_correl",
    "Bta.C147_crosses",
    "Bta.C147_others_false"
   ],
   "note": "In exact arithmetic, for data from the first bar on (bars n x). C147_others_false refutes the symmetry for the default crossings and for wma."
  },
  {
   "property": "C148",
   "status": "partial",
   "theorems": [
    "Bta.C148_tests",
    "Bta.C148_above",
    "Bta.C148_idx",
    "Bta.C148_extremes",
    "Bta.C148_idx_value",
    "Bta.C148_highest",
    "Bta.C148_count",
    "Bta.C148_changes",
    "Bta.C148_dot",
    "Bta.C148_forward_false"
   ],
   "note": "In exact arithmetic for lines with minimum period at least 1; C148_forward_false is the negation for forward shifts. With the default index, whose labels are the numbers of the bars."
  }
 ]
}