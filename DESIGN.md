# Formal model of bta-lib in Lean 4: design

## 1. What is modelled

bta-lib computes technical indicators on pandas Series.  The code is split here in layers, each with its own Lean
modules under `lean/Verif/`:

| layer | code | Lean |
|---|---|---|
| numbers | python/numpy floats | `Num.lean`: `PyFloat V` (operations without any law) and `Ext K`, the exact instance: finite value of an ordered field `K`, `+inf`, `-inf`, `nan` |
| pandas kernels | slicing, `shift`, `diff`, `rolling`, `ewm`, `clip`, `cumsum`, ... | `Kernel.lean` (trusted description of third-party behaviour); `Running.lean`: the loops by which pandas computes rolling windows (C146) |
| lines | `meta/lines.py`, `meta/linesops.py` | `Line.lean`, `LineMore.lean`; formulas a user writes with lines: `Expr.lean`; results with several outputs as operands: `Holder.lean`; operands with other dates: `Align.lean` |
| indicators | `indicators/*.py` | `Ind/Core.lean`, `Ind/Ht.lean` (Hilbert family); `Ind/Catalog.lean`: all classes as one datatype `Call` with a single `run` |
| meta | `meta/{lines,inputs,params,groups,aliases,metadata,linesholder}.py`, `indicator.py`, `config.py` | `Meta/*.lean`: `Inputs`, `Params`, `LineDefs`, `Registry`, `Call`, `Settings`, `Result` (reading results), `Py` (python values, attribute lookup); `Meta/Table.lean` is the table of all class definitions, written by `tools/gentable.py` from the source |
| calls with keywords | `indicator.py:79-181` with the class statements | `Api.lean`: `call`; parameters and hooks of all classes: `Meta/Decls.lean`. `outside` (not modelled): periods which are not natural numbers, functions or own classes as averages, further keywords of `DataFrame.ewm`, `mavp`, `minmaxindex` as an average, `stochrsi(_pfast=..)` without compatibility |
| memory | numpy buffers, views and copies | `Heap.lean`: buffers with owners, `values`, `copy`, `Series(...)`, in-place writes |

Property theorems are in `Props/*.lean`.  Specifications which do not use the model's helpers are in `Spec/*.lean` (or inline
in the statement).  Auxiliary lemmas are in `Lemmas/*.lean`:

* `Rep`, `Calc`, `Ranges`: a line *holds* a function `x : ℕ → K` from its minimum period on (`Holds`, `Shows`, `RepW`), and each
  line operation maps such representations to each other.  Values of indicators are computed with it.
* `Ewm`, `Ewm2`, `Mas`, `Avg`, `Osc`, `Cum`, `Stat`, `Ht`: the same for exponential averages, averages as parameters, oscillators,
  cumulated sums, window statistics, the Hilbert loops.
* `Causal`: prefix preserving list functions (`CausalL`), `Pref`.
* `Rel`, `RelInst`: `LRel V` is a logical relation on lines which is preserved by each primitive operation.  `Call.rel` says that
  then every indicator call preserves it.  Instances: extending the data (C84), same window (C85), warm-up (C86), number of
  bars (C02).
* `Need`: minimum periods of each operation, average and call (C04); `Short`: the bars below which they raise (C12).
* `Late`: the instances of `LRel` for lines put off by k bars, in both directions (C97).
* `Rounding`, `Flt`: binary64 and ranges in rounded arithmetic (C107).
* `Fading`: formulas whose values for two histories become close (C102).
* `Natural`: line operations commute with functions applied bar by bar; `Scale`, `Units`, `Units2`, `Units3`: with a change of units, for
  all calls (C88).  `Sign`, `Mirror`, `Mirror2` ... `Mirror5`: with the change of sign, exact and rounded (C89).  `Level`, `Level2`,
  `Level3`: with the addition of an amount (C103).

### Values
* The model is generic over a type `V` of values with operations (`PyFloat V`)
  and *no laws*.  All structural theorems (causality, length, warm-up,
  minimum periods) hold for each such `V`, hence also for IEEE doubles.
* Numeric theorems are about `Ext K` where `K` is any linearly ordered field:
  `fin x | pinf | ninf | nan` with IEEE rules for infinities and nan, comparisons
  with nan being false, `x/0 = +-inf`, `0/0 = nan`.  Simplifications: no rounding (except in C107),
  no overflow, no signed zero (0 counts as +0).
* `sqrt`, `atan`, `sin`, ... are parameters: theorems hold for every function, or
  state the law they need (`0 <= sqrt x`, ...).

### Lines
`Line a = { series : List a, minperiod : Int }`; `a = V` for float lines and `Bool`
for comparison results, which mirrors the dtype.  Python slicing with negative
indices is modelled exactly (`pyStart`).  Exceptions are values (`Except Err`).

Simplifications: all series of one call share one index of a non-integer type (e.g. a
DatetimeIndex as in the test-suite), so that `s[i]` with an int is positional and that
binary operations align position by position; periods are natural numbers.

### Trusted base
Lean's kernel; the axioms `propext`, `Classical.choice`, `Quot.sound` (each theorem depends on a subset, checked
with `#print axioms` through vcheck); the transcription of the python code into the definitions (each has a
citation of file and lines, checked for existence by `tools/anchors.py`); the description of pandas/numpy 1.0 behaviour in
`Kernel.lean` (and of buffers, views and copies in `Heap.lean`); the transcribers `tools/gentable.py` and `tools/gendecls.py` for the tables of classes and parameters.
No axioms are added; no `sorry`, `native_decide` or `bv_decide` is used.  `decide +kernel` is used for facts about the finite table of
classes (which is then the complete domain) and for the concrete cases beside the theorems.

## 2. Properties: how they are modelled and proved

(P = positive theorem; N = the code violates the natural statement, the negation is
proved on a concrete witness or in general, with a `_partial` theorem for the part which does hold.)

| id | model | proof |
|---|---|---|
| C01 P | all line ops, `Pref` relation (same minimum period, one series a prefix of the other) | each op preserves `Pref`; induction over an expression language of ops |
| C02 P | all ops, all indicators | length lemmas, induction over expressions; `barsRel` instance of the logical relation |
| C03 P | float valued ops | pointwise lemma; for programs on plain data, and on lines with any contents (`C03_operands`) |
| C04 P | all ops, composed indicators | computation on `minperiod` (`Lemmas/Need`); all calls of the catalogue, table of the defaults |
| C05 P | `binop` | pointwise lemma |
| C06 N | `binop`, holder operand (`_minperiod` = max of outputs, `_series` = first output) | partial: lines commute, holders if no output is slower than both the first output and the other operand; witness otherwise |
| C07 N | window object as state machine (`_minperiod` mutated on each attribute access): `WinObj.lean` with reading attributes (found by pandas or not), keeping and calling operations, `_seeded` | closed formula for the minimum period after any history, values unchanged (`C07_histories`), when it is right (`C07_right_partial`: one read, one bar, or no period); each operation of a line is the one of a fresh object |
| C08 N | `Line.__call__` with `Int` shift and python slices | witness: forward shift gives minimum period 0 and a following `abs` loses all bars but the last |
| C09 P | `rolling` | window lemma |
| C10 P | `_ewm` constructor + pandas `ewm(adjust=False)` kernel | recursion lemma, pointwise characterisation |
| C11 P | `_mean_exp`, `_lfilter` | induction; with rounded results for the factor 1, which `smacc` uses (`Props/Scipy`), and a counterexample for another |
| C12 N | `_ewm` raising IndexError on short data; the catalogue with `Spec.bars` | partial: rolling family; negation for ema: raises for every short series; for every call of the catalogue the exact number of bars below which it raises (`C12_raises_below`, `C12_defaults`), and NaN lines otherwise |
| C13 N | sma wma trima ema smma; kama | convexity, induction; kama: partial (`_pvol=1`, plain data), witness that `_pvol=2` leaves the range |
| C14 P | same | linearity of window sums, induction on recursion |
| C15 P | wma | sum identity |
| C16 P | dema tema trix | composition of C10 |
| C17 P | trima | sum of sums = triangular weights |
| C18 P | t3 | composition |
| C19 N | dynamic-alpha `_ewm` | partial for minimum period 1; negation: IndexError for all inputs with larger minimum period |
| C20 P | macd both modes | composition |
| C21 P | rsi with abstract average | arithmetic on `Ext K` |
| C22-C27 P | the indicators | arithmetic over windows |
| C28 P | dm, di, dx, adx | arithmetic, induction through smoothing |
| C29 N | `_di` with `LinesHolder._period` | theorem: minimum period is p+2, value available at p+1 |
| C30-C35 P | bbands var linreg beta correl obv ad | algebra, induction |
| C36 P | crossup/crossdown | induction over the forward fill |
| C37 N | boolean lines, numpy rule bool-bool -> TypeError | negation for all inputs |
| C38 P | sar loop | loop invariant |
| C39 P | sarext loop | simulation between loops |
| C40, C41 P | Hilbert loops with arbitrary arctangent | loop invariants |
| C42 N | mavp | partial: value; witness: warm-up changes when later periods grow |
| C43 N | maxindex/minindex | partial: minimum period 1; witness: shifted for others |
| C44-C48 P | roc family, price, midpoint, ultosc, ppo | algebra; C48 also with floating point numbers and divisions by zero |
| C49 P | `_from_arg_dataframe` | invariant: free list has no duplicates |
| C50 N | same | partial: if all names are columns; witness of stolen column |
| C51 N | `_from_arg_linesholder` | witness; characterisation |
| C52 N | `_from_kwargs`, `_generate` | association lists; witness: tuple defaults |
| C53 N | params `_generate` | witness tuple default; partial for non-tuple |
| C54 P | lines `_generate` | list lemmas |
| C55 N | alias properties with late binding | witness with 2 mappings; partial for one mapping |
| C56 P | auto-call order | induction on hierarchy depth |
| C57 N | call stack state machine | partial: successful calls; negation after failing ones |
| C58 N | class level `__slots__` as state | witnesses; partial without these calls |
| C59 N | thread-local store as partial map | negation for every non-importing thread |
| C60 N | `_talib` hooks as setdefault | association lists; minmaxindex gets the flag back |
| C61 N | alias/group registration as fold over the table of definitions | witnesses; partial: last writer wins |
| C62 N | truehigh | negation |
| C63 P | smacc, smma | induction |
| C64 P | stochrsi | C22 |
| C65 N | boolean lines | general negation: True in the warm-up; partial: right from the minimum period on |
| C66 P | ht_trendmode, ht_sine | range lemma |
| C67 P | heap of buffers | non-interference invariant |
| C68 N | ppofast | general negation: the delivered value is the opposite |
| C69 N | beta | negation for all data (a security moving k times the market gives 1/k); partial: identity with swapped inputs |
| C70 N | two-input rolling with one declared warm-up | negation for every later second input; partial for `m' <= m` |
| C71 P | trend line loop | convex combination of means over at most 50 prices, 4 trend means |
| C72 P | phase arithmetic | case analysis on the quadrant, for every arctangent within (-90, 90) |
| C73 P | Hilbert loops | simulation of the loop on scaled prices |
| C74 N | mama/fama loops | partial (recursion, bounds of alpha); start at 0, raise on minimum period > 1 |
| C75-C77, C79 P | mad, cci, bop, adosc, arithmetic | algebra on windows |
| C78 N | unseeded ewm, both values of `adjust` | partial (recursion; with `adjust=True` the weighted mean of all values so far); negation: values before the minimum period |
| C80 P | input binding | induction on the declared inputs |
| C81 N | parameter resolution, initialiser signatures | partial; witness `ema(data, 20)` taken as `poffset` |
| C82 P | `_period`, `_setval` | pointwise lemmas on slices assigned in place |
| C83 P | instance minimum period | fold over outputs |
| C84 N | catalogue of calls | logical relation "prefix"; the four Hilbert indicators which call `int`: loop invariant (as long as `int` does not raise all prices read are finite, so the look-back stays inside the past), negation with a NaN bar added |
| C85 P | catalogue, windowed calls | logical relation "same last bars" |
| C86 P | catalogue | logical relation "NaN before the minimum period" |
| C87 P | formulas (`Expr`) with the set of bars they read (`Spec/Formula.lean`) | induction over formulas |
| C88 P | catalogue of calls; units of inputs and outputs in `Spec/Unit.lean` | naturality of each operation in the unit (dimensional analysis), loop invariants for SAR and the Hilbert family |
| C89 P | catalogue of calls; the turned chart and what becomes of outputs in `Spec/Mirror.lean` | naturality in the change of sign in any arithmetic with the laws of `SignSym` (Lemmas/Sign.lean: exact and rounded); exchange of operands on lines of one length; loop invariant for SAR and the Hilbert family; ultosc and mfi: pressure and flows of both charts (`Props/Mirror2.lean`) |
| C90 N | `Meta/Result.lean`: `Lines`, `LinesHolder`, instance attributes; table of classes | slots of a generated class are distinct and no old names; naturality of the instance dictionary in the inputs, then the whole table; negations |
| C91 N | `LineMore.lean`: calls with the period by keyword, by position or left out; public `ewm` | pointwise representation of lines; negations for all lines |
| C92 N | `reduction_op`, `mpseries` | slices as lists of delivered bars; negation: forward shifts |
| C93 N | expanding windows | pointwise; prefix preservation; negation: `min_periods` by position |
| C94 N | `Line.__getitem__`; line objects around a number (`AnyLine`, Item.lean) | prefix relation (front); negation (back); `line[i]` as an operand by case analysis, everything else on it raises |
| C95 N | result read as series and taken as input again | pointwise comparison of both evaluations; negation on minimum periods |
| C96 P | column assignment of `_from_arg_dataframe` | invariant: the free columns are the existing ones not taken, in descending order; each round follows the inductive rule; the rule is functional |
| C97 P/N | every call of the catalogue on lines with a common delay | instance `lateRel` of the logical relation `LRel` (and its converse `lateRel'`): each primitive takes lines put off by k bars to such lines; N for kama, mama (raise) and absolute positions (not put off) |
| C98 P/N | `Reg`: the three registries, class creation, the six query functions (`Meta/Query.lean`) | invariant over histories (snoc induction); N for redefined names and for the lists handed out by `get_ind_by_group` |
| C99 P/N | `Module`: namespace and `__all__` of a module, class statements with aliases, star import | invariant over the statements; N for other names of the module and for a tuple as `__all__` |
| C100 P/N | `ParamsObj`: slots and values, attribute lookup, the mapping methods (`Meta/ParamsObj.lean`) | store after `_from_kwargs` = passed value or default; case analysis on lookup; N for a parameter `keys` and for names of methods |
| C101 P | the averages of `Ind/Core.lean`, as functions of two inputs (`Spec.Follows`) | monotone formulas (`Mono`); concrete data for dema, tema, t3, kama |
| C102 P | same (`Spec.Forgets`, `Spec.Geometric`) | `Fading`: bounded and uniformly close, closed under composition and linear combination; induction over the recursion; ratio estimate for rsi |
| C103 P/N | every call of the catalogue on prices with an amount added (`Spec.raised`) | `Lv.call`: each line operation commutes with the addition or cancels it (naturality for pointwise operations, windows of full length, the recursions of exponential averages, the loop of sar); N by a chart on which the differences are uneven |
| C104 P | `Align.lean`: series with dates, `binary_op` with pandas' alignment | the outer join of increasing dates is increasing and has the union of the dates; its length is that of the first operand iff the dates of the second are among those of the first |
| C105 P/N | `LineStd.lean`: `standard_op` with any pandas operation, which may change the number of bars; head, tail, dropna, drop_duplicates, append, nlargest, nsmallest | the assignment to the slice needs the same length; N: insertion sort gives a sorted permutation |
| C106 P/N | `LineStd.lean`: cummax, cummin, cumprod, ffill, bfill, rank, fillna, isna, notna, duplicated, between, where, mask, combine_first, combine, apply, replace, isin, interpolate | folds by induction over the bars; no lookahead by `CausalL`; N for bfill, interpolate, isin of a line and rank by comparison with one more bar, for all data |
| C107 P/N | `Float.lean`: rounded arithmetic `Flt R` for any order keeping rounding `R`; IEEE 754 binary64 (`fl64`) | `Lemmas/Rounding.lean`: binary64 is such a rounding, relative error; `Props/Ieee.lean`: and rounds to the nearest number of the format, ties to even, as IEEE 754 defines it; `Lemmas/Flt.lean`: signs and ranges through each line operation and the exponential average; `Props/Rounding.lean`, `Props/Flow.lean`; counterexamples by kernel evaluation of binary64 |
| C108 N | `Ind.htInts`, `Ind.htCheck`, `Call.run` | non-finite values are closed under the operations of one round: a bad price makes the period nan in the same round (`htStep_nf`); else the run equals one on finite prices (`htStep_congr`, invariant of C41) |
| C109 N | `Meta/Life.lean`: objects, references, the global tables, running calls and variables as a transition system | invariant over all histories; negation: everything entered into the tables stays reachable; partial: indicator objects |
| C110 N | `loc` / `iloc` accessors | negation with the exact condition for integer labels; partial for the index 0, 1, 2, ... |
| C111 P | crossings and extremes in rounded arithmetic (`Float.lean`) | the rounded difference is the image of the exact one under a map which keeps sign and zero; gradual underflow of binary64: all numbers are multiples of 2^-1074 |
| C112 P | true range, directional movement, mean deviation, bands in rounded arithmetic (`Float.lean`) | monotone rounding: the greatest of rounded differences is the rounded greatest; signs by induction over the smoothing loops (`smacc` with and without scipy); sums and differences of stored numbers stay on their side |
| C113 N | all averages, differences, dispersions and ratio oscillators on lines with one value | the value formulas (C09 ... C76) at a constant line: an affine average keeps constants (factor 0), ratios are `0/0`; kama: the NaN factor stays in its recursion |
| C114 N | `Meta/Settings.lean`: the variables and functions of `config.py`, with the dictionaries as cells of a memory, and programs of settings, readings, changes of what was read and calls | induction over programs with the invariant that users hold copies only; calls read the configured columns by name only, so equal readings give equal outcomes |
| C115 N | `Truth.lean`: truth of lines and indicators (`__len__`), python's rules for `and`, `or`, `not`, `if`, chains, `in`, `min`, `max`, `all`, `any` | length of comparisons (C05), induction over chains and lists |
| C116 P/N | the same code in binary64 (`Float.lean`): seed and loop of the exponential averages | `Lemmas/Accuracy.lean`: one operation is off by at most 2^-53 of its size, one step of the loop by 13 such units; the step is a contraction, so that the errors of earlier bars fade (induction over the bars); combinations by adding up errors; two histories by the contraction. Running sums: bound by the square of the number of summands (the sign of a change is not affected by rounding, C111) and counterexample to a fixed bound, both by induction over the bars |
| C117 P | `Api.lean`: `call E c kw x`, from the keyword dictionary through hooks, parameters and initialisers to the calculation; `Meta/Decls.lean` (generated by `tools/gendecls.py` from the class statements): declared parameters and hooks; `defaults_eq` shows that the defaults are what the model of `params.py` makes of the declarations | case analysis over the 117 classes; order and explicit defaults by: only the values of the keywords count (`Lemmas/Api.lean`) |
| C118 P/N | the same | the view of a call which gives an unread parameter differs in this parameter only; the other parameters: a table of keywords, values and data whose two results differ, evaluated in the kernel, and complete over all declared parameters |
| C119 P/N | the same, with the flag of the call and of the library | the keywords which arrive after the hooks are those of the call with the documented defaults; induction over averages for the setting |
| C120 P | `Api.invoke` (`ApiArgs.lean`): the arguments as a user gives them (series, frames, lines, results), bound to the inputs of the class as the metaclass computed them, then `Api.call` | inputs and outputs per class written down independently (`Spec.inputs`, `Spec.outputs`) and compared with the declarations; the binding loop by induction over the names; the outputs by cases over `build` |
| C121 P/N | `Api.call`, `Api.invoke` and the catalogue | conditions on keywords (`Spec.Usable`, `Spec.Without`) give the conditions of the catalogue by cases over `build` and induction over nested averages (`Lemmas/ApiCalls.lean`); the relations of C02, C84, C86, C97 then hold for calls |
| C122 P/N | `Meta/Docs.lean`: `docs.py`, with the loop of `textwrap.wrap`; what the module takes from python is the structure `Docs` | induction over the chunks: each turn of the loop uses something up and drops only blanks; the rest is put together by `ink` (text without blanks); `C117_explicit` for the defaults |
| C123 P/N | `Meta/Names.lean`: the Series as objects with names, lines as references to them, histories of constructions and reads | induction over histories; invariant: no Series or line is removed, no value written |
| C124 P/N | `Api.call` and the catalogue with `Spec.bars` | the numbers of bars of C12 for the calls `build` gives (`run_padded`, `Call.takes`); the numbers are constant or infinite (`Lim`); by cases over the classes for the defaults |
| C125 P | `Ind.mavp` (with the bounds in either order, as pandas takes them) | the parts of a result (`mavp_parts`); added bars by the relation of C84 for the averages |
| C126 P | `Api.call`, `Api.callMavp` | a class as value of a parameter and the class called by the user have the same parameters (`inner_is_call`, by cases); then the parts of each call |
| C127 P | `Api.call` for the classes of a family (`Verif/Api.lean`) | `Props/Family.lean`: classes with equal declared parameters and hooks see the same keywords (`resolve_alike`), so that the calls can be compared outcome by outcome; for the others the parameters read are traced back to the keywords |
| C128 P/N | `Verif/Dtype.lean`: lines with dtype (bool, whole numbers, floats), the operations with numpy's choice of dtype and the `astype` of `binary_op`/`standard_op`; formulas of all indicators over them; `mavp` writing into an array of whole numbers | a static rule (`Spec.kind`) and a relation between the values for whole numbers and for floats, by induction on formulas (`C128_formula_partial`); the formulas evaluate, for floats, to the model of the indicators (`form_flt`), hence `C128_indicators_partial`; violations: `C128_not_signal`, `C128_not_volume`, `C128_not_count`, `C128_mavp`, `C128_not_mavp` |
| C129 P/N | `Meta/Errors.lean` (classes and texts of errors.py) on top of `Api.invoke` (binding of arguments, parameters, initialisers, calculation) | every calculation and every initialiser raises one of five exceptions of python only (structural, over all calls); the loop over the columns raises exactly for the first input whose configured column is missing (induction); together an equivalence with `Spec.complaint`. N: indicators as arguments (bars for outputs), columns configured by name for one input |
| C130 | calls of `max`, `min`, `mom`, `sum`, `rocr`, `obv`, `ad` and the averages through `Api.call`; `Line.ago` | best of overlapping windows is the best of their union, for any order on the finite values (exact and rounded); window sums split and telescope; formulas of the averages at period 1; running totals by induction from the common bar on; lines are equal since bars, minimum period and warm-up are (`Rep.unique`) |
| C131 P/N | `Flt R` lines, sma, wma, trima, sum, max, min, prices, `_ewm` accumulation | `Props/Follow.lean`: order up to missing values kept by each rounded operation, window and recursion; concrete doubles for ema, smma |
| C132 N | python's search for operator methods over `_BINOPS` of `Line` and `LinesHolder` (Signs.lean) | case analysis over the signs and names, values by `rep_binop`; negations for what is missing |
| C133 P | pairs of runs of the indicator functions of Ind/ on `Ext K` (exact arithmetic) | relational bounds composed operation by operation; for averages from monotonicity and affinity of their closed forms; stddev: Cauchy-Schwarz; rsi: two explicit price histories |
| C134 P | the averages, macd, extremes and variance of Ind/ on prices along a straight line (exact arithmetic) | closed forms by induction over the window or the recursion; composed for dema, tema, t3, macd |
| C135 P | the averages of Ind/ on sums, differences, changes and averages of lines (exact arithmetic) | window averages as fixed weights (sums exchanged), exponential ones by induction over the recursion; equality of whole lines by `Rep.ext`; counterexamples for the exponential ones evaluated by the kernel |
| C136 P | the averages of Ind/ on two lines which differ at one bar (exact arithmetic) | linearity (C135), the response to a single price by induction over the recursion or by the weights |
| C137 P | the index indicators, aroon, obv, the crosses, highest/lowest of Ind/ on two lines whose bars are in the same order (exact arithmetic) | uniqueness of the position of an extreme, the sign of a difference, the characterization of a cross; counterexample for rsi |
| C138 P | kama of Ind/ on lines which move in each period (exact arithmetic) | closed form C19; the sum of moves is the net move exactly if all have one sign; induction over the recursion for a steady trend |
| C139 P | correl, beta, linreg_slope of Ind/ (exact arithmetic) | values of C33; bilinearity of the sums; equality case of Cauchy-Schwarz; uniqueness of the least squares line |
| C140 P | bbands, cci, mad, var, ppo, roc of Ind/ (exact arithmetic) | deviations from a mean sum to 0; Cauchy-Schwarz; weights of an exponential average bounded by induction; a jump as extreme case |
| C141 P | averages, macd, apo, mom, linreg_slope, rsi, aroon, obv, mfi, minus_di of Ind/ (exact arithmetic) | formulas of C09-C34; induction over the exponential recursion against the mean of all bars; Chebyshev's sum inequality; negation for falling prices; in floating point: the windows of two neighbouring bars compared element by element, ema and smma refuted in double precision by a computed history |
| C142 P | indicator functions of Ind/ on `Ext K`; the catalogue of calls for any values | sliding sums and induction over the bars; geometric decay of the difference one season apart; C85 for windowed calls |
| C143 P | `Ind.crossup`, `Ind.crossdown` (tie carrying non-zero difference) on `Ext K` | C36 for the single bar; first bar on the other side; induction over the bars for the running total |
| C144 P | `Ind.mad`, `Ind.var`, `Ind.stddev`, `Ind.bbands`, `Ind.mom`, `Ind.truerange`, `Ind.sumN`, `Ind.highest`, `Ind.lowest` on `Ext K` | Cauchy-Schwarz; (highest - x)(x - lowest) >= 0 summed over the window; true ranges as intervals which share the closes between them, induction over the bars |
| C145 P | `Ind.crossup`, `Ind.crossdown`, `Ind.obv`, window indicators and `Ind.rsi` on `Ext K` | specification of crosses (C36) carried along the filling; running total by induction; windows of k * p records regrouped |
| C146 P/N | `Running.lean`: the loops of pandas behind `rolling(...).sum/mean/var/std/max/min` | invariants of the running values (sums over the window by induction; Welford's updates; the queue of candidates for the greatest value), equal to `Line.rolling`; in binary64 whole numbers are exact, and a fixed point of the loop refutes the rest; `RunningInd.lean`: mfi, ultimateoscillator, cmo with these sums, ranges refuted by kernel evaluation, sma, cmo and ultimateoscillator of whole prices proved |
| C147 P/N | the indicators over a window on `bars n x` and on `bars n (backwards n x)` | reflection of the sums over the window; extremes are unique; the best line of the reversed window is the reflected line, and it is unique (C32); crossings by C36 |
| C148 P/N | `Reductions.lean`: max, min, idxmax, idxmin, count, first_valid_index, dot, all, any and sum of tests on the delivered bars (C92) | folds by induction; invariant `FirstGreatest` of the search; telescoping sum; N: after a forward shift the delivered part read is all NaN |

## 3. What the code gets wrong
Found while proving; each is a theorem (negation) unless marked.

| finding | claim |
|---|---|
| `truehigh` raises AttributeError | C62 |
| `LinesHolder._period` always adds 1 | C29 |
| a window object adds its period on each use | C07 |
| kama and mama raise on inputs with a minimum period > 1; mama/fama start at 0 | C19, C74 |
| kama with `_pvol` > 1 leaves the range of the prices | C13 |
| smacc with `_pearly` on plain data takes its first value from the end of the data | C84_early_smacc |
| `Lines.size` is the number of bars, not of lines | C51 |
| results with inputs change class level `__slots__`; stochrsi with `_talib` adds output `d` for good | C58 |
| the call stack is not popped after an exception | C57 |
| metadata are thread-local: other threads than the importing one fail | C59 |
| tuple defaults are taken for (value, doc) pairs, docs of parameters are lost | C52, C53 |
| alias properties bind late; alias collisions; `groups` typo | C55, C61 |
| crossover raises TypeError; comparisons are True in the warm-up | C37, C65 |
| ewma delivers before its minimum period | C78 |
| an input whose name is no column takes a column by position, also one which another input is named after | C50 |
| beta and ppofast: documentation says the opposite | C69, C68 |
| `ema(data, 20)` takes 20 for `poffset` | C81 |
| mavp's warm-up depends on later periods | C42 |
| too short data raise IndexError in exponential averages | C12 |
| forward shifts give minimum period 0 | C08 |
| `minmaxindex` gets `_talib` back | C60 |
| `ind.add`, `ind.sub`, `ind.div` are methods, not the outputs; `ind.df` is stale after an assignment; `input1` is the second input; `'size' in ind` | C90 |
| `line.shift(1)`, `diff()`, `pct_change()` raise TypeError; `rolling(10)`, `expanding(5)` do not raise the minimum period; `ewm(alpha=a)` lowers it; `ewm(9)` recurses for ever | C91, C93 |
| `line(1).mean()` is NaN for all data | C92 |
| `line[k:]` keeps the minimum period: values are hidden | C94 |
| `line[i]` is no number: `line[-1] > 5`, `1 + line[0]`, `if line[-1]:` raise | C94 |
| `-x`, `~x`, `round(x)`, `c & x` raise TypeError, `abs(indicator)` and `hash(indicator)` too | C132 |
| results read as frame forget the minimum period: `ema(sma(x).df)` differs | C95 |
| `get_ind_by_group` returns the lists of the registry itself; a class whose name is used again stays in its groups | C98 |
| defining an indicator in a user's module creates `__all__`, so that `from module import *` drops everything else; with a tuple `__all__` the definition raises AttributeError | C99 |
| kama, mama raise on results of other indicators; absolute positions are delivered from the first bar | C97 |
| `'keys' in ind.p` is true, `ind.p['keys']` is a method; a parameter called `keys` breaks `**ind.p` | C100 |
| `a + b` with more dates in b raises, `b + a` does not; an operand which starts later is used too late | C104 |
| `nlargest` / `nsmallest` of a line move values to other bars; `rank`, `bfill`, `interpolate` and `isin` of a line look ahead; `notna` is True in the warm-up | C105, C106 |
| in double precision %K, %R and cmo can pass 100 (-100) by one unit in the last place, typprice and sma can be above, ema and smma below all prices they average | C107 |
| in double precision a price raised by one unit in the last place can lower ema and smma | C131 |
| in double precision sum, sma, var and stddev do not recover from one absurd price: after 2^53 and then 3 for ever, sma(2) shows 4 and var(2) 2^52 at every later bar | C146_binary64_false |
| where the price stands still after ordinary moves, mfi, cmo and ultimateoscillator show quotients of rounding errors, e.g. mfi 160, cmo -300 | C146_oscillators_false |
| ultimateoscillator shows 100.00000000000001 where all bars close at their high | C107_not_ultosc |
| a flow of ad can be more than the volume of its bar if the low is far below the high | C107_not_ad |
| one NaN price from the 35th bar on makes ht_dcphase, ht_sine, ht_trendline and ht_trendmode raise ValueError for the whole history | C108_raises, C84_not_hilbert |
| inputs and outputs of every call are keys of global tables which are never emptied: data and results are never freed | C109 |
| `line.loc` is `iloc`: dates raise TypeError, integer labels select by position, slices lack their last bar | C110 |
| one stretch of unchanged prices as long as its window, and kama has no value for the rest of the history | `C113_kama_lost`, `C19_flat_window` |
| settings: `set_input_indices(**saved)` does not remove names configured since; a column configured by a name with upper case letters is never found; `_talib=False` does not switch the global ta-lib mode off | C114_restore_lost, C114_name_lost, C114_mode_ignored |
| conditions: `low <= close <= high` is `close <= high`, `a and b` is `b`, `not a` is False, `max(a, b)` and `min(a, b)` are `b`, `a in [b]` is True: lines have a length and no truth value | C115_chain_lost, C115_chain_wrong, C115_truth_lost, C115_builtin_lost, C115_in_lost |
| indicators cannot be keys of dictionaries: `LinesHolder` gets `__eq__` and no `__hash__` (read, not modelled) | - |
| declared parameters which are never read: bbands `_stdev`, cci `_dev`, correl `_rets` and `_prets`, mad `_ma`, trima `_ma`, wma `coef`; t3 `_ma` unless `_gd` | C118 |
| `_accum` of the directional movement indicators accepts no class of the library but smacc (all others are called with an unknown keyword) | C118 |
| `macd(_talib=True, _ma=sma)` raises TypeError: every average but ema is called with an unknown keyword | C119 |
| `_talib=True` does not reach an average given as parameter (kama), the global setting does | C119 |
| help of a derived class: without `alias` of its own it lists the aliases of the base, which stand for the base; the documentation of inherited parameters is missing (C53) | `C122_not_aliases`, `C122_not_docs` |
| `ind.i.x.series` renames the caller's Series; outputs which share a Series rename each other | `C123_not_caller`, `C123_not_shared` |
| a NaN price makes four Hilbert indicators raise where as many other prices do not | `C124_not_hilbert` |
| with ta-lib compatibility `mavp` of `dema` takes back values when later bars ask for longer periods | `C125_talib_not_dema` |
| a signal with a warm-up in arithmetic with ints or a series of whole numbers, or its `cumsum()`: always ValueError (`astype(int)` of the NaN warm-up) | `C128_not_signal`, `C128_not_volume`, `C128_not_count` |
| `mavp` of closes of whole numbers: averages cut to whole numbers, because they are written into the copy of the closes | `C128_mavp`, `C128_not_mavp` |
| a column configured by name (`set_input_indices(close='adj')`) makes every indicator with one input raise a bare TypeError for frames without a column `close`, even if the configured column is there | C129_not_remapped |
| integer indices (read, not modelled) | - |

## 4. Not modelled
Packaging, the `math.*` one-to-one
wrappers of numpy functions beyond being element-wise maps, pandas itself (only described), label
based access on integer indices, rounding outside of C11, C89, C107, C111, C112, C116, C130, C131, C141, C143 and C146 (there `Float.lean` describes IEEE arithmetic, without
signed zeros; rolling sums are sums of each window, which pandas updates from bar to bar instead: C146 compares both).  In the Hilbert family python's `int(nan)`
raises ValueError: modelled in the calls of the catalogue (C84, C108); the functions `Ind.ht*` used by C40, C41, C66, C71-C73 and
the heap programs of C67 describe the values where it does not raise.  `fsum` of +inf and -inf, which raises, is nan in the model.
Divisions in the Hilbert loops which python does on floats (ZeroDivisionError) are excluded by the invariants proved, in exact
arithmetic.

## 5. Mutation log
`seeded/LOG.jsonl`: each line is one edit of the model in a scratch copy (`tools/mutate.py`).  `theorems_failed` lists the first failing
declarations; theorems in modules which import a failing module are not attempted and not listed.
