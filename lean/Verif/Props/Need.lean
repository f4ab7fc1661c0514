import Verif.Lemmas.Need
import Verif.Lemmas.RelInst
import Verif.Props.Lines
import Verif.Props.Catalog

/-!
# C03, C04 for any operands and for the indicators

`Props/Lines.lean` has both for programs which start from plain data.
-/

set_option linter.unusedSectionVars false
set_option linter.unusedVariables false

namespace Bta
open Line

variable {V : Type} [PyFloat V]

/-! ## Specification -/

/-- The program is an operation, not just an input handed on. -/
def Spec.IsOperation : {ty : Ty} → Expr V ty → Prop
  | _, .input _ => False
  | _, _ => True

/-- The bars a program needs, when its inputs have the minimum periods `m 0, m 1, ...` -/
def Spec.needOf (m : ℕ → ℕ) : {ty : Ty} → Expr V ty → ℕ
  | _, .input k => m k
  | _, .arith _ a b => max (needOf m a) (needOf m b)
  | _, .arithS _ a _ => needOf m a
  | _, .cmp _ a b => max (needOf m a) (needOf m b)
  | _, .cmpS _ a _ => needOf m a
  | _, .logic _ a b => max (needOf m a) (needOf m b)
  | _, .arithB _ a b => max (needOf m a) (needOf m b)
  | _, .arithBS _ a _ => needOf m a
  | _, .shift s a => needOf m a + s
  | _, .diff s a => needOf m a + s
  | _, .pct s a => needOf m a + s
  | _, .map _ a => needOf m a
  | _, .map2 _ a b => max (needOf m a) (needOf m b)
  | _, .cumsum a => needOf m a
  | _, .ffill a => needOf m a
  | _, .replaceZero a => needOf m a
  | _, .rolling w' _ a => needOf m a + w'
  | _, .ewm p' _ _ a => needOf m a + p'
  | _, .lfilter _ p' _ _ _ a => needOf m a + p'

/-- The minimum periods of the outputs of each class with its default parameters, on plain data. -/
def Spec.defaultNeeds : List (List String × List Int) :=
  [(["sma"], [30]), (["ema"], [30]), (["smma"], [30]), (["ewma"], [30]), (["wma"], [30]), (["sum"], [30]),
   (["trima"], [30]), (["dema"], [59]), (["tema"], [88]), (["trix"], [89]), (["gdema"], [9]), (["t3"], [25]),
   (["kama"], [31]), (["smacc"], [14]), (["add"], [1]), (["sub"], [1]), (["mult"], [1]), (["div"], [1]),
   (["max"], [30]), (["min"], [30]), (["minmax"], [30, 30]), (["maxindex"], [30]), (["minindex"], [30]),
   (["minmaxindex"], [30, 30]), (["avgprice"], [1]), (["typprice"], [1]), (["wclprice"], [1]), (["medprice"], [1]),
   (["macd"], [26, 34, 34]), (["apo"], [26]), (["ppo"], [26, 34, 34]), (["ppofast"], [26, 34, 34]), (["mom"], [11]),
   (["roc"], [13]), (["rocp"], [13]), (["rocr"], [13]), (["rocr100"], [13]), (["rsi"], [15]), (["cmo"], [15]),
   (["mad"], [20]), (["cci"], [20]), (["var", "var_s"], [5]), (["stddev", "stddev_s"], [20]),
   (["bbands"], [20, 20, 20]), (["stochf"], [14, 16]), (["stochastic"], [16, 18]), (["williamsr"], [14]),
   (["stochrsi"], [28]), (["midprice"], [14]), (["midpoint"], [14]), (["bop"], [1]), (["truelow"], [2]),
   (["truerange"], [2]), (["atr"], [15]), (["natr"], [15]), (["ultimateoscillator"], [29]), (["mfi"], [15]),
   (["obv"], [2]), (["ad"], [1]), (["adosc"], [10]), (["aroon"], [15, 15]), (["aroonosc"], [15]),
   (["linearreg_slope"], [14]), (["linearreg_angle"], [14]), (["linearreg_intercept"], [14]), (["linearreg"], [14]),
   (["tsf"], [14]), (["beta"], [6]), (["correl"], [30]), (["crossup"], [2]), (["crossdown"], [2]),
   (["crossover"], [2]), (["plus_dm"], [15]), (["minus_dm"], [15]), (["dm"], [15, 15]), (["plus_di"], [16]),
   (["minus_di"], [16]), (["di"], [16, 16]), (["dx"], [16]), (["adx"], [29]), (["adxr"], [43]), (["sar"], [2]),
   (["sarext"], [2]), (["ht_dcperiod"], [33]), (["ht_phasor"], [33, 33]), (["ht_dcphase"], [64]),
   (["ht_sine"], [64, 64]), (["ht_trendline"], [64]), (["ht_trendmode"], [64]), (["mama"], [33, 33]),
   (["sin", "cos", "tan", "sinh", "cosh", "tanh", "asin", "acos", "atan", "ceil", "exp", "floor", "ln",
     "log10", "sqrt"], [1])]

/-! ## Theorems -/

theorem Expr.mp (x : ℕ → Line V) (m : ℕ → ℕ) (hx : ∀ k, Mp (x k) (m k)) {ty : Ty} (e : Expr V ty) :
    PE (Mp · (Spec.needOf m e)) (e.eval x) := by
  induction e with
  | input k => exact PE.ok (hx k)
  | arith f a b iha ihb => exact iha.bind fun r h => ihb.bind fun s g => PE.pure (h.binop g)
  | arithS f a c iha => exact iha.bind fun r h => PE.pure h.binopS
  | cmp f a b iha ihb => exact iha.bind fun r h => ihb.bind fun s g => PE.pure (h.binop g)
  | cmpS f a c iha => exact iha.bind fun r h => PE.pure h.binopS
  | logic f a b iha ihb => exact iha.bind fun r h => ihb.bind fun s g => PE.pure (h.binop g)
  | arithB f a b iha ihb => exact iha.bind fun r h => ihb.bind fun s g => PE.pure (h.binop g)
  | arithBS f a c iha => exact iha.bind fun r h => PE.pure h.binopS
  | shift s a iha => exact iha.bind fun r h => PE.pure h.shift
  | diff s a iha => exact iha.bind fun r h => PE.pure h.diff
  | pct s a iha => exact iha.bind fun r h => PE.pure h.pct
  | map f a iha => exact iha.bind fun r h => PE.pure h.map
  | map2 f a b iha ihb => exact iha.bind fun r h => ihb.bind fun s g => PE.pure (h.stdop2 g)
  | cumsum a iha => exact iha.bind fun r h => PE.pure h.cumsum
  | ffill a iha => exact iha.bind fun r h => PE.pure (h.stdop (inc := 0))
  | replaceZero a iha => exact iha.bind fun r h => PE.pure (h.stdop (inc := 0))
  | rolling w agg a iha => exact iha.bind fun r h => PE.pure (h.rolling (w := w + 1) (by omega))
  | ewm p s al a iha =>
    exact iha.bind fun r h => h.ewm (c := { pval := (p + 1 : ℕ), seed := s })
      (by simp only [Spec.needOf]; have := h.2; omega) (by simp only [Spec.needOf]; have := h.2; omega)
  | lfilter sp p s al be a iha =>
    exact iha.bind fun r h => h.ewm (c := { pval := (p + 1 : ℕ), seed := s })
      (by simp only [Spec.needOf]; have := h.2; omega) (by simp only [Spec.needOf]; have := h.2; omega)

/-- **C04**. The minimum period of the result of any program of operations, whatever the minimum periods of its inputs, is
exactly the number of bars the operators need. -/
theorem C04_operands {ty : Ty} (e : Expr V ty) (x : ℕ → Line V) (m : ℕ → ℕ) (hm : ∀ k, 1 ≤ m k)
    (hx : ∀ k, (x k).minperiod = m k) (r : Line (ty.El V)) (h : e.eval x = .ok r) : r.minperiod = Spec.needOf m e :=
  (Expr.mp x m (fun k => ⟨hx k, hm k⟩) e r h).1

/-- **C04**. The minimum period of each output of each indicator, whatever the periods given and whatever the minimum periods
of its inputs, is the one of `Spec.need`. -/
theorem C04_indicators (c : Call V) (hc : c.Periods) (x : ℕ → Line V) (m : ℕ → ℕ) (hm : ∀ k, 1 ≤ m k)
    (hx : ∀ k, (x k).minperiod = m k) (r : List (Line V)) (h : c.run x = .ok r) :
    r.map (·.minperiod) = (Spec.need m c).map Int.ofNat := by
  have key := Call.mp c hc x m (fun k => ⟨hx k, hm k⟩) r h
  generalize Spec.need m c = l at key
  clear h
  induction key with
  | nil => rfl
  | cons h1 _ ih => simp only [List.map_cons, ih]; rw [h1.1]; rfl

/-- **C04**. With the parameters they come with, on plain data: the minimum periods are those of the table, for each class
(`crossover` never gives a result, C53). -/
theorem C04_defaults (N : Spec.NumFns V) :
    List.Forall₂ (fun (c : Call V) row => c.names = row.1 ∧ ∀ (data : ℕ → List V) (r : List (Line V)),
      c.run (fun k => Line.ofSeries (data k)) = .ok r → r.map (·.minperiod) = row.2) (Spec.defaults N) Spec.defaultNeeds := by
  have key : (Spec.defaults N).map (fun c => (c.names, (Spec.need (fun _ => 1) c).map Int.ofNat)) = Spec.defaultNeeds := by
    rfl
  rw [← key, List.forall₂_map_right_iff, List.forall₂_same]
  intro c hc
  refine ⟨rfl, ?_⟩
  intro data r hr
  exact C04_indicators c (C84_defaults N c hc) _ (fun _ => 1) (fun _ => le_refl _) (fun _ => rfl) r hr

/-- what the warm-up of a line of the given type holds -/
def WarmTy (n : ℕ) : (ty : Ty) → Line (ty.El V) → Prop
  | .flt, l => Warm n l
  | .bool, l => WarmB n l

/-- what an operation gives, of whatever lines of `n` bars: a line of `n` bars, and the warm-up as said -/
theorem Expr.warm {n : ℕ} (x : ℕ → Line V) (hx : Spec.Data n x) {ty : Ty} (e : Expr V ty) :
    PE (fun r => 1 ≤ r.minperiod ∧ r.series.length = n) (e.eval x) ∧ (Spec.IsOperation e → PE (WarmTy n ty) (e.eval x)) := by
  have up : ∀ {y : Except Err (Line V)} {p : Prop}, PE (Warm n) y →
      PE (fun r => 1 ≤ r.minperiod ∧ r.series.length = n) y ∧ (p → PE (Warm n) y) :=
    fun h => ⟨h.mono fun r hr => ⟨hr.pos, hr.len⟩, fun _ => h⟩
  have upB : ∀ {y : Except Err (Line Bool)} {p : Prop}, PE (WarmB n) y →
      PE (fun r => 1 ≤ r.minperiod ∧ r.series.length = n) y ∧ (p → PE (WarmB n) y) :=
    fun h => ⟨h.mono fun r hr => ⟨hr.pos, hr.len⟩, fun _ => h⟩
  induction e with
  | input k => exact ⟨PE.ok ⟨hx.pos k, hx.len k⟩, fun h => h.elim⟩
  | arith f a b iha ihb => exact up (iha.1.bind fun r h => ihb.1.bind fun s g => PE.pure (Warm.zipWith h.1 h.2 g.2))
  | arithS f a c iha => exact up (iha.1.bind fun r h => PE.pure (Warm.scal h.1 h.2))
  | cmp f a b iha ihb => exact upB (iha.1.bind fun r h => ihb.1.bind fun s g => PE.pure (WarmB.zipWith h.1 h.2 g.2))
  | cmpS f a c iha => exact upB (iha.1.bind fun r h => PE.pure (WarmB.scal h.1 h.2))
  | logic f a b iha ihb => exact upB (iha.1.bind fun r h => ihb.1.bind fun s g => PE.pure (WarmB.zipWith h.1 h.2 g.2))
  | arithB f a b iha ihb => exact up (iha.1.bind fun r h => ihb.1.bind fun s g => PE.pure (Warm.zipWith h.1 h.2 g.2))
  | arithBS f a c iha => exact up (iha.1.bind fun r h => PE.pure (Warm.scal h.1 h.2))
  | shift s a iha =>
    refine up (iha.1.bind fun r h => PE.pure (Warm.std h.1 h.2 (CausalL.shift s).len ?_))
    intro xs j hj hl
    unfold shiftL
    rw [if_pos (by omega), List.getElem?_append_left (by simp; omega), List.getElem?_replicate, if_pos (by simp; omega)]
  | diff s a iha =>
    refine up (iha.1.bind fun r h => PE.pure (Warm.std h.1 h.2 (CausalL.diff s).len ?_))
    intro xs j hj hl
    unfold diffL
    rw [List.getElem?_append_left (by simp; omega), List.getElem?_replicate, if_pos (by omega)]
  | pct s a iha =>
    refine up (iha.1.bind fun r h => PE.pure (Warm.std h.1 h.2 (CausalL.pctChange s).len ?_))
    intro xs j hj hl
    unfold pctChangeL
    rw [List.getElem?_append_left (by simp; omega), List.getElem?_replicate, if_pos (by omega)]
  | map f a iha =>
    exact up (iha.1.bind fun r h => PE.pure (Warm.std (inc := 0) h.1 h.2 (by simp) (by intro _ _ h; omega)))
  | map2 f a b iha ihb => exact up (iha.1.bind fun r h => ihb.1.bind fun s g => PE.pure (Warm.zipWith h.1 h.2 g.2))
  | cumsum a iha =>
    exact up (iha.1.bind fun r h => PE.pure (Warm.std (inc := 0) h.1 h.2 CausalL.cumsum.len (by intro _ _ h; omega)))
  | ffill a iha =>
    exact up (iha.1.bind fun r h => PE.pure (Warm.std (inc := 0) h.1 h.2 CausalL.ffill.len (by intro _ _ h; omega)))
  | replaceZero a iha =>
    exact up (iha.1.bind fun r h => PE.pure (Warm.std (inc := 0) h.1 h.2 CausalL.replaceZero.len (by intro _ _ h; omega)))
  | rolling w agg a iha => exact up (iha.1.bind fun r h => PE.pure (Warm.roll (by omega) h.1 h.2))
  | ewm p s al a iha =>
    refine up (iha.1.bind fun r h => ?_)
    intro t ht
    exact Warm.ewm (c := { pval := (p + 1 : ℕ), seed := s })
      ⟨by simp only; omega, rfl, le_refl _, by simp only; omega, by simp only; omega, .inl rfl⟩ h.2 ht
  | lfilter sp p s al be a iha =>
    refine up (iha.1.bind fun r h => ?_)
    intro t ht
    exact Warm.ewm (c := { pval := (p + 1 : ℕ), seed := s })
      ⟨by simp only; omega, rfl, le_refl _, by simp only; omega, by simp only; omega, .inl rfl⟩ h.2 ht

/-- **C03**. Whatever the operands hold, also in their own warm-up region: the result of an operation has a value for each of
the bars of the operands, and NaN at each bar before its minimum period. -/
theorem C03_operands (e : Expr V .flt) (he : Spec.IsOperation e) (n : ℕ) (x : ℕ → Line V) (hx : Spec.Data n x) (r : Line V)
    (h : e.eval x = .ok r) : Spec.StartsAtMinperiod n r :=
  let w := (Expr.warm x hx e).2 he r h
  ⟨w.len, w.pos, w.pre⟩

/-- **C03**. The same for any standard operation of pandas, whatever it calculates, which gives as many values as it is given
and NaN for the `inc` first ones when it takes `inc` more bars. -/
theorem C03_standard (g : List V → List V) (inc n : ℕ) (hg : ∀ xs, (g xs).length = xs.length)
    (hi : ∀ xs j, j < inc → j < xs.length → (g xs)[j]? = some nan) (a : Line V) (ha : a.series.length = n)
    (hp : 1 ≤ a.minperiod) : Spec.StartsAtMinperiod n (Line.stdop g nan inc a) :=
  let w := Warm.std hp ha hg hi
  ⟨w.len, w.pos, w.pre⟩

/-! ## Non-vacuity -/

/-- a line with minimum period 3 which holds numbers before it -/
def dirty : ℕ → Line (Ext ℚ) := fun k => ⟨[.fin 1, .fin 2, .fin 3, .fin (k + 4), .fin 5], 3⟩

/-- `x.rolling(2).sum() + y` on such lines: minimum period 4, NaN before -/
example : ∃ r, (Expr.arith (· + ·) (.rolling 1 sumV (.input 0)) (.input 1) : Expr (Ext ℚ) .flt).eval dirty = .ok r ∧
    r = ⟨[.nan, .nan, .nan, .fin 12, .fin 14], 4⟩ := ⟨_, rfl, by decide +kernel⟩

example : Spec.Data 5 dirty := ⟨fun _ => rfl, fun _ => by simp [dirty]⟩

/-- the indicators of the ta-lib tests which the parameters of ta-lib compatibility change (tests/test_indicators.py) -/
example : (([.macd (.ema .avg 26) (.ema .avg 0) (.ema .avg 0) 12 26 9, .obv true 1, .plusDm (.smacc false true .sum) 14 1,
    .plusDi (.smacc false true .sum) 14 1 true, .adx (.smacc false true .sum) (.smma .avg) 14 1 true 14,
    .adxr (.smacc false true .sum) (.smma .avg) 14 1 true 14 none, .stochrsiD .sma 14 5 3 (lit 100),
    .minmaxindex true 30] : List (Call (Ext ℚ))).map (Spec.need fun _ => 1)) =
    [[26, 34, 34], [1], [14], [15], [28], [41], [19, 21], [1, 1]] := by rfl

/-- each of the calls above gives a result on enough bars, e.g. `macd` on data -/
example : ((Call.macd (.ema .avg 0) (.ema .avg 0) (.ema .avg 0) 2 3 2 : Call (Ext ℚ)).run (sample 6)).toOption.map
    (fun r => r.map (·.minperiod)) = some [3, 4, 4] := by decide +kernel

end Bta
