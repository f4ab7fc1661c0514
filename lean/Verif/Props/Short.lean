import Verif.Lemmas.Short
import Verif.Props.Need

/-!
# C12 for the indicators: which raise, and from how many bars on they do not
-/

set_option linter.unusedSectionVars false
set_option linter.unusedVariables false

namespace Bta
open Line

variable {V : Type} [PyFloat V]

/-! ## Specification -/

/-- The fewest bars each class needs with its default parameters, on plain data, not to raise an IndexError; 0 if it never
does.  Not in the list: `crossover`, `ht_dcphase`, `ht_sine`, `ht_trendline`, `ht_trendmode`. -/
def Spec.defaultBars : List (List String × ℕ) :=
  [(["sma"], 0), (["ema"], 30), (["smma"], 30), (["ewma"], 0), (["wma"], 0), (["sum"], 0),
   (["trima"], 0), (["dema"], 59), (["tema"], 88), (["trix"], 88), (["gdema"], 9), (["t3"], 25),
   (["kama"], 30), (["smacc"], 14), (["add"], 0), (["sub"], 0), (["mult"], 0), (["div"], 0),
   (["max"], 0), (["min"], 0), (["minmax"], 0), (["maxindex"], 0), (["minindex"], 0),
   (["minmaxindex"], 0), (["avgprice"], 0), (["typprice"], 0), (["wclprice"], 0), (["medprice"], 0),
   (["macd"], 34), (["apo"], 26), (["ppo"], 34), (["ppofast"], 34), (["mom"], 0),
   (["roc"], 0), (["rocp"], 0), (["rocr"], 0), (["rocr100"], 0), (["rsi"], 15), (["cmo"], 0),
   (["mad"], 0), (["cci"], 0), (["var", "var_s"], 0), (["stddev", "stddev_s"], 0),
   (["bbands"], 0), (["stochf"], 0), (["stochastic"], 0), (["williamsr"], 0),
   (["stochrsi"], 15), (["midprice"], 0), (["midpoint"], 0), (["bop"], 0), (["truelow"], 0),
   (["truerange"], 0), (["atr"], 15), (["natr"], 15), (["ultimateoscillator"], 0), (["mfi"], 0),
   (["obv"], 0), (["ad"], 0), (["adosc"], 10), (["aroon"], 0), (["aroonosc"], 0),
   (["linearreg_slope"], 0), (["linearreg_angle"], 0), (["linearreg_intercept"], 0), (["linearreg"], 0),
   (["tsf"], 0), (["beta"], 0), (["correl"], 0), (["crossup"], 0), (["crossdown"], 0),
   (["plus_dm"], 15), (["minus_dm"], 15), (["dm"], 15), (["plus_di"], 15),
   (["minus_di"], 15), (["di"], 15), (["dx"], 15), (["adx"], 29), (["adxr"], 29), (["sar"], 2),
   (["sarext"], 2), (["ht_dcperiod"], 0), (["ht_phasor"], 0), (["mama"], 12),
   (["sin", "cos", "tan", "sinh", "cosh", "tanh", "asin", "acos", "atan", "ceil", "exp", "floor", "ln",
     "log10", "sqrt"], 0)]

/-! ## Theorems -/

/-- **C12** (which indicators keep it).  Each call of the catalogue, whatever its parameters and the minimum periods of its
inputs: with `Spec.bars` bars or more it gives a result, with fewer it raises an IndexError; 0 bars are asked of the
indicators which never raise, and `n + 1`, more than there are, if no number is enough. -/
theorem C12_raises_below (c : Call V) (hk : c.Periods) (ho : ¬ Spec.OtherReasons c) {n : ℕ} {x : ℕ → Line V}
    (hx : Spec.Data n x) (m : ℕ → ℕ) (hm : ∀ k, (x k).minperiod = m k) :
    (Spec.bars (n + 1) m c ≤ n → ∃ r, c.run x = .ok r) ∧ (n < Spec.bars (n + 1) m c → c.run x = .error .indexError) := by
  have key := Call.takes (Nat.lt_succ_self n) c hk ho x m
    (fun k => ⟨hx.len k, hm k, by have := hx.pos k; rw [hm] at this; exact_mod_cast this⟩)
  exact ⟨fun h => let ⟨r, h1, _⟩ := key.1 h; ⟨r, h1⟩, key.2⟩

/-- **C12** (for the indicators which do not raise).  When an indicator gives a result, each output with a minimum period
greater than the number of bars is full of NaN. -/
theorem C12_indicators_partial (c : Call V) (hp : c.Periods) (hs : c.Seeded) {n : ℕ} {x : ℕ → Line V}
    (hx : Spec.CleanData n x) (r : List (Line V)) (hr : c.run x = .ok r) (o : Line V) (ho : o ∈ r)
    (hn : (n : Int) < o.minperiod) : o.series = List.replicate n nan := by
  have h := C86_starts_at_minperiod c hp hs hx r hr o ho
  apply List.ext_getElem?
  intro i
  by_cases hi : i < n
  · rw [h.pre i (by omega) hi, List.getElem?_replicate, if_pos hi]
  · rw [List.getElem?_eq_none (by rw [h.len]; omega), List.getElem?_eq_none (by simp; omega)]

theorem defaults_short (N : Spec.NumFns V) : ∀ c ∈ Spec.defaults N, c.names ∈ [["crossover"], ["ht_dcphase"], ["ht_sine"], ["ht_trendline"], ["ht_trendmode"]] ∨
    ¬ Spec.OtherReasons c := by
  intro c hc
  simp only [Spec.defaults, List.mem_cons, List.not_mem_nil, or_false] at hc
  repeat' (rcases hc with rfl | hc; · first
    | (right; simp [Spec.OtherReasons]; done)
    | (left; simp [Call.names]))

theorem defaults_plain (N : Spec.NumFns V) (k : ℕ) : ∀ c ∈ Spec.defaults N,
    Spec.bars k (fun _ => 1) c = Spec.bars 0 (fun _ => 1) c := by
  intro c hc
  simp only [Spec.defaults, List.mem_cons, List.not_mem_nil, or_false] at hc
  repeat' (rcases hc with rfl | hc; · rfl)

/-- **C12** (with the default parameters).  Each class of the list on plain data: results from the given number of bars on,
an IndexError with fewer. -/
theorem C12_defaults (N : Spec.NumFns V) (row : List String × ℕ) (hr : row ∈ Spec.defaultBars) :
    ∃ c ∈ Spec.defaults N, c.names = row.1 ∧ ∀ (n : ℕ) (data : ℕ → List V), (∀ k, (data k).length = n) →
      (row.2 ≤ n → ∃ r, c.run (fun k => Line.ofSeries (data k)) = .ok r) ∧
      (n < row.2 → c.run (fun k => Line.ofSeries (data k)) = .error .indexError) := by
  have key : Spec.defaultBars = ((Spec.defaults N).filter fun c => ¬ c.names ∈ [["crossover"], ["ht_dcphase"], ["ht_sine"], ["ht_trendline"], ["ht_trendmode"]]).map
      fun c => (c.names, Spec.bars 0 (fun _ => 1) c) := by
    rfl
  rw [key] at hr
  obtain ⟨c, hc, rfl⟩ := List.mem_map.1 hr
  rw [List.mem_filter] at hc
  obtain ⟨hc, hf⟩ := hc
  refine ⟨c, hc, rfl, ?_⟩
  intro n data hd
  have hgood : ¬ Spec.OtherReasons c := by
    rcases defaults_short N c hc with h | h
    · simp [h] at hf
    · exact h
  show (Spec.bars 0 (fun _ => 1) c ≤ n → _) ∧ (n < Spec.bars 0 (fun _ => 1) c → _)
  rw [← defaults_plain N (n + 1) c hc]
  exact C12_raises_below c (C84_defaults N c hc) hgood ⟨fun k => by simp [Line.ofSeries, hd], fun k => by
    simp [Line.ofSeries]⟩ (fun _ => 1) (fun _ => rfl)

section
open Ext

/-- a case: `macd` of 40 bars gives a result, of 30 raises; both meet the hypotheses, and `sma` of too few bars is all NaN -/
example : let c : Call (Ext ℚ) := .macd (.ema .avg 0) (.ema .avg 0) (.ema .avg 0) 12 26 9
    c.Periods ∧ ¬ Spec.OtherReasons c ∧ Spec.bars 31 (fun _ => 1) c = 34 ∧
    Spec.Data 40 (sample 40) ∧ Spec.Data 30 (sample 30) ∧ (∀ k, (sample 40 k).minperiod = (1 : ℕ)) ∧
    (c.run (sample 40)).isOk = true ∧ c.run (sample 30) = .error .indexError := by
  refine ⟨by simp [Call.Periods, Avg.Periods], by simp [Spec.OtherReasons], by decide,
    (sample_data 40).toData, (sample_data 30).toData, fun k => rfl, ?_, ?_⟩
  · have := (C12_raises_below (.macd (.ema .avg 0) (.ema .avg 0) (.ema .avg 0) 12 26 9)
      (by simp [Call.Periods, Avg.Periods]) (by simp [Spec.OtherReasons])
      (sample_data 40).toData (fun _ => 1) (fun _ => rfl)).1 (by decide)
    obtain ⟨r, hr⟩ := this
    simp only [hr]
    rfl
  · exact (C12_raises_below (.macd (.ema .avg 0) (.ema .avg 0) (.ema .avg 0) 12 26 9)
      (by simp [Call.Periods, Avg.Periods]) (by simp [Spec.OtherReasons])
      (sample_data 30).toData (fun _ => 1) (fun _ => rfl)).2 (by decide)

example : (Call.avg .sma 30 : Call (Ext ℚ)).Periods ∧ (Call.avg .sma 30 : Call (Ext ℚ)).Seeded ∧
    Spec.CleanData 8 (sample 8) ∧ ∃ o, (Call.avg .sma 30).run (sample 8) = .ok [o] ∧ (8 : Int) < o.minperiod ∧
      o.series = List.replicate 8 nan :=
  ⟨by simp [Call.Periods, Avg.Periods], trivial, sample_data 8, _, rfl, by decide +kernel, by decide +kernel⟩

/-- `kama` of data which start with the second bar never gives a result; `ema` without seed always does -/
example : Spec.bars 9 (fun _ => 2) (.avg (.kama (fin 2) (fin 30) 1 .avg) 3 : Call (Ext ℚ)) = 9 ∧
    Spec.bars 9 (fun _ => 1) (.avg (.kama (fin 2) (fin 30) 1 .avg) 3 : Call (Ext ℚ)) = 3 ∧
    Spec.bars 9 (fun _ => 2) (.avg (.ema .none 0) 3 : Call (Ext ℚ)) = 0 := by decide

example : (["adx"], 29) ∈ Spec.defaultBars := by decide

end

end Bta
