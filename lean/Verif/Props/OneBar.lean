import Verif.Props.Periods
import Verif.Props.RisingFlt

/-!
# C130 in floating point arithmetic: a period of one bar
-/

set_option linter.unusedSectionVars false
set_option linter.unusedVariables false

namespace Spec
open Bta

/-- a missing value or a number which the format can show (as all results of the arithmetic are) -/
def Shown {R : Rounding} (v : Flt R) : Prop := v = (nan : Flt R) ∨ ∃ y : ℚ, v = (Ext.fin y : Ext ℚ) ∧ R.fl y = .fin y

end Spec

namespace Bta
open Line _root_.Spec

variable {R : Rounding} {x : Line (Flt R)}

theorem rolling_one {agg : List (Flt R) → Flt R} {n m : ℕ} {g : ℕ → Flt R} (hx : Rep nan x n m g)
    (h : ∀ i, m ≤ i + 1 → i < n → agg [g i] = g i) : rolling 1 agg x = x := by
  refine Rep.ext (rep_rolling (le_refl 1) hx.toRepW) hx fun i h1 h2 => ?_
  have : wnd g 1 i = [g i] := by simp [wnd]
  rw [this, h i (by omega) h2]

theorem Rounding.zero (R : Rounding) : R.fl 0 = .fin 0 := by
  have := R.nat 0 (by norm_num)
  simpa only [Nat.cast_zero, Nat.cast_one, Nat.cast_ofNat] using this

theorem Rounding.one (R : Rounding) : R.fl 1 = .fin 1 := by
  have := R.nat 1 (by norm_num)
  simpa only [Nat.cast_zero, Nat.cast_one, Nat.cast_ofNat] using this

theorem Rounding.two (R : Rounding) : R.fl 2 = .fin 2 := by
  have := R.nat 2 (by norm_num)
  simpa only [Nat.cast_zero, Nat.cast_one, Nat.cast_ofNat] using this

theorem shown_all {f : List (Flt R) → Flt R} {v : Flt R} (hv : Shown v)
    (hf : ∀ y : ℚ, R.fl y = .fin y → f [(Ext.fin y : Ext ℚ)] = (Ext.fin y : Ext ℚ)) : whenAllFin f [v] = v := by
  rcases hv with rfl | ⟨y, rfl, hy⟩
  · rfl
  · exact hf y hy

theorem shown_sum {y : ℚ} (hy : R.fl y = .fin y) : sumV ([(Ext.fin y : Ext ℚ)] : List (Flt R)) = (Ext.fin y : Ext ℚ) := by
  show R.round (Ext.add (R.round (Ext.fin ((0 : ℚ)))) (Ext.fin y)) = _
  show R.round (Ext.add (R.fl 0) (Ext.fin y)) = _
  rw [R.zero]
  show R.fl (0 + y) = _
  rw [zero_add, hy]

/-- a number as value of the arithmetic -/
def shownNum (R : Rounding) (y : ℚ) : Flt R := (Ext.fin y : Ext ℚ)

theorem shown_mul_one {y : ℚ} (hy : R.fl y = .fin y) : shownNum R y * (lit 1 : Flt R) = shownNum R y ∧ (lit 1 : Flt R) * shownNum R y = shownNum R y := by
  constructor
  · show R.round (Ext.mul (Ext.fin y) (R.fl 1)) = Ext.fin y
    rw [R.one]
    show R.fl (y * 1) = _
    rw [mul_one, hy]
  · show R.round (Ext.mul (R.fl 1) (Ext.fin y)) = Ext.fin y
    rw [R.one]
    show R.fl (1 * y) = _
    rw [one_mul, hy]

theorem shown_mean {y : ℚ} (hy : R.fl y = .fin y) :
    (fun l : List (Flt R) => sumV l / lit (l.length : ℚ)) [shownNum R y] = shownNum R y := by
  show sumV [shownNum R y] / lit (([shownNum R y].length : ℕ) : ℚ) = shownNum R y
  rw [show sumV [shownNum R y] = shownNum R y from shown_sum hy]
  show R.round (Ext.div (Ext.fin y) (R.fl (((1 : ℕ)) : ℚ))) = Ext.fin y
  rw [Nat.cast_one, R.one]
  have : Ext.div (Ext.fin y) (Ext.fin 1 : Ext ℚ) = Ext.fin y := by simp [Ext.div]
  rw [this]
  exact hy

theorem shown_wma {y : ℚ} (hy : R.fl y = .fin y) : (fun w : List (Flt R) => dotV w (Ind.wmaWeights 1)) [shownNum R y] = shownNum R y := by
  show sumV [shownNum R y * lit (((0 + 1 : ℕ)) : ℚ)] = shownNum R y
  rw [show (((0 + 1 : ℕ)) : ℚ) = 1 from by norm_num, (shown_mul_one hy).1]
  exact shown_sum hy

theorem coef_one : (lit 2 / lit ((1 * (1 + 1) : ℕ) : ℚ) : Flt R) = lit 1 := by
  show R.round (Ext.div (R.fl 2) (R.fl ((1 * (1 + 1) : ℕ) : ℚ))) = R.fl 1
  rw [show ((1 * (1 + 1) : ℕ) : ℚ) = 2 from by norm_num, R.two]
  have : Ext.div (Ext.fin 2) (Ext.fin 2 : Ext ℚ) = Ext.fin 1 := by simp [Ext.div]
  rw [this]
  rfl

/-- **C130** (a period of one bar) in floating point arithmetic: the sum, the extremes and the simple, weighted and triangular average over one bar are
the line they are called with, to the last digit. -/
theorem C130_one_rounded {n m : ℕ} {g : ℕ → Flt R} (hx : Rep nan x n m g) (hg : ∀ i, m ≤ i + 1 → i < n → Shown (g i)) :
    Ind.sumN 1 x = x ∧ Ind.highest 1 x = x ∧ Ind.lowest 1 x = x ∧ Ind.sma 1 x = .ok x ∧ Ind.wma 1 x = .ok x ∧ Ind.trima 1 x = .ok x := by
  have hs : Ind.sma 1 x = .ok x := congrArg Except.ok (rolling_one hx fun i h1 h2 => shown_all (hg i h1 h2) fun y hy => shown_mean hy)
  refine ⟨rolling_one hx fun i h1 h2 => shown_all (hg i h1 h2) fun y hy => shown_sum hy,
    rolling_one hx fun i h1 h2 => shown_all (hg i h1 h2) fun y hy => rfl,
    rolling_one hx fun i h1 h2 => shown_all (hg i h1 h2) fun y hy => rfl, hs, ?_, ?_⟩
  · have hw : rolling 1 (aggApply fun w => dotV w (Ind.wmaWeights 1)) x = x :=
      rolling_one hx fun i h1 h2 => shown_all (hg i h1 h2) fun y hy => shown_wma hy
    unfold Ind.wma
    simp only [hw, coef_one]
    refine congrArg Except.ok (Rep.ext (rep_rmulS hx.toRepW _) hx fun i h1 h2 => ?_)
    rcases hg i h1 h2 with e | ⟨y, e, hy⟩
    · rw [e]
      show R.round (Ext.mul (R.fl 1) Ext.nan) = Ext.nan
      rw [R.one]; rfl
    · rw [e]
      exact (shown_mul_one hy).2
  · show (Ind.sma 1 x).bind (fun y => Ind.sma 1 y) = .ok x
    rw [hs]
    exact hs

/-- every number in the range of the format, once it is rounded, is shown -/
theorem shown_lit (q : ℚ) (h : isFin (lit q : Flt R) = true) : Shown (lit q : Flt R) := by
  right
  cases e : R.fl q with
  | fin y => exact ⟨y, e, R.idem q y e⟩
  | nan =>
    have : isFin (V := Ext ℚ) (R.fl q) = true := h
    rw [e] at this; cases this
  | pinf =>
    have : isFin (V := Ext ℚ) (R.fl q) = true := h
    rw [e] at this; cases this
  | ninf =>
    have : isFin (V := Ext ℚ) (R.fl q) = true := h
    rw [e] at this; cases this

/-- Non-vacuity: prices in double precision. -/
example : Rep nan (doubles [1/10, 1/5, 3/10]) 3 1 (fun i => (doubles [1/10, 1/5, 3/10]).series.getD i nan) ∧
    ∀ i, 1 ≤ i + 1 → i < 3 → Shown ((doubles [1/10, 1/5, 3/10]).series.getD i nan) := by
  refine ⟨⟨⟨rfl, rfl, le_refl 1, fun i h1 h2 => ?_⟩, fun i h => by omega⟩, fun i h1 h2 => ?_⟩
  · interval_cases i <;> rfl
  · interval_cases i
    · exact shown_lit (1/10) (by decide +kernel)
    · exact shown_lit (1/5) (by decide +kernel)
    · exact shown_lit (3/10) (by decide +kernel)

end Bta
