import Mathlib.Algebra.Order.Field.Basic
import Mathlib.Algebra.Order.Group.Abs
import Mathlib.Data.Rat.Cast.Order
import Mathlib.Tactic.Linarith
import Mathlib.Tactic.Ring
import Mathlib.Tactic.NormNum
import Mathlib.Tactic.Positivity
import Mathlib.Tactic.FieldSimp

/-!
# Values

`PyFloat V` is the signature of the floating point operations the library uses through numpy/pandas.
It has no laws: what is proved for all `V` holds for any arithmetic.

`Ext K` is the exact instance used for numeric theorems: the elements of an ordered field plus
`+inf`, `-inf` and `nan` with the IEEE-754 rules.  Simplifications: no rounding, no signed zero.
-/

set_option linter.unusedSectionVars false

namespace Bta

/-- The operations on floats used in `btalib` (numpy float64 scalars and elements of pandas Series). -/
class PyFloat (V : Type) extends Add V, Sub V, Mul V, Div V, Neg V where
  /-- `np.nan` -/
  nan : V
  /-- a python float literal -/
  lit : ℚ → V
  /-- `abs(x)` -/
  absv : V → V
  /-- `x < y` (`False` if one of them is nan) -/
  lt : V → V → Bool
  /-- `x <= y` (`False` if one of them is nan) -/
  le : V → V → Bool
  /-- `x == y` (`False` if one of them is nan) -/
  eqv : V → V → Bool
  /-- `np.isnan` -/
  isNaN : V → Bool
  /-- `np.isfinite` -/
  isFin : V → Bool

export PyFloat (nan lit absv lt le eqv isNaN isFin)

/-- Exact extended values: finite elements of `K`, the infinities and nan. -/
inductive Ext (K : Type) where
  | fin (x : K)
  | pinf
  | ninf
  | nan
deriving DecidableEq, Repr

namespace Ext

variable {K : Type} [Field K] [LinearOrder K] [IsStrictOrderedRing K]

/-- IEEE addition: `inf - inf = nan`. -/
protected def add : Ext K → Ext K → Ext K
  | fin a, fin b => fin (a + b)
  | nan, _ => nan
  | _, nan => nan
  | pinf, ninf => nan
  | ninf, pinf => nan
  | pinf, _ => pinf
  | _, pinf => pinf
  | ninf, _ => ninf
  | _, ninf => ninf

/-- IEEE negation. -/
protected def neg : Ext K → Ext K
  | fin a => fin (-a)
  | pinf => ninf
  | ninf => pinf
  | nan => nan

/-- infinity with the sign of `a`; nan for 0 (`0 * inf`, `0 / 0`). -/
def infSign (a : K) : Ext K := if 0 < a then pinf else if a < 0 then ninf else nan

/-- IEEE multiplication: `0 * inf = nan`. -/
protected def mul : Ext K → Ext K → Ext K
  | fin a, fin b => fin (a * b)
  | nan, _ => nan
  | _, nan => nan
  | pinf, fin b => infSign b
  | fin a, pinf => infSign a
  | ninf, fin b => infSign (-b)
  | fin a, ninf => infSign (-a)
  | pinf, pinf => pinf
  | pinf, ninf => ninf
  | ninf, pinf => ninf
  | ninf, ninf => pinf

/-- IEEE division (zero is unsigned and counts as +0): `x/0` is an infinity with the sign of `x`, `0/0 = nan`. -/
protected def div : Ext K → Ext K → Ext K
  | fin a, fin b => if b = 0 then infSign a else fin (a / b)
  | nan, _ => nan
  | _, nan => nan
  | fin _, pinf => fin 0
  | fin _, ninf => fin 0
  | pinf, fin b => if b < 0 then ninf else pinf
  | ninf, fin b => if b < 0 then pinf else ninf
  | _, _ => nan

/-- IEEE absolute value. -/
protected def abs : Ext K → Ext K
  | fin a => fin |a|
  | pinf => pinf
  | ninf => pinf
  | nan => nan

/-- `<`, false with nan. -/
protected def lt : Ext K → Ext K → Bool
  | fin a, fin b => decide (a < b)
  | nan, _ => false
  | _, nan => false
  | pinf, _ => false
  | _, ninf => false
  | ninf, _ => true
  | _, pinf => true

/-- `==`, false with nan. -/
protected def eqv : Ext K → Ext K → Bool
  | fin a, fin b => decide (a = b)
  | pinf, pinf => true
  | ninf, ninf => true
  | _, _ => false

/-- `<=`, false with nan. -/
protected def le (a b : Ext K) : Bool := Ext.lt a b || Ext.eqv a b

instance : PyFloat (Ext K) where
  add := Ext.add
  sub a b := Ext.add a (Ext.neg b)
  mul := Ext.mul
  div := Ext.div
  neg := Ext.neg
  nan := Ext.nan
  lit q := fin (q : K)
  absv := Ext.abs
  lt := Ext.lt
  le := Ext.le
  eqv := Ext.eqv
  isNaN x := match x with | nan => true | _ => false
  isFin x := match x with | fin _ => true | _ => false

@[simp] theorem nan_def : (PyFloat.nan : Ext K) = Ext.nan := rfl
@[simp] theorem lit_def (q : ℚ) : (PyFloat.lit q : Ext K) = fin (q : K) := rfl
@[simp] theorem fin_add (a b : K) : (fin a + fin b : Ext K) = fin (a + b) := rfl
@[simp] theorem fin_sub (a b : K) : (fin a - fin b : Ext K) = fin (a - b) := by
  show fin (a + -b) = _
  rw [sub_eq_add_neg]
@[simp] theorem fin_mul (a b : K) : (fin a * fin b : Ext K) = fin (a * b) := rfl
@[simp] theorem fin_neg (a : K) : (-fin a : Ext K) = fin (-a) := rfl
theorem fin_div_def (a b : K) : (fin a / fin b : Ext K) = if b = 0 then infSign a else fin (a / b) := rfl
theorem fin_div {b : K} (a : K) (hb : b ≠ 0) : (fin a / fin b : Ext K) = fin (a / b) := by
  rw [fin_div_def, if_neg hb]
@[simp] theorem absv_fin (a : K) : absv (fin a : Ext K) = fin |a| := rfl
@[simp] theorem lt_fin (a b : K) : lt (fin a : Ext K) (fin b) = decide (a < b) := rfl
@[simp] theorem eqv_fin (a b : K) : eqv (fin a : Ext K) (fin b) = decide (a = b) := rfl
@[simp] theorem le_fin (a b : K) : le (fin a : Ext K) (fin b) = decide (a ≤ b) := by
  show (decide (a < b) || decide (a = b)) = _
  rw [Bool.eq_iff_iff]
  simp [le_iff_lt_or_eq]
@[simp] theorem isNaN_fin (a : K) : isNaN (fin a : Ext K) = false := rfl
@[simp] theorem isNaN_nan : isNaN (Ext.nan : Ext K) = true := rfl
@[simp] theorem isFin_fin (a : K) : isFin (fin a : Ext K) = true := rfl
@[simp] theorem isFin_nan : isFin (Ext.nan : Ext K) = false := rfl
@[simp] theorem isFin_pinf : isFin (Ext.pinf : Ext K) = false := rfl
@[simp] theorem isFin_ninf : isFin (Ext.ninf : Ext K) = false := rfl
@[simp] theorem lt_nan_left (a : Ext K) : lt (Ext.nan : Ext K) a = false := by cases a <;> rfl
@[simp] theorem lt_nan_right (a : Ext K) : lt a (Ext.nan : Ext K) = false := by cases a <;> rfl
@[simp] theorem nan_add (a : Ext K) : (Ext.nan + a : Ext K) = Ext.nan := by cases a <;> rfl
@[simp] theorem add_nan (a : Ext K) : (a + Ext.nan : Ext K) = Ext.nan := by cases a <;> rfl
@[simp] theorem nan_sub (a : Ext K) : (Ext.nan - a : Ext K) = Ext.nan := by cases a <;> rfl
@[simp] theorem sub_nan (a : Ext K) : (a - Ext.nan : Ext K) = Ext.nan := by cases a <;> rfl
@[simp] theorem nan_mul (a : Ext K) : (Ext.nan * a : Ext K) = Ext.nan := by cases a <;> rfl
@[simp] theorem mul_nan (a : Ext K) : (a * Ext.nan : Ext K) = Ext.nan := by cases a <;> rfl
@[simp] theorem nan_div (a : Ext K) : (Ext.nan / a : Ext K) = Ext.nan := by cases a <;> rfl
@[simp] theorem div_nan (a : Ext K) : (a / Ext.nan : Ext K) = Ext.nan := by cases a <;> rfl

/-- division by a positive constant literal -/
@[simp] theorem pinf_div_fin (b : K) : (pinf / fin b : Ext K) = if b < 0 then ninf else pinf := rfl
@[simp] theorem ninf_div_fin (b : K) : (ninf / fin b : Ext K) = if b < 0 then pinf else ninf := rfl
@[simp] theorem fin_mul_pinf (b : K) : (fin b * pinf : Ext K) = infSign b := rfl
@[simp] theorem fin_mul_ninf (b : K) : (fin b * ninf : Ext K) = infSign (-b) := rfl
@[simp] theorem pinf_add_fin (b : K) : (pinf + fin b : Ext K) = pinf := rfl
@[simp] theorem ninf_add_fin (b : K) : (ninf + fin b : Ext K) = ninf := rfl

theorem fin_div_lit (a : K) {q : ℚ} (hq : q ≠ 0) : (fin a / lit q : Ext K) = fin (a / (q : K)) := by
  rw [lit_def, fin_div]
  exact_mod_cast hq

/-- a finite value divided by zero -/
@[simp] theorem fin_div_zero (a : K) : (fin a / fin 0 : Ext K) = infSign a := by
  rw [fin_div_def, if_pos rfl]

theorem infSign_pos {a : K} (h : 0 < a) : infSign a = (pinf : Ext K) := by simp [infSign, h]
theorem infSign_neg {a : K} (h : a < 0) : infSign a = (ninf : Ext K) := by
  simp [infSign, h, not_lt.mpr h.le]
@[simp] theorem infSign_zero : infSign (0 : K) = (Ext.nan : Ext K) := by simp [infSign]

@[simp] theorem fin_inj {a b : K} : (fin a : Ext K) = fin b ↔ a = b := by
  constructor
  · intro h; injection h
  · intro h; rw [h]

end Ext

end Bta
