import Verif.Num
import Mathlib.Data.Rat.Floor

/-!
# Rounded arithmetic

`Ext ℚ` is exact.  Here each operation rounds its exact result, as floating point arithmetic does: `Flt R` for any rounding `R` with the
properties listed, and `binary64`, the arithmetic of the float64 columns of pandas and numpy (IEEE 754, round to nearest, ties to even,
with subnormal numbers and overflow).  As in `Ext`, zero has no sign.  This file is part of the trusted base: it describes no code
of /repo but the number type it computes with (lines.py:121, 141: `np.nan` makes each result column float64).
-/

set_option linter.unusedSectionVars false

namespace Bta

/-- `a ≤ b` of two values which are not NaN -/
def Ext.Le (a b : Ext ℚ) : Prop := Ext.le a b = true

instance (a b : Ext ℚ) : Decidable (Ext.Le a b) := inferInstanceAs (Decidable (_ = true))

/-- A way to round results: to a number or, when too large, an infinity (never NaN); the order is kept; the sign does not matter; the
whole numbers up to 2 ^ 24 are there (as in single precision), and the double of each number unless it is too large; a result is not
rounded again. (the arithmetic of
numpy; lines.py:121, 141) -/
structure Rounding where
  /-- the result of an operation whose exact result is `x` -/
  fl : ℚ → Ext ℚ
  mono : ∀ x y, x ≤ y → Ext.Le (fl x) (fl y)
  neg : ∀ x, fl (-x) = Ext.neg (fl x)
  nat : ∀ k : ℕ, k ≤ 2 ^ 24 → fl k = .fin k
  idem : ∀ x y, fl x = .fin y → fl y = .fin y
  double : ∀ x, 0 ≤ x → fl x = .fin x → fl (2 * x) = .fin (2 * x) ∨ fl (2 * x) = .pinf

/-- round a result; infinities and NaN stay (lines.py:121, 141) -/
def Rounding.round (R : Rounding) : Ext ℚ → Ext ℚ
  | .fin x => R.fl x
  | v => v

/-- Values of an arithmetic with rounding `R` (lines.py:121, 141) -/
def Flt (_R : Rounding) : Type := Ext ℚ

/-- The operations with rounding: sum, difference, product and quotient are rounded, literals as well; sign, absolute value and comparisons
are exact. (numpy float64; lines.py:121, 141) -/
instance (R : Rounding) : PyFloat (Flt R) where
  add a b := R.round (Ext.add a b)
  sub a b := R.round (Ext.add a (Ext.neg b))
  mul a b := R.round (Ext.mul a b)
  div a b := R.round (Ext.div a b)
  neg a := Ext.neg a
  nan := Ext.nan
  lit q := R.fl q
  absv a := Ext.abs a
  lt a b := Ext.lt a b
  le a b := Ext.le a b
  eqv a b := Ext.eqv a b
  isNaN a := isNaN (V := Ext ℚ) a
  isFin a := isFin (V := Ext ℚ) a

/-! ## IEEE 754 binary64 -/

/-- `2 ^ z` (IEEE 754; no code of /repo, cf. lines.py:121) -/
def pow2 (z : ℤ) : ℚ := if 0 ≤ z then ((2 ^ z.toNat : ℕ) : ℚ) else 1 / ((2 ^ (-z).toNat : ℕ) : ℚ)

/-- the nearest whole number, the even one of two (IEEE 754; cf. lines.py:121) -/
def roundEven (s : ℚ) : ℤ :=
  if s - ⌊s⌋ < 1 / 2 then ⌊s⌋ else if 1 / 2 < s - ⌊s⌋ then ⌊s⌋ + 1 else if ⌊s⌋ % 2 = 0 then ⌊s⌋ else ⌊s⌋ + 1

/-- the exponent of a positive number: `2 ^ e ≤ a < 2 ^ (e + 1)` (IEEE 754; cf. lines.py:121) -/
def expo (a : ℚ) : ℤ :=
  let e := (Nat.log2 a.num.toNat : ℤ) - (Nat.log2 a.den : ℤ)
  if a < pow2 e then e - 1 else e

/-- the distance of the numbers around `a`, as exponent of 2: 53 digits, and not below the subnormal numbers (IEEE 754; cf. lines.py:121) -/
def ulpExp (a : ℚ) : ℤ := max (expo a - 52) (-1074)

/-- a positive number to 53 binary digits (IEEE 754; cf. lines.py:121) -/
def roundPos (a : ℚ) : ℚ := roundEven (a / pow2 (ulpExp a)) * pow2 (ulpExp a)

/-- too large numbers become infinite (IEEE 754; cf. lines.py:121) -/
def overflow (r : ℚ) : Ext ℚ := if r < pow2 1024 then .fin r else .pinf

/-- rounding to binary64 (IEEE 754; cf. lines.py:121) -/
def fl64 (q : ℚ) : Ext ℚ :=
  if q = 0 then .fin 0 else if 0 < q then overflow (roundPos q) else Ext.neg (overflow (roundPos (-q)))

example : fl64 (1/10) = .fin (3602879701896397 / 36028797018963968) := by decide +kernel
example : fl64 (2^53 + 1) = .fin (2^53) ∧ fl64 (2^53 + 3) = .fin (2^53 + 4) := by decide +kernel

end Bta
