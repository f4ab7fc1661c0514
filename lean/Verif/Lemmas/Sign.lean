import Verif.Lemmas.Natural
import Verif.Lemmas.Flt
import Verif.Lemmas.Calc

/-!
# Values with the sign changed

What exact and rounded arithmetic have in common: the sign of a value does not matter for the result.
-/

set_option linter.unusedSectionVars false
set_option linter.unusedVariables false
set_option linter.unusedSimpArgs false

namespace Bta
open Line

variable {K : Type} [Field K] [LinearOrder K] [IsStrictOrderedRing K]

namespace Ext

@[simp] theorem neg_pinf : (-(pinf : Ext K)) = ninf := rfl
@[simp] theorem neg_ninf : (-(ninf : Ext K)) = pinf := rfl
@[simp] theorem neg_nan : (-(Ext.nan : Ext K)) = Ext.nan := rfl
theorem neg_neg (x : Ext K) : -(-x) = x := by cases x <;> simp
theorem neg_zero' : -(lit 0 : Ext K) = lit 0 := by simp

theorem infSign_of_neg (x : K) : infSign (-x) = -(infSign x : Ext K) := by
  unfold infSign
  rcases lt_trichotomy x 0 with h | h | h
  · simp [h, h.le, not_lt.mpr h.le]
  · simp [h]
  · simp [h, not_lt.mpr h.le]

theorem ng_add (x y : Ext K) : -x + -y = -(x + y) := by
  cases x <;> cases y <;> first | rfl | (simp [add_comm])

theorem ng_sub (x y : Ext K) : -x - -y = -(x - y) := by
  cases x <;> cases y <;> first | rfl | (simp only [fin_neg, fin_sub, fin_inj]; ring)

/-- a difference with sign changed is the difference the other way round -/
theorem sub_swap (x y : Ext K) : -(x - y) = y - x := by
  cases x <;> cases y <;> first | rfl | (simp)

theorem ng_sub' (x y : Ext K) : -x - -y = y - x := by rw [ng_sub, sub_swap]

theorem add_comm' (x y : Ext K) : x + y = y + x := by
  cases x <;> cases y <;> first | rfl | (simp [add_comm])

theorem mul_comm' (x y : Ext K) : x * y = y * x := by
  cases x <;> cases y <;> first | rfl | (simp [mul_comm])

theorem ng_cmul (c x : Ext K) : c * -x = -(c * x) := by
  cases c with
  | fin c => cases x <;> simp [infSign_of_neg, neg_neg]
  | pinf =>
    cases x with
    | fin x => show infSign (-x) = -infSign x; exact infSign_of_neg x
    | _ => rfl
  | ninf =>
    cases x with
    | fin x => show infSign (- -x) = -infSign (-x); exact infSign_of_neg (-x)
    | _ => rfl
  | nan => cases x <;> rfl

theorem ng_mulc (c x : Ext K) : -x * c = -(x * c) := by rw [mul_comm', ng_cmul, mul_comm']

theorem ng_mul (x y : Ext K) : -x * -y = x * y := by rw [ng_cmul, ng_mulc, neg_neg]

theorem ng_divc (c x : Ext K) : -x / c = -(x / c) := by
  cases x with
  | fin x =>
    cases c with
    | fin c =>
      simp only [fin_neg, fin_div_def]
      split
      · exact infSign_of_neg x
      · rw [fin_neg, neg_div]
    | pinf => show fin 0 = -fin 0; simp
    | ninf => show fin 0 = -fin 0; simp
    | nan => rfl
  | pinf =>
    cases c with
    | fin c => simp only [neg_pinf, pinf_div_fin, ninf_div_fin]; split <;> rfl
    | _ => rfl
  | ninf =>
    cases c with
    | fin c => simp only [neg_ninf, pinf_div_fin, ninf_div_fin]; split <;> rfl
    | _ => rfl
  | nan => cases c <;> rfl

theorem ng_abs (x : Ext K) : absv (-x) = absv x := by
  cases x <;> first | rfl | (simp)

theorem ng_lt (x y : Ext K) : lt (-x) (-y) = lt y x := by
  cases x <;> cases y <;> first | rfl | (simp)

theorem ng_eqv (x y : Ext K) : eqv (-x) (-y) = eqv x y := by
  cases x <;> cases y <;> first | rfl | (simp)

theorem eqv_comm (x y : Ext K) : eqv x y = eqv y x := by
  cases x <;> cases y <;> first | rfl | (simp [eq_comm])

theorem ng_le (x y : Ext K) : le (-x) (-y) = le y x := by
  show (lt (-x) (-y) || eqv (-x) (-y)) = (lt y x || eqv y x)
  rw [ng_lt, ng_eqv, eqv_comm]

theorem ng_isNaN (x : Ext K) : isNaN (-x) = isNaN x := by cases x <;> rfl
theorem ng_isFin (x : Ext K) : isFin (-x) = isFin x := by cases x <;> rfl

theorem ng_sign (x : Ext K) : signV (-x) = -signV x := by
  have l1 : lt (lit 0) (-x) = lt x (lit 0) := by have := ng_lt (lit 0) x; rw [neg_zero'] at this; exact this
  have l2 : lt (-x) (lit 0) = lt (lit 0) x := by have := ng_lt x (lit 0); rw [neg_zero'] at this; exact this
  unfold signV
  rw [l1, l2, ng_isNaN]
  cases x with
  | fin x =>
    rcases lt_trichotomy x 0 with h | h | h
    · simp [h, not_lt.mpr h.le]
    · simp [h]
    · simp [h, not_lt.mpr h.le]
  | pinf => simp [show lt (pinf : Ext K) (fin 0) = false from rfl, show lt (fin 0) (pinf : Ext K) = true from rfl, show isNaN (pinf : Ext K) = false from rfl]
  | ninf => simp [show lt (ninf : Ext K) (fin 0) = true from rfl, show lt (fin 0) (ninf : Ext K) = false from rfl, show isNaN (ninf : Ext K) = false from rfl]
  | nan => rfl

theorem add_right_comm' (x y z : Ext K) : x + y + z = x + z + y := by
  cases x <;> cases y <;> cases z <;> first | rfl | (simp [add_right_comm])

theorem sub_right_comm' (x y z : Ext K) : x - y - z = x - z - y := by
  cases x <;> cases y <;> cases z <;> first | rfl | (simp [sub_right_comm])

theorem absClip (x : Ext K) : absv (clipHi x (lit 0)) = -clipHi x (lit 0) := by
  cases x with
  | fin x =>
    show absv (clipHi (Ext.fin x) (Ext.fin ((0 : ℚ) : K))) = -clipHi (Ext.fin x) (Ext.fin ((0 : ℚ) : K))
    rw [clipHi_fin]
    simp [abs_of_nonpos (min_le_right x 0)]
  | pinf =>
    have : clipHi (Ext.pinf : Ext K) (lit 0) = lit 0 := rfl
    rw [this]; simp
  | ninf => rfl
  | nan => rfl

theorem ng_ratio (x y : Ext K) : (if eqv (-y) (lit 0) then lit 0 else -x) / -y = (if eqv y (lit 0) then lit 0 else x) / y := by
  have e : eqv (-y) (lit 0) = eqv y (lit 0) := by have := Ext.ng_eqv y (lit 0); rw [Ext.neg_zero'] at this; exact this
  rw [e]
  cases hy : eqv y (lit 0) with
  | true =>
    simp only [if_true]
    cases y with
    | fin y =>
      have : y = 0 := by simpa using hy
      subst this; simp
    | pinf => rfl
    | ninf => rfl
    | nan => rfl
  | false =>
    simp only [Bool.false_eq_true, if_false]
    rw [Ext.ng_divc]
    cases y with
    | fin y =>
      have : y ≠ 0 := by simpa using hy
      cases x with
      | fin x => simp [Ext.fin_div_def, this, div_neg]
      | pinf =>
        rcases lt_or_gt_of_ne this with h | h <;> simp [Ext.pinf_div_fin, h, this, not_lt.mpr h.le]
      | ninf =>
        rcases lt_or_gt_of_ne this with h | h <;> simp [Ext.ninf_div_fin, h, this, not_lt.mpr h.le]
      | nan => rfl
    | pinf => cases x <;> first | rfl | (show -Ext.fin 0 = Ext.fin 0; simp)
    | ninf => cases x <;> first | rfl | (show -Ext.fin 0 = Ext.fin 0; simp)
    | nan => cases x <;> rfl

end Ext

/-- an arithmetic in which the sign of the values does not matter; the order of sums may -/
class SignSym (V : Type) [PyFloat V] : Prop where
  neg_neg : ∀ x : V, -(-x) = x
  neg_nan : -(nan : V) = nan
  lit_neg : ∀ q : ℚ, (lit (-q) : V) = -lit q
  sub_def : ∀ x y : V, x - y = x + -y
  add_comm' : ∀ x y : V, x + y = y + x
  mul_comm' : ∀ x y : V, x * y = y * x
  ng_add : ∀ x y : V, -x + -y = -(x + y)
  ng_cmul : ∀ c x : V, c * -x = -(c * x)
  ng_divc : ∀ c x : V, -x / c = -(x / c)
  ratio : ∀ x y : V, (if eqv (-y) (lit 0) then lit 0 else -x) / -y = (if eqv y (lit 0) then lit 0 else x) / y
  ng_abs : ∀ x : V, absv (-x) = absv x
  absClip : ∀ x : V, absv (clipHi x (lit 0)) = -clipHi x (lit 0)
  ng_lt : ∀ x y : V, lt (-x) (-y) = lt y x
  ng_eqv : ∀ x y : V, eqv (-x) (-y) = eqv x y
  eqv_comm : ∀ x y : V, eqv x y = eqv y x
  le_def : ∀ x y : V, le x y = (lt x y || eqv x y)
  ng_isNaN : ∀ x : V, isNaN (-x) = isNaN x
  ng_isFin : ∀ x : V, isFin (-x) = isFin x
  ng_sign : ∀ x : V, signV (-x) = -signV x

/-- the order of a sum of three does not matter -/
structure SumOrder (V : Type) [PyFloat V] : Prop where
  add_right_comm : ∀ x y z : V, x + y + z = x + z + y
  sub_right_comm : ∀ x y z : V, x - y - z = x - z - y

instance : SignSym (Ext K) where
  neg_neg := Ext.neg_neg
  neg_nan := rfl
  lit_neg q := by simp
  sub_def x y := rfl
  add_comm' := Ext.add_comm'
  mul_comm' := Ext.mul_comm'
  ng_add := Ext.ng_add
  ng_cmul := Ext.ng_cmul
  ng_divc := Ext.ng_divc
  ratio := Ext.ng_ratio
  ng_abs := Ext.ng_abs
  absClip := Ext.absClip
  ng_lt := Ext.ng_lt
  ng_eqv := Ext.ng_eqv
  eqv_comm := Ext.eqv_comm
  le_def x y := rfl
  ng_isNaN := Ext.ng_isNaN
  ng_isFin := Ext.ng_isFin
  ng_sign := Ext.ng_sign

theorem Ext.sumOrder : SumOrder (Ext K) := ⟨Ext.add_right_comm', Ext.sub_right_comm'⟩

theorem Rounding.round_neg (R : Rounding) (x : Ext ℚ) : R.round (-x) = -R.round x := by
  cases x with
  | fin x => exact R.neg x
  | _ => rfl

section
variable {R : Rounding}

theorem Flt.lit_zero' : (lit 0 : Flt R) = (lit 0 : Ext ℚ) := by
  show R.fl 0 = .fin ((0 : ℚ) : ℚ)
  rw [R.fl_zero]

instance : SignSym (Flt R) where
  neg_neg x := Ext.neg_neg (K := ℚ) x
  neg_nan := rfl
  lit_neg q := R.neg q
  sub_def x y := rfl
  add_comm' x y := congrArg R.round (Ext.add_comm' (K := ℚ) x y)
  mul_comm' x y := congrArg R.round (Ext.mul_comm' (K := ℚ) x y)
  ng_add x y := (congrArg R.round (Ext.ng_add (K := ℚ) x y)).trans (R.round_neg _)
  ng_cmul x y := (congrArg R.round (Ext.ng_cmul (K := ℚ) x y)).trans (R.round_neg _)
  ng_divc x y := (congrArg R.round (Ext.ng_divc (K := ℚ) x y)).trans (R.round_neg _)
  ratio x y := by
    have := congrArg R.round (Ext.ng_ratio (K := ℚ) x y)
    rw [Flt.lit_zero']
    exact this
  ng_abs x := Ext.ng_abs (K := ℚ) x
  absClip x := by rw [Flt.lit_zero']; exact Ext.absClip (K := ℚ) x
  ng_lt x y := Ext.ng_lt (K := ℚ) x y
  ng_eqv x y := Ext.ng_eqv (K := ℚ) x y
  eqv_comm x y := Ext.eqv_comm (K := ℚ) x y
  le_def x y := rfl
  ng_isNaN x := Ext.ng_isNaN (K := ℚ) x
  ng_isFin x := Ext.ng_isFin (K := ℚ) x
  ng_sign x := by
    have e1 : (lit 1 : Flt R) = (lit 1 : Ext ℚ) := by
      show R.fl 1 = .fin ((1 : ℚ) : ℚ)
      rw [R.fl_one]
    have e2 : (lit (-1) : Flt R) = (lit (-1) : Ext ℚ) := by
      show R.fl (-1) = .fin ((-1 : ℚ) : ℚ)
      rw [R.fl_negone]
    unfold signV
    rw [Flt.lit_zero', e1, e2]
    exact Ext.ng_sign (K := ℚ) x

end

variable {V : Type} [PyFloat V] [SignSym V]

namespace Sg
open SignSym

theorem neg_neg (x : V) : -(-x) = x := SignSym.neg_neg x
theorem neg_nan : -(nan : V) = nan := SignSym.neg_nan
theorem neg_zero' : -(lit 0 : V) = lit 0 := by
  have := lit_neg (V := V) 0
  rw [neg_zero] at this; exact this.symm
theorem add_comm' (x y : V) : x + y = y + x := SignSym.add_comm' x y
theorem mul_comm' (x y : V) : x * y = y * x := SignSym.mul_comm' x y
theorem ng_add (x y : V) : -x + -y = -(x + y) := SignSym.ng_add x y
theorem ng_sub (x y : V) : -x - -y = -(x - y) := by rw [sub_def, sub_def, ng_add]
theorem sub_swap (x y : V) : -(x - y) = y - x := by rw [sub_def, ← ng_add, neg_neg, add_comm', sub_def]
theorem ng_sub' (x y : V) : -x - -y = y - x := by rw [ng_sub, sub_swap]
theorem ng_add_l (x y : V) : -x + y = -(x - y) := by rw [sub_def, ← ng_add, neg_neg]
theorem ng_sub_l (x y : V) : -x - y = -(x + y) := by rw [sub_def, ng_add]
theorem ng_cmul (c x : V) : c * -x = -(c * x) := SignSym.ng_cmul c x
theorem ng_mulc (c x : V) : -x * c = -(x * c) := by rw [mul_comm', ng_cmul, mul_comm']
theorem ng_mul (x y : V) : -x * -y = x * y := by rw [ng_cmul, ng_mulc, neg_neg]
theorem ng_divc (c x : V) : -x / c = -(x / c) := SignSym.ng_divc c x
theorem ratio (x y : V) : (if eqv (-y) (lit 0) then lit 0 else -x) / -y = (if eqv y (lit 0) then lit 0 else x) / y := SignSym.ratio x y
theorem ng_abs (x : V) : absv (-x) = absv x := SignSym.ng_abs x
theorem absClip (x : V) : absv (clipHi x (lit 0)) = -clipHi x (lit 0) := SignSym.absClip x
theorem ng_lt (x y : V) : lt (-x) (-y) = lt y x := SignSym.ng_lt x y
theorem ng_eqv (x y : V) : eqv (-x) (-y) = eqv x y := SignSym.ng_eqv x y
theorem eqv_comm (x y : V) : eqv x y = eqv y x := SignSym.eqv_comm x y
theorem ng_le (x y : V) : le (-x) (-y) = le y x := by rw [le_def, le_def, ng_lt, ng_eqv, eqv_comm]
theorem ng_isNaN (x : V) : isNaN (-x) = isNaN x := SignSym.ng_isNaN x
theorem ng_isFin (x : V) : isFin (-x) = isFin x := SignSym.ng_isFin x
theorem ng_sign (x : V) : signV (-x) = -signV x := SignSym.ng_sign x

end Sg

macro "nanrfl" : term => `(by first | rfl | exact Sg.neg_nan | exact Sg.neg_nan.symm)

end Bta
