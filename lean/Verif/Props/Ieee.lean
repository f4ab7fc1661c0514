import Verif.Lemmas.Rounding

/-!
# The rounding used by C11, C89, C107, C111 and C112 is that of IEEE 754 binary64

`fl64` is written as a calculation.  Here it is compared with the definition in the standard: the numbers of the format are `k * 2^z` with
less than 53 binary digits and exponents in range; a result is the nearest of them, and of two which are equally near the even one; results
from the middle between the greatest number and `2^1024` on are infinite.
-/

set_option linter.unusedSectionVars false
set_option linter.unusedVariables false

namespace Spec

/-- the finite numbers of IEEE 754 binary64: at most 53 binary digits, exponent from -1074 to 971 -/
def Binary64 (r : ℚ) : Prop := ∃ k z : ℤ, |k| < 2 ^ 53 ∧ -1074 ≤ z ∧ z ≤ 971 ∧ r = k * (2 : ℚ) ^ z

/-- numbers whose last digit (of 53, or the last one above the smallest number) is 0 -/
def EvenDigit (r : ℚ) : Prop := ∃ k z : ℤ, |2 * k| ≤ 2 ^ 53 ∧ -1074 ≤ z ∧ (2 ^ 52 ≤ |2 * k| ∨ z = -1074) ∧ r = (2 * k : ℤ) * (2 : ℚ) ^ z

end Spec

namespace Bta
open Spec

theorem roundEven_nearest (s : ℚ) (n : ℤ) : |s - roundEven s| ≤ |s - n| := by
  have h1 := roundEven_near s
  rw [abs_sub_comm] at h1
  by_cases h : n = roundEven s
  · rw [h]
  · -- another whole number is at a distance of at least 1/2
    have h2 : (1 : ℚ) ≤ |(n : ℚ) - roundEven s| := by
      have : (1 : ℤ) ≤ |n - roundEven s| := Int.one_le_abs (sub_ne_zero.mpr h)
      exact_mod_cast this
    have h3 : |(n : ℚ) - roundEven s| ≤ |s - n| + |s - roundEven s| := by
      have := abs_sub_le (n : ℚ) s (roundEven s)
      rwa [abs_sub_comm (n : ℚ) s] at this
    linarith

theorem roundEven_tie (s : ℚ) (n : ℤ) (h : n ≠ roundEven s) (ht : |s - n| ≤ |s - roundEven s|) : roundEven s % 2 = 0 := by
  have h1 := roundEven_near s
  rw [abs_sub_comm] at h1
  have h2 : (1 : ℚ) ≤ |(n : ℚ) - roundEven s| := by
    have : (1 : ℤ) ≤ |n - roundEven s| := Int.one_le_abs (sub_ne_zero.mpr h)
    exact_mod_cast this
  have h3 : |(n : ℚ) - roundEven s| ≤ |s - n| + |s - roundEven s| := by
    have := abs_sub_le (n : ℚ) s (roundEven s)
    rwa [abs_sub_comm (n : ℚ) s] at this
  have h4 : |s - roundEven s| = 1 / 2 := le_antisymm h1 (by linarith)
  have f1 := Int.floor_le s
  have f2 := Int.lt_floor_add_one s
  unfold roundEven at h4 ⊢
  split at h4
  · rename_i c
    rw [abs_of_nonneg (by linarith)] at h4
    linarith
  · split at h4
    · rename_i c c'
      push_cast at h4
      rw [abs_of_nonpos (by linarith)] at h4
      linarith
    · rename_i c c'
      rw [if_neg c, if_neg c']
      split <;> omega

theorem scaled_lt {x : ℚ} (hx : 0 < x) : x / pow2 (ulpExp x) < 2 ^ 53 := by
  rw [div_lt_iff₀ (pow2_pos _)]
  refine lt_of_lt_of_le (expo_spec hx).2 ?_
  have h : (2 : ℚ) ^ 53 * pow2 (ulpExp x) = pow2 (53 + ulpExp x) := by rw [pow2_add]; congr 1
  rw [h]
  exact pow2_mono (by unfold ulpExp; omega)

theorem le_scaled {x : ℚ} (hx : 0 < x) (h : ulpExp x ≠ -1074) : 2 ^ 52 ≤ x / pow2 (ulpExp x) := by
  rw [le_div_iff₀ (pow2_pos _)]
  refine le_trans ?_ (expo_spec hx).1
  have e : (2 : ℚ) ^ 52 * pow2 (ulpExp x) = pow2 (52 + ulpExp x) := by rw [pow2_add]; congr 1
  rw [e]
  exact pow2_mono (by unfold ulpExp at h ⊢; omega)

theorem digits_le {x : ℚ} (hx : 0 < x) : 0 ≤ roundEven (x / pow2 (ulpExp x)) ∧ roundEven (x / pow2 (ulpExp x)) ≤ 2 ^ 53 ∧
    (ulpExp x ≠ -1074 → 2 ^ 52 ≤ roundEven (x / pow2 (ulpExp x))) := by
  refine ⟨?_, ?_, fun h => ?_⟩
  · have := roundEven_mono (div_nonneg hx.le (pow2_pos (ulpExp x)).le)
    rwa [show (0 : ℚ) = ((0 : ℤ) : ℚ) from by simp, roundEven_int] at this
  · have := roundEven_mono (scaled_lt hx).le
    rwa [show (2 : ℚ) ^ 53 = ((2 ^ 53 : ℤ) : ℚ) from by norm_num, roundEven_int] at this
  · have := roundEven_mono (le_scaled hx h)
    rwa [show (2 : ℚ) ^ 52 = ((2 ^ 52 : ℤ) : ℚ) from by norm_num, roundEven_int] at this

/-- what `roundPos` returns for a positive number: no number of the format is nearer, and the even one of two -/
theorem roundPos_spec {x : ℚ} (hx : 0 < x) (y : ℚ) (hy : Binary64 y) :
    |x - roundPos x| ≤ |x - y| ∧ (y ≠ roundPos x → |x - y| ≤ |x - roundPos x| → EvenDigit (roundPos x)) := by
  obtain ⟨k, z, hk, hz1, hz2, rfl⟩ := hy
  obtain ⟨d1, d2, d3⟩ := digits_le hx
  have hs2 := le_scaled hx
  have hu : -1074 ≤ ulpExp x := le_max_right _ _
  have hP := pow2_pos (ulpExp x)
  have hr : roundPos x = roundEven (x / pow2 (ulpExp x)) * pow2 (ulpExp x) := rfl
  have hxs : x = x / pow2 (ulpExp x) * pow2 (ulpExp x) := by rw [div_mul_cancel₀ _ hP.ne']
  rw [hr]
  generalize ulpExp x = u at *
  generalize x / pow2 u = s at *
  have dist : ∀ n : ℤ, |x - n * pow2 u| = |s - n| * pow2 u := fun n => by
    rw [hxs, ← sub_mul, abs_mul, abs_of_pos hP]
  rw [dist, ← pow2_eq]
  by_cases hzu : u ≤ z
  · obtain ⟨j, hj⟩ := Int.le.dest hzu
    have e : (k : ℚ) * pow2 z = ((k * (2 ^ j : ℕ) : ℤ) : ℚ) * pow2 u := by
      rw [← hj, pow2_add, pow2_nat]; push_cast; ring
    rw [e, dist]
    refine ⟨mul_le_mul_of_nonneg_right (roundEven_nearest s _) hP.le, fun hne ht => ?_⟩
    have ht' := le_of_mul_le_mul_right ht hP
    have hne' : k * (2 ^ j : ℕ) ≠ roundEven s := fun hc => hne (by rw [hc])
    have he := roundEven_tie s _ hne' ht'
    obtain ⟨w, hw⟩ : ∃ w, roundEven s = 2 * w := ⟨roundEven s / 2, by omega⟩
    rw [hw] at d1 d2 d3 ⊢
    refine ⟨w, u, ?_, hu, ?_, by rw [pow2_eq]⟩
    · rw [abs_of_nonneg d1]; exact d2
    · rw [abs_of_nonneg d1]
      by_cases h : u = -1074
      · exact .inr h
      · exact .inl (d3 h)
  · -- smaller exponents: `y` is below the power of two below `x`
    have hlt : |(k : ℚ) * pow2 z| < pow2 (52 + u) := by
      rw [abs_mul, abs_of_pos (pow2_pos z)]
      have h1 : (|(k : ℚ)|) < 2 ^ 53 := by exact_mod_cast hk
      have h2 : pow2 (53 + z) ≤ pow2 (52 + u) := pow2_mono (by omega)
      have h3 : pow2 (53 + z) = 2 ^ 53 * pow2 z := by rw [pow2_add]; congr 1
      calc |(k : ℚ)| * pow2 z < 2 ^ 53 * pow2 z := mul_lt_mul_of_pos_right h1 (pow2_pos z)
        _ ≤ pow2 (52 + u) := h3 ▸ h2
    have h52 : pow2 (52 + u) = 2 ^ 52 * pow2 u := by rw [pow2_add]; congr 1
    have hs : (2 : ℚ) ^ 52 ≤ s := hs2 (by omega)
    have h4 : |s - roundEven s| ≤ s - 2 ^ 52 := by
      have := roundEven_nearest s (2 ^ 52)
      rwa [show (((2 ^ 52 : ℤ)) : ℚ) = 2 ^ 52 from by norm_num, abs_of_nonneg (a := s - 2 ^ 52) (by linarith)] at this
    have h5 : |s - roundEven s| * pow2 u < |x - k * pow2 z| := by
      calc |s - roundEven s| * pow2 u ≤ (s - 2 ^ 52) * pow2 u := mul_le_mul_of_nonneg_right h4 hP.le
        _ = x - pow2 (52 + u) := by rw [h52, sub_mul, ← hxs]
        _ < x - k * pow2 z := by have := (abs_lt.mp hlt).2; linarith
        _ ≤ |x - k * pow2 z| := le_abs_self _
    exact ⟨h5.le, fun _ h => absurd h (not_le.mpr h5)⟩

theorem roundPos_binary64 {x : ℚ} (hx : 0 < x) (h : roundPos x < pow2 1024) : Binary64 (roundPos x) := by
  obtain ⟨d1, d2, d3⟩ := digits_le hx
  have hu : -1074 ≤ ulpExp x := le_max_right _ _
  have hr : roundPos x = roundEven (x / pow2 (ulpExp x)) * pow2 (ulpExp x) := rfl
  rw [hr] at h ⊢
  generalize ulpExp x = u at *
  generalize roundEven (x / pow2 u) = w at *
  have hP := pow2_pos u
  rcases d2.lt_or_eq with d2 | d2
  · refine ⟨w, u, by rw [abs_of_nonneg d1]; exact d2, hu, ?_, by rw [pow2_eq]⟩
    by_contra hc
    have h1 : (2 : ℚ) ^ 52 ≤ w := by exact_mod_cast d3 (by omega)
    have h2 : pow2 1024 ≤ 2 ^ 52 * pow2 u := by
      rw [show (2 : ℚ) ^ 52 * pow2 u = pow2 (52 + u) from by rw [pow2_add]; congr 1]
      exact pow2_mono (by omega)
    have := mul_le_mul_of_nonneg_right h1 hP.le
    linarith
  · subst d2
    have e : (((2 ^ 53 : ℤ)) : ℚ) * pow2 u = ((2 ^ 52 : ℤ) : ℚ) * pow2 (u + 1) := by
      rw [pow2_add, show pow2 1 = 2 from by decide +kernel]; push_cast; ring
    rw [e] at h ⊢
    refine ⟨2 ^ 52, u + 1, by norm_num, by omega, ?_, by rw [pow2_eq]⟩
    have h2 : ((2 ^ 52 : ℤ) : ℚ) * pow2 (u + 1) = pow2 (52 + (u + 1)) := by rw [pow2_add 52]; congr 1
    rw [h2] at h
    have := pow2_lt h
    omega

theorem roundPos_overflow {x : ℚ} (hx : 0 < x) : pow2 1024 ≤ roundPos x ↔ pow2 1024 - pow2 970 ≤ x := by
  have hm : roundPos (pow2 1024 - pow2 970) = pow2 1024 := by decide +kernel
  have hp : (0 : ℚ) < pow2 1024 - pow2 970 := by decide +kernel
  constructor
  · intro h
    by_contra hc
    have hlt : x < pow2 1024 - pow2 970 := not_le.mp hc
    have h0 := pow2_pos 970
    have hx2 : x < pow2 (1023 + 1) := by rw [show (1023 + 1 : ℤ) = 1024 from rfl]; linarith
    by_cases hs : x < pow2 1023
    · have h1 : expo x ≤ 1022 := by
        have := pow2_lt (lt_of_le_of_lt (expo_spec hx).1 hs)
        omega
      have := roundPos_le (b := x) hx hs.le (by unfold ulpExp; omega)
      have h3 := pow2_lt (a := 1023) (b := 1024) (by decide +kernel)
      have h4 : pow2 1023 < pow2 1024 := by decide +kernel
      linarith
    · have h1 : expo x = 1023 := expo_unique (not_lt.mp hs) hx2
      have hu : ulpExp x = 971 := by unfold ulpExp; rw [h1]; rfl
      have hr : roundPos x = roundEven (x / pow2 971) * pow2 971 := by rw [← hu]; rfl
      have hP := pow2_pos 971
      have hsl : x / pow2 971 < 2 ^ 53 - 1 / 2 := by
        rw [div_lt_iff₀ hP]
        have : (2 ^ 53 - 1 / 2 : ℚ) * pow2 971 = pow2 1024 - pow2 970 := by decide +kernel
        rw [this]; exact hlt
      have hw : roundEven (x / pow2 971) < 2 ^ 53 := by
        have h5 := (abs_le.mp (roundEven_near (x / pow2 971))).2
        have h6 : (roundEven (x / pow2 971) : ℚ) < 2 ^ 53 := by linarith
        exact_mod_cast h6
      rw [hr] at h
      have h7 : (roundEven (x / pow2 971) : ℚ) < 2 ^ 53 := by exact_mod_cast hw
      have h8 : (2 : ℚ) ^ 53 * pow2 971 = pow2 1024 := by decide +kernel
      have := mul_lt_mul_of_pos_right h7 hP
      linarith
  · intro h
    rw [← hm]
    exact roundPos_mono hp h

/-- **C107** (the arithmetic): a finite result is a number of the format, no number of the format is nearer to the exact result, and of
two equally near ones it is the even one. -/
theorem C107_binary64_nearest (x r : ℚ) (h : binary64.fl x = .fin r) :
    Binary64 r ∧ ∀ y, Binary64 y → |x - r| ≤ |x - y| ∧ (y ≠ r → |x - y| = |x - r| → EvenDigit r) := by
  have hneg : ∀ {y}, Binary64 y → Binary64 (-y) := by
    rintro y ⟨k, z, h1, h2, h3, rfl⟩
    exact ⟨-k, z, by rwa [abs_neg], h2, h3, by push_cast; ring⟩
  have heven : ∀ {y}, EvenDigit (-y) → EvenDigit y := by
    rintro y ⟨k, z, h1, h2, h3, h4⟩
    refine ⟨-k, z, by rwa [mul_neg, abs_neg], h2, by rwa [mul_neg, abs_neg], ?_⟩
    rw [← neg_neg y, h4]; push_cast; ring
  have pos : ∀ {x r : ℚ}, 0 < x → fl64 x = .fin r →
      Binary64 r ∧ ∀ y, Binary64 y → |x - r| ≤ |x - y| ∧ (y ≠ r → |x - y| = |x - r| → EvenDigit r) := by
    intro x r hx h
    rw [fl64_pos hx] at h
    obtain ⟨e, h2⟩ := overflow_fin h
    subst e
    refine ⟨roundPos_binary64 hx h2, fun y hy => ?_⟩
    obtain ⟨p1, p2⟩ := roundPos_spec hx y hy
    exact ⟨p1, fun h3 h4 => p2 h3 h4.le⟩
  change fl64 x = .fin r at h
  rcases lt_trichotomy x 0 with hx | hx | hx
  · have : fl64 (-x) = .fin (-r) := by rw [fl64_neg, h]; rfl
    obtain ⟨p1, p2⟩ := pos (by linarith) this
    refine ⟨by simpa using hneg p1, fun y hy => ?_⟩
    obtain ⟨q1, q2⟩ := p2 (-y) (hneg hy)
    have e : ∀ v : ℚ, |-x - -v| = |x - v| := fun v => by rw [neg_sub_neg, abs_sub_comm]
    rw [e, e] at q1 q2
    exact ⟨q1, fun h3 h4 => heven (q2 (fun hc => h3 (neg_injective hc)) h4)⟩
  · subst hx
    have hr : r = 0 := by
      have : fl64 0 = .fin 0 := by decide +kernel
      rw [this] at h; injection h with h; exact h.symm
    subst hr
    exact ⟨⟨0, 0, by norm_num, by norm_num, by norm_num, by simp⟩, fun y _ =>
      ⟨by simp, fun h3 h4 => absurd (by simpa using h4) h3⟩⟩
  · exact pos hx h

/-- **C107** (the arithmetic): results are infinite exactly from the middle between the greatest number and `2^1024` on. -/
theorem C107_binary64_overflow (x : ℚ) :
    (binary64.fl x = .pinf ↔ 2 ^ 1024 - 2 ^ 970 ≤ x) ∧ (binary64.fl x = .ninf ↔ x ≤ -(2 ^ 1024 - 2 ^ 970)) ∧ binary64.fl x ≠ .nan := by
  have e : (2 : ℚ) ^ 1024 - 2 ^ 970 = pow2 1024 - pow2 970 := by decide +kernel
  have hp : (0 : ℚ) < pow2 1024 - pow2 970 := by decide +kernel
  have pos : ∀ x : ℚ, fl64 x = .pinf ↔ pow2 1024 - pow2 970 ≤ x := by
    intro x
    rcases le_or_gt x 0 with hx | hx
    · refine ⟨fun h => ?_, fun h => absurd (hp.trans_le h) (not_lt.mpr hx)⟩
      have := fl64_mono x 0 hx
      rw [h, show fl64 0 = .fin 0 from by decide +kernel] at this
      exact absurd this (by simp [Ext.Le, Ext.le, Ext.lt, Ext.eqv])
    · rw [fl64_pos hx, ← roundPos_overflow hx]
      unfold overflow
      split
      · rename_i h
        simp [not_le.mpr h]
      · rename_i h
        simp [not_lt.mp h]
  rw [e]
  refine ⟨pos x, ?_, fun hc => ?_⟩
  swap
  · have := fl64_mono x x le_rfl
    change fl64 x = .nan at hc
    rw [hc] at this
    exact absurd this (by simp [Ext.Le, Ext.le, Ext.lt, Ext.eqv])
  have h1 := pos (-x)
  rw [fl64_neg] at h1
  have h2 : Ext.neg (fl64 x) = .pinf ↔ fl64 x = .ninf := by cases fl64 x <;> simp [Ext.neg]
  change fl64 x = .ninf ↔ _
  rw [← h2, h1]
  constructor <;> intro h <;> linarith

theorem binary64_bound {x : ℚ} (h : Binary64 x) : |x| < 2 ^ 1024 - 2 ^ 970 := by
  obtain ⟨k, z, h1, h2, h3, rfl⟩ := h
  rw [← pow2_eq, abs_mul, abs_of_pos (pow2_pos z)]
  have hk : |(k : ℚ)| ≤ 2 ^ 53 - 1 := by
    have : |k| ≤ 2 ^ 53 - 1 := by omega
    have h' : ((|k| : ℤ) : ℚ) ≤ ((2 ^ 53 - 1 : ℤ) : ℚ) := by exact_mod_cast this
    rw [Int.cast_abs] at h'
    refine h'.trans (le_of_eq (by norm_num))
  calc |(k : ℚ)| * pow2 z ≤ (2 ^ 53 - 1) * pow2 971 := mul_le_mul hk (pow2_mono h3) (pow2_pos z).le (by norm_num)
    _ < 2 ^ 1024 - 2 ^ 970 := by decide +kernel

/-- **C107** (the arithmetic): the numbers of the format are those which are not changed by rounding. -/
theorem C107_binary64_numbers (x : ℚ) : Binary64 x ↔ binary64.fl x = .fin x := by
  refine ⟨fun hx => ?_, fun h => (C107_binary64_nearest x x h).1⟩
  cases h : binary64.fl x with
  | fin r =>
    have := ((C107_binary64_nearest x r h).2 x hx).1
    rw [sub_self, abs_zero] at this
    have : x - r = 0 := abs_eq_zero.mp (le_antisymm this (abs_nonneg _))
    rw [sub_eq_zero.mp this]
  | nan => exact absurd h (C107_binary64_overflow x).2.2
  | pinf => exact absurd (((C107_binary64_overflow x).1).mp h) (not_le.mpr (abs_lt.mp (binary64_bound hx)).2)
  | ninf => exact absurd (((C107_binary64_overflow x).2.1).mp h) (not_le.mpr (abs_lt.mp (binary64_bound hx)).1)

/-! cases: a number between two of the format, a tie, an overflow -/
example : binary64.fl (2 ^ 53 + 1) = .fin (2 ^ 53) ∧ binary64.fl (2 ^ 53 + 3) = .fin (2 ^ 53 + 4) := by decide +kernel
example : binary64.fl (2 ^ 1024 - 2 ^ 970) = .pinf ∧ binary64.fl (2 ^ 1024 - 2 ^ 971) = .fin (2 ^ 1024 - 2 ^ 971) := by decide +kernel
example : binary64.fl (3 * (2 : ℚ) ^ (-1076 : ℤ)) = .fin ((2 : ℚ) ^ (-1074 : ℤ)) := by decide +kernel
example : binary64.fl ((2 : ℚ) ^ (-1075 : ℤ)) = .fin 0 := by decide +kernel

end Bta
