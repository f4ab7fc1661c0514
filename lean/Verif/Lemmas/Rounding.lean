import Verif.Float
import Mathlib.Tactic.IntervalCases
import Mathlib.Algebra.Order.Field.Power

/-!
# binary64 is a rounding
-/

set_option linter.unusedSectionVars false
set_option linter.unusedVariables false

namespace Bta

theorem pow2_eq (z : ℤ) : pow2 z = (2 : ℚ) ^ z := by
  unfold pow2
  split
  · rename_i h
    obtain ⟨n, rfl⟩ := Int.eq_ofNat_of_zero_le h
    simp
  · rename_i h
    obtain ⟨n, hn⟩ := Int.eq_ofNat_of_zero_le (by omega : 0 ≤ -z)
    have : z = -(n : ℤ) := by omega
    subst this
    simp

theorem pow2_pos (z : ℤ) : 0 < pow2 z := by rw [pow2_eq]; positivity
theorem pow2_add (a b : ℤ) : pow2 (a + b) = pow2 a * pow2 b := by
  rw [pow2_eq, pow2_eq, pow2_eq, zpow_add₀ (by norm_num)]
theorem pow2_mono {a b : ℤ} (h : a ≤ b) : pow2 a ≤ pow2 b := by
  rw [pow2_eq, pow2_eq]; exact zpow_le_zpow_right₀ (by norm_num) h
theorem pow2_lt {a b : ℤ} (h : pow2 a < pow2 b) : a < b := by
  by_contra hc
  exact absurd (pow2_mono (not_lt.mp hc)) (not_le.mpr h)
theorem pow2_le_iff {a b : ℤ} : pow2 a ≤ pow2 b ↔ a ≤ b := by
  rw [pow2_eq, pow2_eq]; exact zpow_le_zpow_iff_right₀ (by norm_num)
theorem pow2_nat (n : ℕ) : pow2 n = ((2 ^ n : ℕ) : ℚ) := by rw [pow2_eq]; simp

theorem expo_spec {a : ℚ} (ha : 0 < a) : pow2 (expo a) ≤ a ∧ a < pow2 (expo a + 1) := by
  have hn : 0 < a.num := Rat.num_pos.mpr ha
  obtain ⟨n, hn'⟩ := Int.eq_ofNat_of_zero_le hn.le
  have hn0 : n ≠ 0 := by omega
  have hd0 : a.den ≠ 0 := a.den_nz
  have e : a = (n : ℚ) / (a.den : ℚ) := by
    conv_lhs => rw [← Rat.num_div_den a]
    rw [hn']; rfl
  have hdp : (0 : ℚ) < a.den := by exact_mod_cast Nat.pos_of_ne_zero hd0
  have h1 : ((2 ^ Nat.log2 n : ℕ) : ℚ) ≤ n := by exact_mod_cast Nat.log2_self_le hn0
  have h2 : (n : ℚ) < ((2 ^ (Nat.log2 n + 1) : ℕ) : ℚ) := by exact_mod_cast Nat.lt_log2_self
  have h3 : ((2 ^ Nat.log2 a.den : ℕ) : ℚ) ≤ a.den := by exact_mod_cast Nat.log2_self_le hd0
  have h4 : (a.den : ℚ) < ((2 ^ (Nat.log2 a.den + 1) : ℕ) : ℚ) := by exact_mod_cast Nat.lt_log2_self
  rw [← pow2_nat] at h1 h2 h3 h4
  set ln := Nat.log2 n
  set ld := Nat.log2 a.den
  have hnum : a.num.toNat = n := by omega
  unfold expo
  simp only [hnum]
  change pow2 (if a < pow2 ((ln : ℤ) - ld) then (ln : ℤ) - ld - 1 else (ln : ℤ) - ld) ≤ a ∧ a < pow2 ((if a < pow2 ((ln : ℤ) - ld) then (ln : ℤ) - ld - 1 else (ln : ℤ) - ld) + 1)
  split
  · rename_i h
    refine ⟨?_, by rw [sub_add_cancel]; exact h⟩
    rw [e, le_div_iff₀ hdp]
    have : pow2 ln = pow2 ((ln : ℤ) - ld - 1) * pow2 ((ld + 1 : ℕ) : ℤ) := by
      rw [← pow2_add]; congr 1; push_cast; ring
    rw [this] at h1
    exact le_trans (mul_le_mul_of_nonneg_left h4.le (pow2_pos _).le) h1
  · rename_i h
    refine ⟨not_lt.mp h, ?_⟩
    rw [e, div_lt_iff₀ hdp]
    have : pow2 ((ln + 1 : ℕ) : ℤ) = pow2 ((ln : ℤ) - ld + 1) * pow2 ld := by
      rw [← pow2_add]; congr 1; push_cast; ring
    rw [this] at h2
    exact lt_of_lt_of_le h2 (mul_le_mul_of_nonneg_left h3 (pow2_pos _).le)

theorem expo_mono {a b : ℚ} (ha : 0 < a) (h : a ≤ b) : expo a ≤ expo b := by
  have h1 := (expo_spec ha).1
  have h2 := (expo_spec (lt_of_lt_of_le ha h)).2
  have := pow2_lt (lt_of_le_of_lt (h1.trans h) h2)
  omega

theorem roundEven_floor (s : ℚ) : ⌊s⌋ ≤ roundEven s ∧ roundEven s ≤ ⌊s⌋ + 1 := by
  unfold roundEven; split <;> [skip; split] <;> [skip; skip; split] <;> constructor <;> omega

theorem roundEven_int (n : ℤ) : roundEven n = n := by
  unfold roundEven; simp

theorem roundEven_mono {s t : ℚ} (h : s ≤ t) : roundEven s ≤ roundEven t := by
  have hf := Int.floor_mono h
  rcases hf.lt_or_eq with hf | hf
  · have := (roundEven_floor s).2
    have := (roundEven_floor t).1
    omega
  · unfold roundEven
    rw [hf]
    split <;> split <;> (try split) <;> (try split) <;> (try split) <;> first | omega | (exfalso; linarith)

theorem roundEven_near (s : ℚ) : |(roundEven s : ℚ) - s| ≤ 1 / 2 := by
  have h1 := Int.floor_le s
  have h2 := Int.lt_floor_add_one s
  unfold roundEven
  rw [abs_le]
  split <;> [skip; split] <;> [skip; skip; split] <;> push_cast <;> constructor <;> linarith

theorem roundPos_le {a b : ℚ} {z : ℤ} (ha : 0 < a) (h : a ≤ pow2 z) (hz : ulpExp a ≤ z) : roundPos a ≤ pow2 z := by
  unfold roundPos
  have hp := pow2_pos (ulpExp a)
  obtain ⟨n, hn⟩ := Int.eq_ofNat_of_zero_le (by omega : 0 ≤ z - ulpExp a)
  have e : pow2 z = (((2 ^ n : ℕ) : ℤ) : ℚ) * pow2 (ulpExp a) := by
    rw [Int.cast_natCast, ← pow2_nat, ← pow2_add]; congr 1; omega
  rw [e] at h ⊢
  have h2 := roundEven_mono ((div_le_iff₀ hp).mpr h)
  rw [roundEven_int] at h2
  exact mul_le_mul_of_nonneg_right (by exact_mod_cast h2) hp.le

theorem le_roundPos {a : ℚ} {z : ℤ} (ha : 0 < a) (h : pow2 z ≤ a) (hz : ulpExp a ≤ z) : pow2 z ≤ roundPos a := by
  unfold roundPos
  have hp := pow2_pos (ulpExp a)
  obtain ⟨n, hn⟩ := Int.eq_ofNat_of_zero_le (by omega : 0 ≤ z - ulpExp a)
  have e : pow2 z = (((2 ^ n : ℕ) : ℤ) : ℚ) * pow2 (ulpExp a) := by
    rw [Int.cast_natCast, ← pow2_nat, ← pow2_add]; congr 1; omega
  rw [e] at h ⊢
  have h2 := roundEven_mono ((le_div_iff₀ hp).mpr h)
  rw [roundEven_int] at h2
  exact mul_le_mul_of_nonneg_right (by exact_mod_cast h2) hp.le

theorem roundPos_mono {a b : ℚ} (ha : 0 < a) (h : a ≤ b) : roundPos a ≤ roundPos b := by
  have hb := lt_of_lt_of_le ha h
  have he := expo_mono ha h
  have hu : ulpExp a ≤ ulpExp b := by unfold ulpExp; omega
  rcases hu.lt_or_eq with hu | hu
  · -- the exponents differ: a power of two lies between
    have h1 : expo a + 1 ≤ expo b := by unfold ulpExp at hu; omega
    have h2 : ulpExp b = expo b - 52 := by unfold ulpExp at hu ⊢; omega
    calc roundPos a ≤ pow2 (expo b) := roundPos_le (b := b) ha ((expo_spec ha).2.le.trans (pow2_mono h1)) (by omega)
      _ ≤ roundPos b := le_roundPos hb (expo_spec hb).1 (by omega)
  · unfold roundPos
    rw [hu]
    have hp := pow2_pos (ulpExp b)
    exact mul_le_mul_of_nonneg_right (by exact_mod_cast roundEven_mono (div_le_div_of_nonneg_right h hp.le)) hp.le

theorem roundPos_nonneg {a : ℚ} (ha : 0 < a) : 0 ≤ roundPos a := by
  unfold roundPos
  have hp := pow2_pos (ulpExp a)
  have h2 := roundEven_mono (div_pos ha hp).le
  rw [show ((0 : ℚ)) = ((0 : ℤ) : ℚ) from rfl, roundEven_int] at h2
  exact mul_nonneg (by exact_mod_cast h2) hp.le

namespace Ext

theorem le_fin' {x y : ℚ} : Ext.Le (fin x) (fin y) ↔ x ≤ y := by
  unfold Ext.Le Ext.le
  simp only [Ext.lt, Ext.eqv, Bool.or_eq_true, decide_eq_true_eq]
  exact le_iff_lt_or_eq.symm

theorem le_pinf {a : Ext ℚ} (h : a ≠ nan) : Ext.Le a pinf := by cases a <;> first | rfl | exact absurd rfl h
theorem ninf_le {a : Ext ℚ} (h : a ≠ nan) : Ext.Le ninf a := by cases a <;> first | rfl | exact absurd rfl h

theorem Le.trans {a b c : Ext ℚ} (h1 : Ext.Le a b) (h2 : Ext.Le b c) : Ext.Le a c := by
  cases a with
  | fin x => cases b with
    | fin y => cases c with
      | fin z => rw [le_fin'] at *; exact h1.trans h2
      | _ => revert h2; simp [Ext.Le, Ext.le, Ext.lt, Ext.eqv]
    | _ => revert h1 h2; cases c <;> simp [Ext.Le, Ext.le, Ext.lt, Ext.eqv]
  | _ => revert h1 h2; cases b <;> cases c <;> simp [Ext.Le, Ext.le, Ext.lt, Ext.eqv]

theorem Le.neg {a b : Ext ℚ} (h : Ext.Le a b) : Ext.Le (Ext.neg b) (Ext.neg a) := by
  cases a with
  | fin x => cases b with
    | fin y => simp only [Ext.neg, le_fin'] at *; linarith
    | _ => revert h; simp [Ext.Le, Ext.le, Ext.lt, Ext.eqv, Ext.neg]
  | _ => revert h; cases b <;> simp [Ext.Le, Ext.le, Ext.lt, Ext.eqv, Ext.neg]

end Ext

theorem overflow_mono {r s : ℚ} (h : r ≤ s) : Ext.Le (overflow r) (overflow s) := by
  unfold overflow
  split <;> split
  · exact Ext.le_fin'.mpr h
  · rfl
  · exact absurd (lt_of_le_of_lt h ‹_›) ‹_›
  · rfl

theorem overflow_nonneg {r : ℚ} (h : 0 ≤ r) : Ext.Le (.fin 0) (overflow r) := by
  unfold overflow
  split
  · exact Ext.le_fin'.mpr h
  · rfl

theorem fl64_pos {x : ℚ} (h : 0 < x) : fl64 x = overflow (roundPos x) := by
  unfold fl64; rw [if_neg h.ne', if_pos h]

theorem fl64_neg (x : ℚ) : fl64 (-x) = Ext.neg (fl64 x) := by
  rcases lt_trichotomy x 0 with h | h | h
  · rw [fl64_pos (by linarith)]
    unfold fl64
    rw [if_neg h.ne, if_neg (by linarith)]
    cases overflow (roundPos (-x)) <;> simp [Ext.neg]
  · subst h; simp [fl64, Ext.neg]
  · rw [fl64_pos h]
    unfold fl64
    rw [if_neg (by linarith), if_neg (by linarith), neg_neg]

theorem fl64_nonneg {x : ℚ} (h : 0 ≤ x) : Ext.Le (.fin 0) (fl64 x) := by
  rcases h.lt_or_eq with h | h
  · rw [fl64_pos h]; exact overflow_nonneg (roundPos_nonneg h)
  · subst h; unfold fl64; rw [if_pos rfl]; exact Ext.le_fin'.mpr (le_refl _)

theorem fl64_mono_pos {x y : ℚ} (hx : 0 ≤ x) (h : x ≤ y) : Ext.Le (fl64 x) (fl64 y) := by
  rcases hx.lt_or_eq with hx | hx
  · rw [fl64_pos hx, fl64_pos (lt_of_lt_of_le hx h)]
    exact overflow_mono (roundPos_mono hx h)
  · subst hx
    rw [show fl64 0 = .fin 0 from by unfold fl64; rw [if_pos rfl]]
    exact fl64_nonneg h

theorem fl64_mono (x y : ℚ) (h : x ≤ y) : Ext.Le (fl64 x) (fl64 y) := by
  rcases le_total 0 x with hx | hx
  · exact fl64_mono_pos hx h
  · have hx' : Ext.Le (fl64 x) (.fin 0) := by
      have := (fl64_nonneg (by linarith : 0 ≤ -x)).neg
      rw [fl64_neg] at this
      revert this
      cases fl64 x <;> simp [Ext.neg]
    rcases le_total 0 y with hy | hy
    · exact hx'.trans (fl64_nonneg hy)
    · have := (fl64_mono_pos (by linarith : 0 ≤ -y) (by linarith : -y ≤ -x)).neg
      rw [fl64_neg, fl64_neg] at this
      revert this
      cases fl64 x <;> cases fl64 y <;> simp [Ext.neg]

theorem expo_unique {a : ℚ} {z : ℤ} (h1 : pow2 z ≤ a) (h2 : a < pow2 (z + 1)) : expo a = z := by
  have ha : 0 < a := lt_of_lt_of_le (pow2_pos _) h1
  obtain ⟨h3, h4⟩ := expo_spec ha
  have h5 := pow2_lt (lt_of_le_of_lt h1 h4)
  have h6 := pow2_lt (lt_of_le_of_lt h3 h2)
  omega

/-- a multiple of the distance is not changed -/
theorem roundPos_exact {a : ℚ} (n : ℤ) {z : ℤ} (hz : ulpExp a ≤ z) (h : a = n * pow2 z) : roundPos a = a := by
  obtain ⟨k, hk⟩ := Int.eq_ofNat_of_zero_le (by omega : 0 ≤ z - ulpExp a)
  have hp := pow2_pos (ulpExp a)
  have e : a = ((n * (2 ^ k : ℕ) : ℤ) : ℚ) * pow2 (ulpExp a) := by
    conv_lhs => rw [h]
    rw [Int.cast_mul, Int.cast_natCast, ← pow2_nat, mul_assoc, ← pow2_add]
    congr 2; omega
  have e2 : a / pow2 (ulpExp a) = ((n * (2 ^ k : ℕ) : ℤ) : ℚ) := by
    rw [div_eq_iff hp.ne']; exact e
  unfold roundPos
  rw [e2, roundEven_int]
  exact e.symm

theorem fl64_nat (k : ℕ) (hk : k ≤ 2 ^ 53) : fl64 k = .fin k := by
  rcases Nat.eq_zero_or_pos k with rfl | h0
  · unfold fl64; simp
  · have hp : (0 : ℚ) < k := by exact_mod_cast h0
    rw [fl64_pos hp]
    have hov : ∀ x : ℚ, x = k → overflow x = .fin k := by
      rintro x rfl
      unfold overflow
      rw [if_pos]
      have : (k : ℚ) ≤ pow2 53 := by
        rw [show (53 : ℤ) = ((53 : ℕ) : ℤ) from rfl, pow2_nat]; exact_mod_cast hk
      refine lt_of_le_of_lt this ?_
      decide +kernel
    refine hov _ ?_
    rcases hk.lt_or_eq with hk | hk
    · refine roundPos_exact (k : ℤ) (z := 0) ?_ (by rw [show pow2 0 = 1 from by decide +kernel]; simp)
      have h2 : expo (k : ℚ) < 53 := by
        refine pow2_lt (lt_of_le_of_lt (expo_spec hp).1 ?_)
        rw [show (53 : ℤ) = ((53 : ℕ) : ℤ) from rfl, pow2_nat]; exact_mod_cast hk
      unfold ulpExp; omega
    · subst hk; decide +kernel

theorem fl64_double {x : ℚ} (h0 : 0 ≤ x) (h : fl64 x = .fin x) : fl64 (2 * x) = .fin (2 * x) ∨ fl64 (2 * x) = .pinf := by
  rcases h0.lt_or_eq with h0 | rfl
  · rw [fl64_pos h0] at h
    have hr : roundPos x = x := by
      unfold overflow at h
      split at h
      · simpa using h
      · exact nomatch h
    have he : expo (2 * x) = expo x + 1 := by
      obtain ⟨h1, h2⟩ := expo_spec h0
      have e2 : pow2 1 = 2 := by decide +kernel
      refine expo_unique ?_ ?_
      · rw [pow2_add, e2]; linarith
      · rw [pow2_add _ 1, e2]; linarith
    have hr2 : roundPos (2 * x) = 2 * x := by
      refine roundPos_exact (roundEven (x / pow2 (ulpExp x))) (z := ulpExp x + 1) (by unfold ulpExp; rw [he]; omega) ?_
      rw [pow2_add, show pow2 1 = 2 from by decide +kernel]
      conv_lhs => rw [← hr]
      unfold roundPos; ring
    rw [fl64_pos (by linarith), hr2]
    unfold overflow
    split
    · exact Or.inl rfl
    · exact Or.inr rfl
  · left; simp [fl64]

theorem roundPos_idem {x : ℚ} (h0 : 0 < x) (hy : 0 < roundPos x) : roundPos (roundPos x) = roundPos x := by
  set y := roundPos x with hdef
  have e : y = (roundEven (x / pow2 (ulpExp x)) : ℤ) * pow2 (ulpExp x) := hdef
  by_cases hu : ulpExp y ≤ ulpExp x
  · exact roundPos_exact _ hu e
  · have hz : y ≤ pow2 (max (expo x + 1) (-1074)) := by
      refine roundPos_le (b := x) h0 ((expo_spec h0).2.le.trans (pow2_mono (le_max_left _ _))) ?_
      unfold ulpExp; omega
    have h1 := (expo_spec hy).1
    have h2 := pow2_le_iff.mp (h1.trans hz)
    have h3 : expo y = expo x + 1 := by unfold ulpExp at hu; omega
    have h4 : max (expo x + 1) (-1074) = expo y := by unfold ulpExp at hu; omega
    rw [h4] at hz
    refine roundPos_exact 1 (z := expo y) ?_ ?_
    · unfold ulpExp at hu ⊢; omega
    · rw [Int.cast_one, one_mul]; exact le_antisymm hz h1

theorem overflow_fin {r y : ℚ} (h : overflow r = .fin y) : r = y ∧ y < pow2 1024 := by
  unfold overflow at h
  split at h
  · rename_i h1
    injection h with h
    exact ⟨h, h ▸ h1⟩
  · exact nomatch h

theorem fl64_idem_pos {x y : ℚ} (hx : 0 < x) (h : fl64 x = .fin y) : fl64 y = .fin y := by
  rw [fl64_pos hx] at h
  obtain ⟨e, h1⟩ := overflow_fin h
  rcases (roundPos_nonneg hx).lt_or_eq with h2 | h2
  · have h3 := roundPos_idem hx h2
    rw [e] at h2 h3
    rw [fl64_pos h2, h3]
    unfold overflow
    rw [if_pos h1]
  · rw [← e, ← h2]; simp [fl64]

theorem fl64_idem {x y : ℚ} (h : fl64 x = .fin y) : fl64 y = .fin y := by
  rcases lt_trichotomy x 0 with hx | hx | hx
  · have h1 : fl64 (-x) = .fin (-y) := by rw [fl64_neg, h]; rfl
    have h2 := fl64_idem_pos (by linarith) h1
    rw [fl64_neg] at h2
    generalize fl64 y = v at h2
    cases v with
    | fin z => 
      injection h2 with h2
      congr 1; linarith
    | _ => exact nomatch h2
  · subst hx
    have : fl64 0 = .fin 0 := by simp [fl64]
    rw [this] at h
    injection h with h
    rw [← h]; exact this
  · exact fl64_idem_pos hx h

/-- the relative error, also for small numbers: a multiple of a number with a larger distance of its neighbours -/
theorem fl64_hundred {y z : ℚ} (hy : 0 < y) (hr : fl64 y = .fin y) (h : fl64 (100 * y) = .fin z) : z ≤ 100 * y * (1 + 1 / 2 ^ 53) := by
  have ht : (0 : ℚ) < 100 * y := by linarith
  rw [fl64_pos ht] at h
  rw [fl64_pos hy] at hr
  have h1 := (overflow_fin h).1
  have h2 := (overflow_fin hr).1
  by_cases hu : ulpExp (100 * y) = -1074
  · have h3 : roundPos (100 * y) = 100 * y := by
      obtain ⟨k, hk⟩ := Int.eq_ofNat_of_zero_le (by unfold ulpExp; omega : 0 ≤ ulpExp y - (-1074))
      refine roundPos_exact (100 * (roundEven (y / pow2 (ulpExp y)) * (2 ^ k : ℕ))) (z := -1074) (by omega) ?_
      conv_lhs => rw [← h2]
      unfold roundPos
      rw [show ulpExp y = (k : ℤ) + (-1074) from by omega, pow2_add, pow2_nat]
      push_cast
      ring
    rw [← h1, h3]
    nlinarith
  · have hu' : ulpExp (100 * y) = expo (100 * y) + (-52) := by unfold ulpExp at hu ⊢; omega
    have h3 := roundEven_near (100 * y / pow2 (ulpExp (100 * y)))
    have hp := pow2_pos (ulpExp (100 * y))
    rw [abs_le] at h3
    have h4 : roundPos (100 * y) ≤ 100 * y + 1 / 2 * pow2 (ulpExp (100 * y)) := by
      unfold roundPos
      have h5 := mul_le_mul_of_nonneg_right h3.2 hp.le
      rw [sub_mul, div_mul_cancel₀ _ hp.ne'] at h5
      linarith
    rw [hu', pow2_add, show pow2 (-52) = 1 / 2 ^ 52 from by decide +kernel] at h4
    have h5 := (expo_spec ht).1
    rw [← h1]
    nlinarith

/-- IEEE 754 binary64 (double precision): the arithmetic of numpy's float64 (lines.py:121, 141) -/
def binary64 : Rounding where
  fl := fl64
  mono := fl64_mono
  neg := fl64_neg
  nat := fun k hk => fl64_nat k (hk.trans (by norm_num))
  idem := fun _ _ h => fl64_idem h
  double := fun x h0 h => fl64_double h0 h

end Bta
