import Verif.Spec.Ma

/-!
# Vocabulary for oscillators
-/

namespace Bta
variable {K : Type} [Field K] [LinearOrder K] [IsStrictOrderedRing K]

/-- share of `u` in `u + d`, as percentage; NaN if both are 0 (for non-negative `u`, `d`) -/
def _root_.Spec.pct (u d : K) : Ext K := if u + d = 0 then .nan else .fin (100 * u / (u + d))

/-- Non-negative data of which one within the last `p` bars is positive give a positive result. -/
def PosWin (F : ℕ → (ℕ → K) → ℕ → ℕ → K) (e : ℕ → ℕ) : Prop :=
  ∀ p, 1 ≤ p → ∀ (x : ℕ → K) (b i : ℕ), b + e p ≤ i → (∀ j, b ≤ j → j ≤ i → 0 ≤ x j) →
    (∃ j, i + 1 ≤ j + p ∧ b ≤ j ∧ j ≤ i ∧ 0 < x j) → 0 < F p x b i

/-- The value is NaN or a number between `lo` and `hi`. -/
def NaNOrIn (lo hi : K) (v : Ext K) : Prop := v = .nan ∨ ∃ w, v = .fin w ∧ lo ≤ w ∧ w ≤ hi

/-- All values from bar `m - 1` on are NaN or between `lo` and `hi`; NaN before; `n` bars, minimum period `m`. -/
def RangesIn (lo hi : K) (r : Line (Ext K)) (n m : ℕ) : Prop :=
  ∃ g, Delivers r n m g ∧ ∀ i, m ≤ i + 1 → i < n → NaNOrIn lo hi (g i)

end Bta

namespace Bta
variable {K : Type} [Field K] [LinearOrder K] [IsStrictOrderedRing K]

/-- The average stays within any range of its data, and this also if some of the data are NaN: values are NaN or in the
range again.  It needs `e p` bars more than its input. -/
def KeepsRange (ma : MA (Ext K)) (e : ℕ → ℕ) : Prop :=
  ∀ p, 1 ≤ p → ∀ (lo hi : K) (a : Line (Ext K)) (n m : ℕ), RangesIn lo hi a n m → m + e p ≤ n →
    Gives (ma p a) fun r => RangesIn lo hi r n (m + e p)

end Bta
