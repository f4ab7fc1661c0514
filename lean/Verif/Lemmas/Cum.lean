import Verif.Lemmas.Calc

/-!
# Running sums
-/

set_option linter.unusedSectionVars false
set_option linter.unusedVariables false

namespace Bta
open Line Ext Finset

variable {K : Type} [Field K] [LinearOrder K] [IsStrictOrderedRing K]

/-- `cumsum` of numbers and NaN: NaN stay, the others show the sum of the numbers so far -/
theorem cumsumGo_tail (P : ℕ → Prop) [DecidablePred P] (y : ℕ → K) (n : ℕ) : ∀ (d k : ℕ), n - k = d → ∀ A : K,
    cumsumGo (fin A : Ext K) (tail n k fun i => if P i then nan else fin (y i)) =
      tail n k fun i => if P i then nan else fin (A + ∑ j ∈ Ico k (i + 1), if P j then 0 else y j) := by
  intro d
  induction d with
  | zero =>
    intro k hk A
    rw [tail_nil _ (by omega : n ≤ k), tail_nil _ (by omega : n ≤ k)]
    rfl
  | succ d ih =>
    intro k hk A
    have hkn : k < n := by omega
    rw [tail_cons _ hkn, tail_cons (fun i => if P i then nan else fin (A + ∑ j ∈ Ico k (i + 1), if P j then 0 else y j)) hkn]
    have hsum : ∀ i, k + 1 ≤ i → ∑ j ∈ Ico k (i + 1), (if P j then 0 else y j) =
        (if P k then 0 else y k) + ∑ j ∈ Ico (k + 1) (i + 1), if P j then 0 else y j := fun i hi =>
      sum_eq_sum_Ico_succ_bot (by omega) _
    by_cases hP : P k
    · simp only [if_pos hP, cumsumGo, Ext.nan_def, Ext.isNaN_nan, if_true]
      congr 1
      have := ih (k + 1) (by omega) A
      simp only [Ext.nan_def] at this
      rw [this]
      refine tail_congr fun i h1 h2 => ?_
      rw [hsum i h1, if_pos hP, zero_add]
    · simp only [if_neg hP, cumsumGo, Ext.isNaN_fin, Ext.fin_add]
      rw [if_neg (by simp), ih (k + 1) (by omega) (A + y k)]
      congr 1
      · rw [sum_eq_sum_Ico_succ_bot (by omega), Ico_self, sum_empty, if_neg hP, add_zero]
      · refine tail_congr fun i h1 h2 => ?_
        rw [hsum i h1, if_neg hP, add_assoc]

theorem rep_cumsum {a : Line (Ext K)} {n m : ℕ} (P : ℕ → Prop) [DecidablePred P] {y : ℕ → K}
    (ha : RepW a n m fun i => if P i then nan else fin (y i)) :
    Rep nan a.cumsum n m fun i => if P i then nan else fin (∑ j ∈ Ico (m - 1) (i + 1), if P j then 0 else y j) := by
  refine (rep_stdop (inc := 0) (k := fun i => if P i then nan else fin (∑ j ∈ Ico (m - 1) (i + 1), if P j then 0 else y j))
    ha ?_ ?_).congr rfl fun _ _ _ => rfl
  · have := cumsumGo_tail P y n _ (m - 1) rfl 0
    simpa [cumsumL] using this
  · intro i h1 h2; omega

theorem Holds.cumsum {a : Line (Ext K)} {n m : ℕ} {x : ℕ → K} (ha : Holds a n m x) :
    Shows a.cumsum n m fun i => ∑ j ∈ Ico (m - 1) (i + 1), x j := by
  have := rep_cumsum (fun _ => False) (y := x) (a := a) (n := n) (m := m) (ha.congr rfl fun i _ _ => by simp)
  simpa using this

end Bta
