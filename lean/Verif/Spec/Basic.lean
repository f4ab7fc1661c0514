import Verif.Num
import Mathlib.Algebra.BigOperators.Group.Finset.Basic
import Mathlib.Algebra.BigOperators.Intervals

/-!
# Specifications in plain mathematics

Independent of the model: a series of prices is a function `x : ℕ → K` (bar number, 0-based), and the functions
below say what a moving average etc. is supposed to be at bar `i`.
-/

namespace Spec

variable {K : Type} [Field K]

/-- sum of the `p` values of `x` which end at bar `i` (assumes `p ≤ i + 1`) -/
def winSum (x : ℕ → K) (p i : ℕ) : K := ∑ j ∈ Finset.range p, x (i - j)

/-- arithmetic mean of the `p` values which end at bar `i` -/
def winMean (x : ℕ → K) (p i : ℕ) : K := winSum x p i / p

/-- Exponential recursion `e := e + a (x_i - e)`, started with value `seed` at bar `s`; value `j` bars after `s`. -/
def expRec (a : K) (x : ℕ → K) (s : ℕ) (seed : K) : ℕ → K
  | 0 => seed
  | j + 1 => expRec a x s seed j + a * (x (s + j + 1) - expRec a x s seed j)

/-- Exponential average with factor `a` and period `p` of data which start at bar `b`: the first value is at bar
`b + p - 1`, the mean of the first `p` values; value at bar `i`. -/
def expAvg (a : K) (x : ℕ → K) (b p i : ℕ) : K :=
  expRec a x (b + p - 1) (winMean x p (b + p - 1)) (i - (b + p - 1))

/-- ema: `a = 2/(p+1)` -/
def ema (x : ℕ → K) (b p i : ℕ) : K := expAvg (2 / ((p : K) + 1)) x b p i

/-- Wilder's smoothed average: `a = 1/p` -/
def smma (x : ℕ → K) (b p i : ℕ) : K := expAvg (1 / (p : K)) x b p i

end Spec

namespace Spec

section order
variable {K : Type} [LinearOrder K]

/-- greatest of the `p` values of `x` which end at bar `i` (`1 ≤ p ≤ i + 1`) -/
def winMax (x : ℕ → K) (p i : ℕ) : K := ((List.range p).map fun j => x (i - j)).foldl max (x i)

/-- least of the `p` values of `x` which end at bar `i` (`1 ≤ p ≤ i + 1`) -/
def winMin (x : ℕ → K) (p i : ℕ) : K := ((List.range p).map fun j => x (i - j)).foldl min (x i)

theorem foldl_max_ge_init (l : List K) : ∀ a : K, a ≤ l.foldl max a := by
  induction l with
  | nil => intro a; exact le_refl _
  | cons y ys ih => intro a; exact le_trans (le_max_left a y) (ih _)

theorem foldl_max_ge (l : List K) : ∀ a : K, ∀ y ∈ l, y ≤ l.foldl max a := by
  induction l with
  | nil => intro a y hy; simp at hy
  | cons z zs ih =>
    intro a y hy
    rcases List.mem_cons.mp hy with h | h
    · subst h; exact le_trans (le_max_right a y) (foldl_max_ge_init zs _)
    · exact ih _ y h

theorem foldl_max_mem (l : List K) : ∀ a : K, l.foldl max a = a ∨ l.foldl max a ∈ l := by
  induction l with
  | nil => intro a; exact Or.inl rfl
  | cons z zs ih =>
    intro a
    rcases ih (max a z) with h | h
    · rcases max_choice a z with h' | h'
      · left; simp only [List.foldl_cons]; rw [h, h']
      · right; simp only [List.foldl_cons]; rw [h, h']; exact List.mem_cons_self
    · right; exact List.mem_cons_of_mem _ h

theorem foldl_min_le_init (l : List K) : ∀ a : K, l.foldl min a ≤ a := by
  induction l with
  | nil => intro a; exact le_refl _
  | cons y ys ih => intro a; exact le_trans (ih _) (min_le_left a y)

theorem foldl_min_le (l : List K) : ∀ a : K, ∀ y ∈ l, l.foldl min a ≤ y := by
  induction l with
  | nil => intro a y hy; simp at hy
  | cons z zs ih =>
    intro a y hy
    rcases List.mem_cons.mp hy with h | h
    · subst h; exact le_trans (foldl_min_le_init zs _) (min_le_right a y)
    · exact ih _ y h

theorem foldl_min_mem (l : List K) : ∀ a : K, l.foldl min a = a ∨ l.foldl min a ∈ l := by
  induction l with
  | nil => intro a; exact Or.inl rfl
  | cons z zs ih =>
    intro a
    rcases ih (min a z) with h | h
    · rcases min_choice a z with h' | h'
      · left; simp only [List.foldl_cons]; rw [h, h']
      · right; simp only [List.foldl_cons]; rw [h, h']; exact List.mem_cons_self
    · right; exact List.mem_cons_of_mem _ h

/-- `winMax` is the greatest element of the window -/
theorem winMax_isGreatest (x : ℕ → K) {p : ℕ} (hp : 1 ≤ p) (i : ℕ) :
    IsGreatest {y | ∃ j, j < p ∧ y = x (i - j)} (winMax x p i) := by
  refine ⟨?_, ?_⟩
  · rcases foldl_max_mem ((List.range p).map fun j => x (i - j)) (x i) with h | h
    · exact ⟨0, by omega, h⟩
    · obtain ⟨j, hj, he⟩ := List.mem_map.mp h
      exact ⟨j, List.mem_range.mp hj, he.symm⟩
  · rintro y ⟨j, hj, rfl⟩
    exact foldl_max_ge _ _ _ (List.mem_map.mpr ⟨j, List.mem_range.mpr hj, rfl⟩)

/-- `winMin` is the least element of the window -/
theorem winMin_isLeast (x : ℕ → K) {p : ℕ} (hp : 1 ≤ p) (i : ℕ) :
    IsLeast {y | ∃ j, j < p ∧ y = x (i - j)} (winMin x p i) := by
  refine ⟨?_, ?_⟩
  · rcases foldl_min_mem ((List.range p).map fun j => x (i - j)) (x i) with h | h
    · exact ⟨0, by omega, h⟩
    · obtain ⟨j, hj, he⟩ := List.mem_map.mp h
      exact ⟨j, List.mem_range.mp hj, he.symm⟩
  · rintro y ⟨j, hj, rfl⟩
    exact foldl_min_le _ _ _ (List.mem_map.mpr ⟨j, List.mem_range.mpr hj, rfl⟩)

theorem le_winMax (x : ℕ → K) {p i j : ℕ} (h : j < p) : x (i - j) ≤ winMax x p i :=
  foldl_max_ge _ _ _ (List.mem_map.mpr ⟨j, List.mem_range.mpr h, rfl⟩)

theorem winMin_le (x : ℕ → K) {p i j : ℕ} (h : j < p) : winMin x p i ≤ x (i - j) :=
  foldl_min_le _ _ _ (List.mem_map.mpr ⟨j, List.mem_range.mpr h, rfl⟩)

end order

end Spec
