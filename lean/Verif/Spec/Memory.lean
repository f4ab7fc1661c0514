import Verif.Spec.Ma

/-!
# What it means for an indicator to forget how its history began, and to follow its input (C101, C102)
-/

namespace Spec
open Bta

variable {K : Type} [Field K] [LinearOrder K] [IsStrictOrderedRing K]

/-- `f` (which needs `e` bars more than its input) follows its input: where one input is not below another one at any bar
so far, its value is not below either. -/
def Follows (f : Line (Ext K) → Except Err (Line (Ext K))) (e : ℕ) : Prop :=
  ∀ (a a' : Line (Ext K)) (n m : ℕ) (x x' : ℕ → K), Holds a n m x → Holds a' n m x' → m + e ≤ n →
    ∃ r r', f a = .ok r ∧ f a' = .ok r' ∧ ∀ i, m + e ≤ i + 1 → i < n → (∀ j, m ≤ j + 1 → j ≤ i → x j ≤ x' j) →
      ∃ v v', r.series[i]? = some (.fin v) ∧ r'.series[i]? = some (.fin v') ∧ v ≤ v'

/-- `f` (which needs `e` bars more than its input) forgets: for data within `-B .. B` and any tolerance `ε` there is a
number of bars `N` such that two inputs, of whatever lengths and minimum periods, which hold the same values from some bar
on - bar `s` of the one, bar `s + d` of the other - have results which differ by at most `ε` from `N` bars later on. -/
def Forgets (f : Line (Ext K) → Except Err (Line (Ext K))) (e : ℕ) : Prop :=
  ∀ B ε : K, 0 < ε → ∃ N : ℕ, ∀ (a a' : Line (Ext K)) (n n' m m' : ℕ) (x x' : ℕ → K) (s d : ℕ),
    Holds a n m x → Holds a' n' m' x' → m + e ≤ n → m' + e ≤ n' → m ≤ s + d + 1 → m' ≤ s + 1 →
    (∀ j, m ≤ j + 1 → j < n → |x j| ≤ B) → (∀ j, m' ≤ j + 1 → j < n' → |x' j| ≤ B) →
    (∀ j, s ≤ j → j < n' → j + d < n → x (j + d) = x' j) →
    ∃ r r', f a = .ok r ∧ f a' = .ok r' ∧ ∀ i, s + N ≤ i → i + d < n → i < n' →
      ∃ v v', r.series[i + d]? = some (.fin v) ∧ r'.series[i]? = some (.fin v') ∧ |v - v'| ≤ ε

/-- Two inputs of whatever lengths and minimum periods which hold the same values after bar `s` of the one, bar `s + d` of
the other: `k` bars later the results of `f` differ by exactly `(1 - al)^k` times their difference there. -/
def Geometric (f : Line (Ext K) → Except Err (Line (Ext K))) (e : ℕ) (al : K) : Prop :=
  ∀ (a a' : Line (Ext K)) (n n' m m' : ℕ) (x x' : ℕ → K) (s d : ℕ), Holds a n m x → Holds a' n' m' x' →
    m + e ≤ n → m' + e ≤ n' → m + e ≤ s + d + 1 → m' + e ≤ s + 1 →
    (∀ j, s < j → j < n' → j + d < n → x (j + d) = x' j) →
    ∃ r r', f a = .ok r ∧ f a' = .ok r' ∧ ∀ k, s + k + d < n → s + k < n' → ∃ v v' u u' : K,
      r.series[s + d]? = some (.fin v) ∧ r'.series[s]? = some (.fin v') ∧
      r.series[s + k + d]? = some (.fin u) ∧ r'.series[s + k]? = some (.fin u') ∧ u - u' = (1 - al) ^ k * (v - v')

end Spec
