import Verif.Lemmas.Osc
import Verif.Props.Ma

/-!
# Crossings: C36, C37
-/

set_option linter.unusedSectionVars false
set_option linter.unusedVariables false

namespace Bta
open Line Ext

variable {K : Type} [Field K] [LinearOrder K] [IsStrictOrderedRing K]
variable {a b : Line (Ext K)} {n m m' : ℕ} {x y : ℕ → K}

/-- last non-zero value of `d` in bars `s .. s + j`, else `prev` -/
def lastNZ (prev : K) (d : ℕ → K) (s : ℕ) : ℕ → K
  | 0 => if d s = 0 then prev else d s
  | j + 1 => if d (s + j + 1) = 0 then lastNZ prev d s j else d (s + j + 1)

theorem lastNZ_shift (d : ℕ → K) (s : ℕ) : ∀ (j : ℕ) (prev : K),
    lastNZ prev d s (j + 1) = lastNZ (if d s = 0 then prev else d s) d (s + 1) j := by
  intro j
  induction j with
  | zero => intro prev; rfl
  | succ j ih =>
    intro prev
    have e : s + 1 + j + 1 = s + (j + 1) + 1 := by omega
    rw [lastNZ, ih]
    conv_rhs => rw [lastNZ, e]

theorem replaceZeroGo_tail (n : ℕ) (d : ℕ → K) : ∀ (k s : ℕ) (prev : K), n - s = k →
    replaceZeroGo (fin prev) (tail n s fun i => (fin (d i) : Ext K)) = tail n s fun i => fin (lastNZ prev d s (i - s)) := by
  intro k
  induction k with
  | zero => intro s prev h; rw [tail_nil _ (by omega), tail_nil _ (by omega)]; rfl
  | succ k ih =>
    intro s prev h
    rw [tail_cons (fun i => (fin (d i) : Ext K)) (k := s) (by omega),
      tail_cons (fun i => (fin (lastNZ prev d s (i - s)) : Ext K)) (k := s) (by omega)]
    have step : ∀ q : K, q = (if d s = 0 then prev else d s) →
        (tail n (s + 1) fun i => (fin (lastNZ q d (s + 1) (i - (s + 1))) : Ext K))
          = tail n (s + 1) fun i => fin (lastNZ prev d s (i - s)) := fun q hq => by
      refine tail_ext (by simp) fun j hj => ?_
      rw [tail_get _ _ _ _ (by omega)]
      have e1 : j + (s + 1) - (s + 1) = j := by omega
      have e2 : j + (s + 1) - s = j + 1 := by omega
      rw [e1, e2, lastNZ_shift, hq]
    unfold replaceZeroGo
    by_cases h0 : d s = 0
    · rw [if_pos (by simp [h0]), ih (s + 1) prev (by omega), step prev (by rw [if_pos h0]), Nat.sub_self, lastNZ, if_pos h0]
    · rw [if_neg (by simp [h0]), ih (s + 1) (d s) (by omega), step (d s) (by rw [if_neg h0]), Nat.sub_self, lastNZ, if_neg h0]

theorem lastNZ_neg (d : ℕ → K) (s : ℕ) : ∀ j, lastNZ 0 d s j < 0 ↔
    ∃ k, k ≤ j ∧ d (s + k) < 0 ∧ ∀ l, k < l → l ≤ j → d (s + l) = 0 := by
  intro j
  induction j with
  | zero =>
    unfold lastNZ
    constructor
    · intro h
      refine ⟨0, le_refl _, ?_, fun l h1 h2 => by omega⟩
      split at h
      · exact absurd h (lt_irrefl _)
      · exact h
    · rintro ⟨k, h1, h2, _⟩
      obtain rfl : k = 0 := by omega
      rw [Nat.add_zero] at h2
      rw [if_neg h2.ne]
      exact h2
  | succ j ih =>
    rw [lastNZ]
    by_cases h0 : d (s + j + 1) = 0
    · rw [if_pos h0, ih]
      constructor
      · rintro ⟨k, h1, h2, h3⟩
        refine ⟨k, by omega, h2, fun l q1 q2 => ?_⟩
        by_cases hl : l = j + 1
        · subst hl; exact h0
        · exact h3 l q1 (by omega)
      · rintro ⟨k, h1, h2, h3⟩
        by_cases hk : k = j + 1
        · subst hk; exact absurd h2 (by rw [← Nat.add_assoc, h0]; exact lt_irrefl _)
        · exact ⟨k, by omega, h2, fun l q1 q2 => h3 l q1 (by omega)⟩
    · rw [if_neg h0]
      constructor
      · intro h
        exact ⟨j + 1, le_refl _, h, fun l q1 q2 => by omega⟩
      · rintro ⟨k, h1, h2, h3⟩
        by_cases hk : k = j + 1
        · subst hk; exact h2
        · exact absurd (h3 (j + 1) (by omega) (le_refl _)) h0

theorem lastNZ_negate (d : ℕ → K) (s : ℕ) : ∀ j, lastNZ 0 (fun i => -d i) s j = -lastNZ 0 d s j := by
  intro j
  induction j with
  | zero => unfold lastNZ; by_cases h : d s = 0 <;> simp [h]
  | succ j ih => rw [lastNZ, lastNZ, ih]; by_cases h : d (s + j + 1) = 0 <;> simp [h]

/-- `x` crosses over `y` upwards in bar `i`: above now, and below in an earlier bar (with data of both inputs, i.e. not before
bar `s`); in the bars between the two are equal.  In the strict reading the earlier bar is the one before. -/
def _root_.Spec.CrossUp (strict : Bool) (x y : ℕ → K) (s i : ℕ) : Prop :=
  y i < x i ∧ ∃ j, s ≤ j ∧ j < i ∧ x j < y j ∧ (∀ k, j < k → k < i → x k = y k) ∧ (strict = true → j + 1 = i)

theorem crossDiff_shows (strict : Bool) (ha : Holds a n m x) (hb : Holds b n m' y) :
    ∃ d : ℕ → K, Shows (Ind.crossDiff strict a b) n (max m m' + 1) d ∧ ∀ i, max m m' + 1 ≤ i + 1 → i < n →
      (d i < 0 ↔ ∃ j, max m m' - 1 ≤ j ∧ j < i ∧ x j < y j ∧ (∀ k, j < k → k < i → x k = y k) ∧ (strict = true → j + 1 = i)) ∧
      (0 < d i ↔ ∃ j, max m m' - 1 ≤ j ∧ j < i ∧ y j < x j ∧ (∀ k, j < k → k < i → x k = y k) ∧ (strict = true → j + 1 = i)) := by
  have hpa := ha.pos
  have hsh : Shows (shift 1 (a - b)) n (max m m' + 1) (fun i => x (i - 1) - y (i - 1)) :=
    Holds.shift (Holds.sub ha hb).toRepW 1
  cases strict with
  | true =>
    refine ⟨_, hsh, fun i h1 h2 => ⟨⟨fun h => ?_, ?_⟩, ⟨fun h => ?_, ?_⟩⟩⟩
    · exact ⟨i - 1, by omega, by omega, by linarith, fun k q1 q2 => by omega, fun _ => by omega⟩
    · rintro ⟨j, q1, q2, q3, _, q4⟩
      have : i - 1 = j := by have := q4 rfl; omega
      rw [this]; linarith
    · exact ⟨i - 1, by omega, by omega, by linarith, fun k q1 q2 => by omega, fun _ => by omega⟩
    · rintro ⟨j, q1, q2, q3, _, q4⟩
      have : i - 1 = j := by have := q4 rfl; omega
      rw [this]; linarith
  | false =>
    set M := max m m' with hM
    have hz : Shows (stdop replaceZeroL nan ((0 : ℕ) : Int) (shift 1 (a - b))) n (M + 1 + 0)
        (fun i => lastNZ 0 (fun i => x (i - 1) - y (i - 1)) M (i - M)) := by
      refine rep_stdop (inc := 0) hsh.toRepW ?_ fun i _ _ _ => by omega
      have := replaceZeroGo_tail n (fun i => x (i - 1) - y (i - 1)) _ (M + 1 - 1) 0 rfl
      unfold replaceZeroL
      rw [show (lit 0 : Ext K) = fin 0 from by simp, this, Nat.add_sub_cancel]
    refine ⟨_, hz, fun i h1 h2 => ?_⟩
    have key : ∀ x y : ℕ → K, (∃ k, k ≤ i - M ∧ x (M + k - 1) - y (M + k - 1) < 0 ∧
          ∀ l, k < l → l ≤ i - M → x (M + l - 1) - y (M + l - 1) = 0) ↔
        ∃ j, M - 1 ≤ j ∧ j < i ∧ x j < y j ∧ (∀ k, j < k → k < i → x k = y k) ∧ (false = true → j + 1 = i) := by
      intro x y
      constructor
      · rintro ⟨k, q1, q2, q3⟩
        refine ⟨M + k - 1, by omega, by omega, by linarith, fun l r1 r2 => ?_, by simp⟩
        have := q3 (l + 1 - M) (by omega) (by omega)
        rw [show M + (l + 1 - M) - 1 = l from by omega] at this
        linarith
      · rintro ⟨j, q1, q2, q3, q4, _⟩
        refine ⟨j + 1 - M, by omega, ?_, fun l r1 r2 => ?_⟩
        · rw [show M + (j + 1 - M) - 1 = j from by omega]; linarith
        · rw [q4 (M + l - 1) (by omega) (by omega)]; ring
    constructor
    · rw [lastNZ_neg]; exact key x y
    · have := lastNZ_negate (fun i => x (i - 1) - y (i - 1)) M (i - M)
      rw [← neg_lt_zero, ← this, lastNZ_neg, ← (by
        constructor
        · rintro ⟨j, q1, q2, q3, q4, q5⟩; exact ⟨j, q1, q2, q3, fun k r1 r2 => (q4 k r1 r2).symm, q5⟩
        · rintro ⟨j, q1, q2, q3, q4, q5⟩; exact ⟨j, q1, q2, q3, fun k r1 r2 => (q4 k r1 r2).symm, q5⟩ :
        (∃ j, M - 1 ≤ j ∧ j < i ∧ y j < x j ∧ (∀ k, j < k → k < i → y k = x k) ∧ (false = true → j + 1 = i)) ↔
        (∃ j, M - 1 ≤ j ∧ j < i ∧ y j < x j ∧ (∀ k, j < k → k < i → x k = y k) ∧ (false = true → j + 1 = i))), ← key y x]
      simp only [neg_sub]

/-- **C36** crossup is 1 exactly in the bars in which the first input crosses the second upwards, 0 in the others; crossdown is
-1 exactly in the bars in which the second input crosses the first upwards.  Both have values from the second bar with data on. -/
theorem C36_cross (strict : Bool) (ha : Holds a n m x) (hb : Holds b n m' y) :
    ∃ u d : ℕ → K, Shows (Ind.crossup strict a b) n (max m m' + 1) u ∧ Shows (Ind.crossdown strict a b) n (max m m' + 1) d ∧
      ∀ i, max m m' + 1 ≤ i + 1 → i < n →
        (Spec.CrossUp strict x y (max m m' - 1) i → u i = 1) ∧ (¬ Spec.CrossUp strict x y (max m m' - 1) i → u i = 0) ∧
        (Spec.CrossUp strict y x (max m m' - 1) i → d i = -1) ∧ (¬ Spec.CrossUp strict y x (max m m' - 1) i → d i = 0) := by
  obtain ⟨e, he, hd⟩ := crossDiff_shows strict ha hb
  refine ⟨fun i => if e i < 0 ∧ y i < x i then 1 else 0, fun i => if 0 < e i ∧ x i < y i then -1 else 0, ?_, ?_, fun i h1 h2 => ?_⟩
  · refine (rep_rmulSB (rep_andL (rep_ltS he.toRepW (lit 0)).toRepW (rep_gtL ha hb).toRepW).toRepW (lit 1)).congr (by omega)
      fun i _ _ => ?_
    simp only [Ext.lit_def, Ext.lt_fin]
    by_cases c1 : e i < 0 <;> by_cases c2 : y i < x i <;> simp [c1, c2, ofBool]
  · refine (rep_rmulSB (rep_andL (rep_gtS he.toRepW (lit 0)).toRepW (rep_ltL ha hb).toRepW).toRepW (lit (-1))).congr (by omega)
      fun i _ _ => ?_
    simp only [Ext.lit_def, Ext.lt_fin]
    by_cases c1 : 0 < e i <;> by_cases c2 : x i < y i <;> simp [c1, c2, ofBool]
  · obtain ⟨hn, hp⟩ := hd i h1 h2
    have eq : Spec.CrossUp strict y x (max m m' - 1) i ↔ (0 < e i ∧ x i < y i) := by
      rw [hp]; unfold Spec.CrossUp
      constructor
      · rintro ⟨h, j, q1, q2, q3, q4, q5⟩; exact ⟨⟨j, q1, q2, q3, fun k r1 r2 => (q4 k r1 r2).symm, q5⟩, h⟩
      · rintro ⟨⟨j, q1, q2, q3, q4, q5⟩, h⟩; exact ⟨h, j, q1, q2, q3, fun k r1 r2 => (q4 k r1 r2).symm, q5⟩
    have eq' : Spec.CrossUp strict x y (max m m' - 1) i ↔ (e i < 0 ∧ y i < x i) := by
      rw [hn]; unfold Spec.CrossUp; exact and_comm
    rw [eq, eq']
    exact ⟨fun h => if_pos h, fun h => if_neg h, fun h => if_pos h, fun h => if_neg h⟩

/-- **C36** (never both) In no bar both directions are signalled. -/
theorem C36_never_both (strict : Bool) (ha : Holds a n m x) (hb : Holds b n m' y) :
    ∃ u d : ℕ → K, Shows (Ind.crossup strict a b) n (max m m' + 1) u ∧ Shows (Ind.crossdown strict a b) n (max m m' + 1) d ∧
      ∀ i, max m m' + 1 ≤ i + 1 → i < n → u i = 0 ∨ d i = 0 := by
  obtain ⟨u, d, h1, h2, h3⟩ := C36_cross strict ha hb
  refine ⟨u, d, h1, h2, fun i q1 q2 => ?_⟩
  obtain ⟨_, r2, _, r4⟩ := h3 i q1 q2
  by_cases c : Spec.CrossUp strict x y (max m m' - 1) i
  · right; exact r4 fun c' => lt_asymm c.1 c'.1
  · left; exact r2 c

def exCrossA : Line (Ext ℚ) := bars 6 fun i => [1, 2, 2, 3, 1, 3].getD i 0
def exCrossB : Line (Ext ℚ) := bars 6 fun _ => 2

example : Ind.crossup false exCrossA exCrossB = ⟨[.nan, .fin 0, .fin 0, .fin 1, .fin 0, .fin 1], 2⟩ ∧
    Ind.crossup true exCrossA exCrossB = ⟨[.nan, .fin 0, .fin 0, .fin 0, .fin 0, .fin 1], 2⟩ ∧
    Ind.crossdown false exCrossA exCrossB = ⟨[.nan, .fin 0, .fin 0, .fin 0, .fin (-1), .fin 0], 2⟩ := by decide +kernel

/-! ## C37 -/

/-- **C37** (violated) `crossover` raises for all data: it subtracts boolean series, which numpy refuses. -/
theorem C37_crossover_raises (strict : Bool) (a b : Line (Ext K)) : Ind.crossover strict a b = .error .typeError := rfl

/-- **C37** What holds: the sum of `crossup` and `crossdown` is the documented signal, 1 for upward, -1 for downward crosses,
0 else. -/
theorem C37_sum_partial (strict : Bool) (ha : Holds a n m x) (hb : Holds b n m' y) :
    ∃ s : ℕ → K, Shows (Ind.crossup strict a b + Ind.crossdown strict a b) n (max m m' + 1) s ∧
      ∀ i, max m m' + 1 ≤ i + 1 → i < n →
        (s i = 1 ↔ Spec.CrossUp strict x y (max m m' - 1) i) ∧ (s i = -1 ↔ Spec.CrossUp strict y x (max m m' - 1) i) ∧
        (s i = 0 ↔ ¬ Spec.CrossUp strict x y (max m m' - 1) i ∧ ¬ Spec.CrossUp strict y x (max m m' - 1) i) := by
  obtain ⟨u, d, h1, h2, h3⟩ := C36_cross strict ha hb
  refine ⟨_, shows_congr (Holds.add h1.toRepW h2.toRepW) (by omega) fun _ _ _ => rfl, fun i q1 q2 => ?_⟩
  obtain ⟨r1, r2, r3, r4⟩ := h3 i q1 q2
  have z1 : (1 : K) ≠ 0 := one_ne_zero
  have z2 : (-1 : K) ≠ 0 := neg_ne_zero.mpr z1
  have z3 : (1 : K) ≠ -1 := fun h => by linarith [zero_lt_one (α := K)]
  by_cases c : Spec.CrossUp strict x y (max m m' - 1) i
  · have c' : ¬ Spec.CrossUp strict y x (max m m' - 1) i := fun c' => lt_asymm c.1 c'.1
    simp [r1 c, r4 c', c, c', z1, z3]
  · by_cases c' : Spec.CrossUp strict y x (max m m' - 1) i
    · simp [r2 c, r3 c', c, c', z2, z3.symm]
    · simp [r2 c, r4 c', c, c', z1.symm, z2.symm]

end Bta
