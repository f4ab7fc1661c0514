import Verif.Props.Cross
import Verif.Props.Signals

/-!
# Positions from crosses (C143)

The theorems speak of the numbers which crossup and crossdown (not strict, the default) deliver, and of the two input lines.
-/

set_option linter.unusedSectionVars false

namespace Bta
open Line Ext Finset

variable {K : Type} [Field K] [LinearOrder K] [IsStrictOrderedRing K]
variable {a b : Line (Ext K)} {n m m' : ℕ} {x y : ℕ → K}

/-- who was below and is above has crossed -/
theorem crossed {x y : ℕ → K} {s j i : ℕ} (hs : s ≤ j) (hji : j < i) (hj : x j < y j) (hi : y i < x i) :
    ∃ k, j < k ∧ k ≤ i ∧ Spec.CrossUp false x y s k := by
  classical
  -- the first bar after `j` with `y < x`
  have hex : ∃ k, j < k ∧ y k < x k := ⟨i, hji, hi⟩
  obtain ⟨k1, k2⟩ := Nat.find_spec hex
  have kmin : ∀ l, j < l → l < Nat.find hex → x l ≤ y l := fun l q1 q2 => by
    by_contra hc
    exact Nat.find_min hex q2 ⟨q1, lt_of_not_ge hc⟩
  have kle : Nat.find hex ≤ i := Nat.find_min' hex ⟨hji, hi⟩
  set k := Nat.find hex with hk
  -- the last bar before `k` with `x < y`
  have hgo : ∀ t, j + t < k → ∃ l, j ≤ l ∧ l ≤ j + t ∧ x l < y l ∧ ∀ r, l < r → r ≤ j + t → x r = y r := by
    intro t
    induction t with
    | zero => intro _; exact ⟨j, le_refl _, by omega, hj, fun r q1 q2 => by omega⟩
    | succ t ih =>
      intro ht
      rcases (kmin (j + (t + 1)) (by omega) ht).lt_or_eq with hl | hl
      · exact ⟨j + (t + 1), by omega, le_refl _, hl, fun r q1 q2 => by omega⟩
      · obtain ⟨l, q1, q2, q3, q4⟩ := ih (by omega)
        refine ⟨l, q1, by omega, q3, fun r r1 r2 => ?_⟩
        by_cases hr : r = j + (t + 1)
        · subst hr; exact hl
        · exact q4 r r1 (by omega)
  obtain ⟨l, q1, q2, q3, q4⟩ := hgo (k - 1 - j) (by omega)
  exact ⟨k, k1, kle, k2, l, by omega, by omega, q3, fun r r1 r2 => q4 r r1 (by omega), by simp⟩

theorem crossed_between {x y : ℕ → K} {s i i' : ℕ} (hii : i < i') (hi : s ≤ i) (h1 : Spec.CrossUp false x y s i)
    (h2 : Spec.CrossUp false x y s i') : ∃ k, i < k ∧ k < i' ∧ Spec.CrossUp false y x s k := by
  obtain ⟨ab, j, hs, hj, hlt, _, _⟩ := h1
  obtain ⟨ab', j', hs', hj', hlt', heq', _⟩ := h2
  have hij : i < j' := by
    by_contra hc
    rcases Nat.lt_or_ge j' i with h | h
    · exact ab.ne' (heq' i h (by omega))
    · have : j' = i := by omega
      subst this; exact lt_asymm ab hlt'
  obtain ⟨k, k1, k2, k3⟩ := crossed (x := y) (y := x) hi hij ab hlt'
  exact ⟨k, k1, by omega, k3⟩

/-- the values of the two signals -/
theorem signals (ha : Holds a n m x) (hb : Holds b n m' y) {u d : ℕ → K}
    (hu : Shows (Ind.crossup false a b) n (max m m' + 1) u) (hd : Shows (Ind.crossdown false a b) n (max m m' + 1) d) {i : ℕ}
    (h1 : max m m' ≤ i) (h2 : i < n) :
    (Spec.CrossUp false x y (max m m' - 1) i ∧ u i = 1 ∧ d i = 0) ∨ (Spec.CrossUp false y x (max m m' - 1) i ∧ u i = 0 ∧ d i = -1) ∨
      (¬ Spec.CrossUp false x y (max m m' - 1) i ∧ ¬ Spec.CrossUp false y x (max m m' - 1) i ∧ u i = 0 ∧ d i = 0) := by
  obtain ⟨u', d', g1, g2, g3⟩ := C36_cross false ha hb
  have e1 : u i = u' i := by
    have := (hu.val i (by omega) h2).symm.trans (g1.val i (by omega) h2)
    simpa using this
  have e2 : d i = d' i := by
    have := (hd.val i (by omega) h2).symm.trans (g2.val i (by omega) h2)
    simpa using this
  obtain ⟨c1, c2, c3, c4⟩ := g3 i (by omega) h2
  rw [e1, e2]
  by_cases p : Spec.CrossUp false x y (max m m' - 1) i
  · have p' : ¬ Spec.CrossUp false y x (max m m' - 1) i := fun c' => lt_asymm p.1 c'.1
    exact Or.inl ⟨p, c1 p, c4 p'⟩
  · by_cases p' : Spec.CrossUp false y x (max m m' - 1) i
    · exact Or.inr (Or.inl ⟨p', c2 p, c3 p'⟩)
    · exact Or.inr (Or.inr ⟨p, p', c2 p, c4 p'⟩)

variable (ha : Holds a n m x) (hb : Holds b n m' y) {u d : ℕ → K}
  (hu : Shows (Ind.crossup false a b) n (max m m' + 1) u) (hd : Shows (Ind.crossdown false a b) n (max m m' + 1) d)
include ha hb hu hd

theorem up_iff {i : ℕ} (h1 : max m m' ≤ i) (h2 : i < n) : Spec.CrossUp false x y (max m m' - 1) i ↔ u i = 1 := by
  rcases signals ha hb hu hd h1 h2 with ⟨p, q, r⟩ | ⟨p, q, r⟩ | ⟨p, p', q, r⟩
  · exact ⟨fun _ => q, fun _ => p⟩
  · exact ⟨fun c => absurd c.1 (not_lt.2 p.1.le), fun c => by rw [q] at c; exact absurd c (by norm_num)⟩
  · exact ⟨fun c => absurd c p, fun c => by rw [q] at c; exact absurd c (by norm_num)⟩

theorem down_iff {i : ℕ} (h1 : max m m' ≤ i) (h2 : i < n) : Spec.CrossUp false y x (max m m' - 1) i ↔ d i = -1 := by
  rcases signals ha hb hu hd h1 h2 with ⟨p, q, r⟩ | ⟨p, q, r⟩ | ⟨p, p', q, r⟩
  · exact ⟨fun c => absurd c.1 (not_lt.2 p.1.le), fun c => by rw [r] at c; exact absurd c (by norm_num)⟩
  · exact ⟨fun _ => r, fun _ => p⟩
  · exact ⟨fun c => absurd c p', fun c => by rw [r] at c; exact absurd c (by norm_num)⟩

/-- **C143** No change of sides is missed: if the first line was below the second one at bar `j` and is above it at bar `i`, then
crossup has signalled after `j`, at the latest at `i`; likewise crossdown. -/
theorem C143_none_missed {j i : ℕ} (hj : max m m' ≤ j + 1) (hji : j < i) (hi : i < n) :
    (x j < y j → y i < x i → ∃ k, j < k ∧ k ≤ i ∧ u k = 1) ∧ (y j < x j → x i < y i → ∃ k, j < k ∧ k ≤ i ∧ d k = -1) := by
  constructor
  · intro h1 h2
    obtain ⟨k, k1, k2, k3⟩ := crossed (s := max m m' - 1) (by omega) hji h1 h2
    exact ⟨k, k1, k2, (up_iff ha hb hu hd (by omega) (by omega)).1 k3⟩
  · intro h1 h2
    obtain ⟨k, k1, k2, k3⟩ := crossed (x := y) (y := x) (s := max m m' - 1) (by omega) hji h1 h2
    exact ⟨k, k1, k2, (down_iff ha hb hu hd (by omega) (by omega)).1 k3⟩

/-- **C143** Signals alternate: between two upward signals there is a downward one, and the other way round. -/
theorem C143_alternate {i i' : ℕ} (hi : max m m' ≤ i) (hii : i < i') (hi' : i' < n) :
    (u i = 1 → u i' = 1 → ∃ k, i < k ∧ k < i' ∧ d k = -1) ∧ (d i = -1 → d i' = -1 → ∃ k, i < k ∧ k < i' ∧ u k = 1) := by
  constructor
  · intro h1 h2
    obtain ⟨k, k1, k2, k3⟩ := crossed_between hii (s := max m m' - 1) (by omega) ((up_iff ha hb hu hd hi (by omega)).2 h1)
      ((up_iff ha hb hu hd (by omega) hi').2 h2)
    exact ⟨k, k1, k2, (down_iff ha hb hu hd (by omega) (by omega)).1 k3⟩
  · intro h1 h2
    obtain ⟨k, k1, k2, k3⟩ := crossed_between hii (s := max m m' - 1) (by omega) ((down_iff ha hb hu hd hi (by omega)).2 h1)
      ((down_iff ha hb hu hd (by omega) hi').2 h2)
    exact ⟨k, k1, k2, (up_iff ha hb hu hd (by omega) (by omega)).1 k3⟩

/-- **C143** The last signal says who is above: from an upward signal until the next downward one the first line is never below the
second, and at the signal itself it is above; likewise after a downward signal. -/
theorem C143_side {i l : ℕ} (hi : max m m' ≤ i) (hil : i ≤ l) (hl : l < n) :
    (u i = 1 → y i < x i ∧ ((∀ k, i < k → k ≤ l → d k ≠ -1) → y l ≤ x l)) ∧
    (d i = -1 → x i < y i ∧ ((∀ k, i < k → k ≤ l → u k ≠ 1) → x l ≤ y l)) := by
  constructor
  · intro h
    have hc := ((up_iff ha hb hu hd hi (by omega)).2 h).1
    refine ⟨hc, fun hno => ?_⟩
    rcases hil.eq_or_lt with rfl | hlt
    · exact hc.le
    · by_contra hx
      obtain ⟨k, k1, k2, k3⟩ := (C143_none_missed ha hb hu hd (by omega) hlt hl).2 hc (lt_of_not_ge hx)
      exact hno k k1 k2 k3
  · intro h
    have hc := ((down_iff ha hb hu hd hi (by omega)).2 h).1
    refine ⟨hc, fun hno => ?_⟩
    rcases hil.eq_or_lt with rfl | hlt
    · exact hc.le
    · by_contra hx
      obtain ⟨k, k1, k2, k3⟩ := (C143_none_missed ha hb hu hd (by omega) hlt hl).1 hc (lt_of_not_ge hx)
      exact hno k k1 k2 k3

/-- **C143** Added up from any bar on, the signals are -1, 0 or 1: who buys one unit at each upward signal and sells one at each downward
signal never holds more than one more or one less than at the beginning. -/
theorem C143_total {j : ℕ} (hj : max m m' ≤ j) (t : ℕ) (ht : j + t ≤ n) :
    (∑ k ∈ range t, (u (j + k) + d (j + k))) = -1 ∨ (∑ k ∈ range t, (u (j + k) + d (j + k))) = 0 ∨
      (∑ k ∈ range t, (u (j + k) + d (j + k))) = 1 := by
  -- after an upward signal the total is 0 or 1, after a downward one it is -1 or 0
  have key : ((∑ k ∈ range t, (u (j + k) + d (j + k))) = 0 ∧ ∀ k, k < t → u (j + k) ≠ 1 ∧ d (j + k) ≠ -1) ∨
      (∃ l, l < t ∧ u (j + l) = 1 ∧ (∀ k, l < k → k < t → d (j + k) ≠ -1) ∧
        ((∑ k ∈ range t, (u (j + k) + d (j + k))) = 0 ∨ (∑ k ∈ range t, (u (j + k) + d (j + k))) = 1)) ∨
      (∃ l, l < t ∧ d (j + l) = -1 ∧ (∀ k, l < k → k < t → u (j + k) ≠ 1) ∧
        ((∑ k ∈ range t, (u (j + k) + d (j + k))) = 0 ∨ (∑ k ∈ range t, (u (j + k) + d (j + k))) = -1)) := by
    induction t with
    | zero => exact Or.inl ⟨by simp, fun k hk => by omega⟩
    | succ t ih =>
      rw [sum_range_succ]
      generalize ∑ k ∈ range t, (u (j + k) + d (j + k)) = T at ih ⊢
      rcases signals ha hb hu hd (i := j + t) (by omega) (by omega) with ⟨_, q, r⟩ | ⟨_, q, r⟩ | ⟨_, _, q, r⟩
      · -- up
        refine Or.inr (Or.inl ⟨t, by omega, q, fun k k1 k2 => by omega, ?_⟩)
        rw [q, r]
        rcases ih (by omega) with ⟨h, _⟩ | ⟨l, l1, l2, l3, h⟩ | ⟨l, l1, l2, l3, h⟩
        · right; rw [h]; ring
        · obtain ⟨k, k1, k2, k3⟩ := (C143_alternate ha hb hu hd (i := j + l) (i' := j + t) (by omega) (by omega) (by omega)).1 l2 q
          exact absurd (by rwa [show j + (k - j) = k by omega]) (l3 (k - j) (by omega) (by omega))
        · rcases h with h | h
          · right; rw [h]; ring
          · left; rw [h]; ring
      · -- down
        refine Or.inr (Or.inr ⟨t, by omega, r, fun k k1 k2 => by omega, ?_⟩)
        rw [q, r]
        rcases ih (by omega) with ⟨h, _⟩ | ⟨l, l1, l2, l3, h⟩ | ⟨l, l1, l2, l3, h⟩
        · right; rw [h]; ring
        · rcases h with h | h
          · right; rw [h]; ring
          · left; rw [h]; ring
        · obtain ⟨k, k1, k2, k3⟩ := (C143_alternate ha hb hu hd (i := j + l) (i' := j + t) (by omega) (by omega) (by omega)).2 l2 r
          exact absurd (by rwa [show j + (k - j) = k by omega]) (l3 (k - j) (by omega) (by omega))
      · -- none
        rw [q, r, add_zero, add_zero]
        rcases ih (by omega) with ⟨h, h'⟩ | ⟨l, l1, l2, l3, h⟩ | ⟨l, l1, l2, l3, h⟩
        · refine Or.inl ⟨h, fun k hk => ?_⟩
          rcases Nat.lt_succ_iff_lt_or_eq.1 hk with hk | rfl
          · exact h' k hk
          · rw [q, r]; exact ⟨by norm_num, by norm_num⟩
        · refine Or.inr (Or.inl ⟨l, by omega, l2, fun k k1 k2 => ?_, h⟩)
          rcases Nat.lt_succ_iff_lt_or_eq.1 k2 with hk | rfl
          · exact l3 k k1 hk
          · rw [r]; norm_num
        · refine Or.inr (Or.inr ⟨l, by omega, l2, fun k k1 k2 => ?_, h⟩)
          rcases Nat.lt_succ_iff_lt_or_eq.1 k2 with hk | rfl
          · exact l3 k k1 hk
          · rw [q]; norm_num
  rcases key with ⟨h, _⟩ | ⟨_, _, _, _, h | h⟩ | ⟨_, _, _, _, h | h⟩
  · exact Or.inr (Or.inl h)
  · exact Or.inr (Or.inl h)
  · exact Or.inr (Or.inr h)
  · exact Or.inr (Or.inl h)
  · exact Or.inl h

omit hu hd in
/-- **C143** With `strict` only those signals remain before which, in the very last bar, the lines were on the other side; changes of
sides with a bar at which the lines touch are missed. -/
theorem C143_strict {u v d e : ℕ → K} (hu : Shows (Ind.crossup false a b) n (max m m' + 1) u)
    (hv : Shows (Ind.crossup true a b) n (max m m' + 1) v) (hd : Shows (Ind.crossdown false a b) n (max m m' + 1) d)
    (he : Shows (Ind.crossdown true a b) n (max m m' + 1) e) {i : ℕ} (h1 : max m m' ≤ i) (h2 : i < n) :
    (v i = 1 ↔ u i = 1 ∧ x (i - 1) < y (i - 1)) ∧ (e i = -1 ↔ d i = -1 ∧ y (i - 1) < x (i - 1)) := by
  have hm := ha.pos
  obtain ⟨v', e', g1, g2, g3⟩ := C36_cross true ha hb
  have e1 : v i = v' i := by
    have := (hv.val i (by omega) h2).symm.trans (g1.val i (by omega) h2)
    simpa using this
  have e2 : e i = e' i := by
    have := (he.val i (by omega) h2).symm.trans (g2.val i (by omega) h2)
    simpa using this
  obtain ⟨c1, c2, c3, c4⟩ := g3 i (by omega) h2
  have strict_iff : ∀ x y : ℕ → K, Spec.CrossUp true x y (max m m' - 1) i ↔
      Spec.CrossUp false x y (max m m' - 1) i ∧ x (i - 1) < y (i - 1) := fun x y => by
    constructor
    · rintro ⟨p, j, j1, j2, j3, j4, j5⟩
      have : j = i - 1 := by have := j5 rfl; omega
      subst this
      exact ⟨⟨p, i - 1, j1, j2, j3, j4, by simp⟩, j3⟩
    · rintro ⟨⟨p, _⟩, q⟩
      exact ⟨p, i - 1, by omega, by omega, q, fun k k1 k2 => by omega, fun _ => by omega⟩
  rw [← up_iff ha hb hu hd h1 h2, ← down_iff ha hb hu hd h1 h2, ← strict_iff, ← strict_iff, e1, e2]
  constructor
  · exact ⟨fun h => by by_contra hc; rw [c2 hc] at h; exact absurd h (by norm_num), c1⟩
  · exact ⟨fun h => by by_contra hc; rw [c4 hc] at h; exact absurd h (by norm_num), c3⟩

end Bta

namespace Bta
open Line Ext Spec

/-- **C143** the same in double precision: `x` and `y` are the numbers stored in the lines, `u` and `d` the delivered signals. -/
theorem C143_binary64 {a b : Line (Flt binary64)} (sa : Stored a) (sb : Stored b) {n m m' : ℕ} {x y u d : ℕ → ℚ}
    (ha : Holds (exact a) n m x) (hb : Holds (exact b) n m' y) (hu : Shows (exact (Ind.crossup false a b)) n (max m m' + 1) u)
    (hd : Shows (exact (Ind.crossdown false a b)) n (max m m' + 1) d) :
    (∀ j i, max m m' ≤ j + 1 → j < i → i < n → (x j < y j → y i < x i → ∃ k, j < k ∧ k ≤ i ∧ u k = 1) ∧
      (y j < x j → x i < y i → ∃ k, j < k ∧ k ≤ i ∧ d k = -1)) ∧
    (∀ i i', max m m' ≤ i → i < i' → i' < n → (u i = 1 → u i' = 1 → ∃ k, i < k ∧ k < i' ∧ d k = -1) ∧
      (d i = -1 → d i' = -1 → ∃ k, i < k ∧ k < i' ∧ u k = 1)) ∧
    (∀ i l, max m m' ≤ i → i ≤ l → l < n →
      (u i = 1 → y i < x i ∧ ((∀ k, i < k → k ≤ l → d k ≠ -1) → y l ≤ x l)) ∧
      (d i = -1 → x i < y i ∧ ((∀ k, i < k → k ≤ l → u k ≠ 1) → x l ≤ y l))) ∧
    ∀ j t, max m m' ≤ j → j + t ≤ n → |∑ k ∈ Finset.range t, (u (j + k) + d (j + k))| ≤ 1 := by
  rw [C111_crossup_binary64 false sa sb] at hu
  rw [C111_crossdown_binary64 false sa sb] at hd
  refine ⟨fun j i h1 h2 h3 => C143_none_missed ha hb hu hd h1 h2 h3, fun i i' h1 h2 h3 => C143_alternate ha hb hu hd h1 h2 h3,
    fun i l h1 h2 h3 => C143_side ha hb hu hd h1 h2 h3, fun j t h1 h2 => ?_⟩
  rcases C143_total ha hb hu hd h1 t h2 with h | h | h <;> rw [h] <;> norm_num

/-- C143, a case: below, equal, above, above, below, above the second line; the strict signals miss the first change -/
example : Ind.crossup false exCrossA exCrossB = ⟨[.nan, .fin 0, .fin 0, .fin 1, .fin 0, .fin 1], 2⟩ ∧
    Ind.crossdown false exCrossA exCrossB = ⟨[.nan, .fin 0, .fin 0, .fin 0, .fin (-1), .fin 0], 2⟩ ∧
    Ind.crossup true exCrossA exCrossB = ⟨[.nan, .fin 0, .fin 0, .fin 0, .fin 0, .fin 1], 2⟩ := by decide +kernel
example : ∃ (x y u d : ℕ → ℚ), Holds exCrossA 6 1 x ∧ Holds exCrossB 6 1 y ∧ Shows (Ind.crossup false exCrossA exCrossB) 6 2 u ∧
    Shows (Ind.crossdown false exCrossA exCrossB) 6 2 d := by
  obtain ⟨u, d, h1, h2, _⟩ := C36_cross (K := ℚ) false (bars_holds 6 fun i => ([1, 2, 2, 3, 1, 3] : List ℚ).getD i 0) (bars_holds 6 fun _ => 2)
  exact ⟨_, _, u, d, bars_holds 6 _, bars_holds 6 _, h1, h2⟩

/-- C143, a case in double precision -/
example : Stored (R := binary64) exCrossA ∧ Stored (R := binary64) exCrossB :=
  ⟨stored_of (by decide +kernel), stored_of (by decide +kernel)⟩

end Bta
