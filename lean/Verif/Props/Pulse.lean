import Verif.Props.Linear

/-!
# What one wrong price does (C136)
-/

set_option linter.unusedSectionVars false

namespace Spec
open Bta

variable {K : Type} [Field K] [LinearOrder K] [IsStrictOrderedRing K]

/-- What one wrong price does to `f` (which needs `e` bars more than its input): if the data, which start at minimum period `m`, are wrong
by `d` at bar `j` only, the result is wrong by `d * share m j i` at each bar `i` where it delivers. -/
def Pulse (f : Line (Ext K) → Except Err (Line (Ext K))) (e : ℕ) (share : ℕ → ℕ → ℕ → K) : Prop :=
  ∀ (a b : Line (Ext K)) (n m j : ℕ) (x : ℕ → K) (d : K), Holds a n m x → Holds b n m (fun i => x i + if i = j then d else 0) →
    m ≤ j + 1 → m + e ≤ n →
    ∃ r s u, f a = .ok r ∧ f b = .ok s ∧ Shows r n (m + e) u ∧ Shows s n (m + e) fun i => u i + d * share m j i

/-- `v k` for the `p` bars from bar `j` on (`k` bars after it), zero before and after -/
def during (p : ℕ) (v : ℕ → K) (j i : ℕ) : K := if j ≤ i ∧ i < j + p then v (i - j) else 0

/-- An exponential average with factor `α`: a price after the first value (bar `m + p - 1`, counted from 1) counts `α` and `1 - α` times
less each bar, one of those the first value is the mean of counts `1 / p` there and `1 - α` times less each bar. -/
def fading (p : ℕ) (α : K) (m j i : ℕ) : K :=
  if i < j then 0 else if j + 2 ≤ m + p then 1 / p * (1 - α) ^ (i + 2 - (m + p)) else α * (1 - α) ^ (i - j)

end Spec

namespace Bta
open Line Ext Ind Spec Finset

variable {K : Type} [Field K] [LinearOrder K] [IsStrictOrderedRing K]

theorem sum_pulse (w : ℕ → K) (d : K) {p i : ℕ} (j : ℕ) (hi : p ≤ i + 1) :
    ∑ k ∈ range p, w k * (if i - k = j then d else 0) = d * during p w j i := by
  unfold Spec.during
  by_cases h : j ≤ i ∧ i < j + p
  · rw [if_pos h, sum_eq_single (i - j)]
    · rw [if_pos (by omega), mul_comm]
    · intro k hk hne
      have := mem_range.1 hk
      rw [if_neg (by omega), mul_zero]
    · intro hk
      exact absurd (mem_range.2 (by omega)) hk
  · rw [if_neg h, mul_zero]
    refine sum_eq_zero fun k hk => ?_
    have := mem_range.1 hk
    rw [if_neg (by omega), mul_zero]

theorem expRec_pulse (α d : K) (s j k : ℕ) :
    (s < j → Spec.expRec α (fun i => if i = j then d else 0) s 0 k = if s + k < j then 0 else d * (α * (1 - α) ^ (s + k - j))) ∧
    (j ≤ s → ∀ c, Spec.expRec α (fun i => if i = j then d else 0) s c k = c * (1 - α) ^ k) := by
  induction k with
  | zero =>
    refine ⟨fun h => ?_, fun h c => ?_⟩
    · rw [if_pos (by omega)]; rfl
    · rw [pow_zero, mul_one]; rfl
  | succ k ih =>
    refine ⟨fun h => ?_, fun h c => ?_⟩
    · rw [Spec.expRec, ih.1 h]
      rcases Nat.lt_trichotomy (s + k + 1) j with h1 | h1 | h1
      · rw [if_pos (by omega), if_neg (by omega), if_pos (by omega)]; ring
      · rw [if_pos (by omega), if_pos h1, if_neg (by omega), show s + (k + 1) - j = 0 by omega]; ring
      · rw [if_neg (by omega), if_neg (by omega), if_neg (by omega), show s + (k + 1) - j = s + k - j + 1 by omega, pow_succ]; ring
    · rw [Spec.expRec, ih.2 h, if_neg (by omega), pow_succ]; ring

theorem expAvg_pulse (α d : K) {p s j i : ℕ} (hp : 1 ≤ p) (hj : s ≤ j) (hi : s + p ≤ i + 1) :
    Spec.expAvg α (fun i => if i = j then d else 0) s p i = d * fading p α (s + 1) j i := by
  unfold Spec.expAvg Spec.fading
  have hs : Spec.winMean (fun i => if i = j then d else 0) p (s + p - 1) = if j ≤ s + p - 1 then d * (1 / p) else 0 := by
    unfold Spec.winMean Spec.winSum
    have := sum_pulse (fun _ => (1 : K)) d (p := p) (i := s + p - 1) j (by omega)
    simp only [one_mul] at this
    rw [this, Spec.during]
    by_cases h : j ≤ s + p - 1
    · rw [if_pos (by omega), if_pos h]; ring
    · rw [if_neg (by omega), if_neg h, mul_zero, zero_div]
  rw [hs]
  by_cases h : j ≤ s + p - 1
  · rw [if_pos h, (expRec_pulse α d (s + p - 1) j _).2 h, if_neg (by omega), if_pos (by omega),
      show i + 2 - (s + 1 + p) = i - (s + p - 1) by omega]; ring
  · rw [if_neg h, (expRec_pulse α d (s + p - 1) j _).1 (by omega), show s + p - 1 + (i - (s + p - 1)) = i by omega]
    by_cases h2 : i < j
    · rw [if_pos h2, if_pos h2, mul_zero]
    · rw [if_neg h2, if_neg h2, if_neg (by omega)]

theorem pulse_exp {f : MA (Ext K)} {α : ℕ → K} (hf : IsMA f (fun p x s i => Spec.expAvg (α p) x s p i) ext1) {p : ℕ} (hp : 1 ≤ p) :
    Pulse (f p) (p - 1) (fading p (α p)) := fun a b n m j x d ha hb hj hn => by
  have hm := ha.pos
  obtain ⟨r, e1, h1⟩ := hf p hp a n m x ha hn
  obtain ⟨s, e2, h2⟩ := hf p hp b n m _ hb hn
  refine ⟨r, s, _, e1, e2, h1, shows_congr h2 rfl fun i i1 i2 => ?_⟩
  have h3 := expAvg_lin (α p) x (fun i => if i = j then d else 0) 1 (m - 1) p i
  simp only [one_mul] at h3
  have i1' : m + (p - 1) ≤ i + 1 := i1
  show Spec.expAvg (α p) _ (m - 1) p i = _
  rw [h3, expAvg_pulse (α p) d hp (by omega) (by omega), show m - 1 + 1 = m by omega]

/-- **C136** ema and smma: a wrong price counts `2 / (p + 1)` (or `1 / p`) at its bar, and less at each of the following bars, by the
factor `1 - 2 / (p + 1)` (or `1 - 1 / p`). -/
theorem C136_exponential {p : ℕ} (hp : 1 ≤ p) :
    Pulse (Ind.ema p) (p - 1) (fading p (2 / ((p : K) + 1))) ∧ Pulse (Ind.smma p) (p - 1) (fading p (1 / (p : K))) :=
  ⟨pulse_exp (α := fun p => 2 / ((p : K) + 1)) ema_isMA hp, pulse_exp (α := fun p => 1 / (p : K)) smma_isMA hp⟩

theorem pulse_window {f : Line (Ext K) → Except Err (Line (Ext K))} {p : ℕ} (hp : 1 ≤ p) {w : ℕ → K}
    (hf : ∀ (a : Line (Ext K)) (n m : ℕ) (x : ℕ → K), Holds a n m x → m + (p - 1) ≤ n →
      ∃ r, f a = .ok r ∧ Shows r n (m + (p - 1)) fun i => ∑ j ∈ Finset.range p, w j * x (i - j)) :
    Pulse f (p - 1) fun _ => during p w := fun a b n m j x d ha hb hj hn => by
  have hm := ha.pos
  obtain ⟨r, e1, h1⟩ := hf a n m x ha hn
  obtain ⟨s, e2, h2⟩ := hf b n m _ hb hn
  refine ⟨r, s, _, e1, e2, h1, shows_congr h2 rfl fun i i1 i2 => ?_⟩
  simp only [mul_add, sum_add_distrib]
  rw [sum_pulse w d j (by omega)]

/-- **C136** window averages: a wrong price counts for `p` bars and never again: `1 / p` in the mean, `p, p - 1, ..., 1` (divided by
`p (p + 1) / 2`) in the weighted one, `1, 2, ..., 2, 1` (divided by their sum) in the triangular one, fully in a sum. -/
theorem C136_window {p : ℕ} (hp : 1 ≤ p) :
    Pulse (Ind.sma p) (p - 1) (fun _ => during p fun _ => 1 / (p : K)) ∧
    Pulse (Ind.wma p) (p - 1) (fun _ => during p fun k => ((p - k : ℕ) : K) / ((p : K) * (p + 1) / 2)) ∧
    Pulse (Ind.trima p) (p - 1) (fun _ => during p fun k => ((min (k + 1) (p - k) : ℕ) : K) / ∑ k ∈ range p, ((min (k + 1) (p - k) : ℕ) : K)) ∧
    Pulse (fun a => .ok (Ind.sumN p a)) (p - 1) (fun _ => during p fun _ => (1 : K)) := by
  refine ⟨pulse_window hp fun a n m x ha hn => ?_, pulse_window hp fun a n m x ha hn => ?_, pulse_window hp fun a n m x ha hn => ?_,
    pulse_window hp fun a n m x ha hn => ?_⟩
  · obtain ⟨r, e, h⟩ := sma_isMA p hp a n m x ha hn
    refine ⟨r, e, shows_congr h rfl fun i _ _ => ?_⟩
    show Spec.winSum x p i / p = _
    rw [← mul_sum, Spec.winSum]; ring
  · obtain ⟨r, e, h⟩ := wma_isMA p hp a n m x ha hn
    refine ⟨r, e, shows_congr h rfl fun i _ _ => ?_⟩
    show Spec.wma x p i = _
    rw [Spec.wma, sum_linear, sum_div]
    exact sum_congr rfl fun j _ => by ring
  · obtain ⟨r, e, h⟩ := trima_isMA p hp a n m x ha hn
    refine ⟨r, e, shows_congr h rfl fun i _ _ => ?_⟩
    show Spec.trima x p i = _
    rw [Spec.trima, sum_div]
    exact sum_congr rfl fun j _ => by unfold Spec.triWeight; ring
  · have := ha.pos
    exact ⟨_, rfl, shows_congr (ha.rollSum hp) (by omega) fun i _ _ => by simp only [one_mul]; rfl⟩

/-- **C136** mom: a wrong price is in the change at its bar, and with the other sign `p` bars later; nowhere else. -/
theorem C136_mom (p : ℕ) :
    Pulse (K := K) (fun a => .ok (Ind.mom p a)) p fun _ j i => (if i = j then 1 else 0) - if i = j + p then 1 else 0 :=
  fun a b n m j x d ha hb hj hn => by
    have hm := ha.pos
    refine ⟨_, _, _, rfl, rfl, Holds.diff ha p, shows_congr (Holds.diff hb p) rfl fun i i1 i2 => ?_⟩
    have e1 : (i - p = j) = (i = j + p) := by
      apply propext; omega
    simp only [e1]
    split_ifs <;> ring

/-! ## Cases -/

/-- C136, a case: one price of 100 among zeros -/
example : shown (Ind.ema 3 (bars 7 fun i => if i = 3 then (100 : ℚ) else 0)) = [nan, nan, fin 0, fin 50, fin 25, fin (25 / 2), fin (25 / 4)] := by
  decide +kernel
example : shown (Ind.ema 3 (bars 5 fun i => if i = 1 then (90 : ℚ) else 0)) = [nan, nan, fin 30, fin 15, fin (15 / 2)] := by
  decide +kernel
example : shown (Ind.wma 3 (bars 7 fun i => if i = 3 then (60 : ℚ) else 0)) = [nan, nan, fin 0, fin 30, fin 20, fin 10, fin 0] := by
  decide +kernel
example : Holds (bars 7 fun i => (i : ℚ) + if i = 3 then 100 else 0) 7 1 (fun i => (i : ℚ) + if i = 3 then 100 else 0) := bars_holds 7 _

end Bta
