import Verif.Props.More
import Verif.Props.Stat
import Verif.Props.Ma
import Verif.Props.Price
import Verif.Lemmas.Osc
import Verif.Lemmas.Fading
import Mathlib.Algebra.Order.Chebyshev

/-!
# How far the price can be from its average (C140)
-/

set_option linter.unusedSectionVars false

namespace Spec
variable {K : Type} [Field K] [LinearOrder K] [IsStrictOrderedRing K]

/-- `p - 1` bars at 0 and a last one at 1 -/
def jump (p : ℕ) (i : ℕ) : K := if i + 1 = p then 1 else 0

end Spec

namespace Bta
open Line Ext Ind Spec Finset

variable {K : Type} [Field K] [LinearOrder K] [IsStrictOrderedRing K]
variable {a h l c : Line (Ext K)} {n m p i j : ℕ} {x H L C : ℕ → K}

theorem dev_sum (x : ℕ → K) (hp : 1 ≤ p) (i : ℕ) : ∑ k ∈ range p, (x (i - k) - winMean x p i) = 0 := by
  have hk : (p : K) ≠ 0 := by exact_mod_cast (by omega : p ≠ 0)
  rw [sum_sub_distrib]
  simp only [sum_const, card_range, nsmul_eq_mul]
  unfold winMean winSum
  field_simp
  ring

theorem dev_rest (x : ℕ → K) (hj : j < p) (i : ℕ) :
    x (i - j) - winMean x p i = - ∑ k ∈ (range p).erase j, (x (i - k) - winMean x p i) := by
  have h1 := add_sum_erase (range p) (fun k => x (i - k) - winMean x p i) (mem_range.2 hj)
  rw [dev_sum x (by omega) i] at h1
  linarith

/-- a price is at most half of the sum of all distances away from the mean -/
theorem dev_mad (x : ℕ → K) (hj : j < p) (i : ℕ) : 2 * |x (i - j) - winMean x p i| ≤ p * winMad x p i := by
  have hk : (p : K) ≠ 0 := by exact_mod_cast (by omega : p ≠ 0)
  have h1 := add_sum_erase (range p) (fun k => |x (i - k) - winMean x p i|) (mem_range.2 hj)
  have h2 : |x (i - j) - winMean x p i| ≤ ∑ k ∈ (range p).erase j, |x (i - k) - winMean x p i| := by
    rw [dev_rest x hj i, abs_neg]
    exact abs_sum_le_sum_abs _ _
  have h3 : (p : K) * winMad x p i = ∑ k ∈ range p, |x (i - k) - winMean x p i| := by
    unfold winMad; rw [mul_div_cancel₀ _ hk]
  rw [h3, ← h1]
  linarith

/-- a price is at most `√(p-1)` standard deviations away from the mean -/
theorem dev_var (x : ℕ → K) (hj : j < p) (i : ℕ) : (x (i - j) - winMean x p i) ^ 2 ≤ ((p : K) - 1) * winVar 0 x p i := by
  have hk : (0 : K) < p := by exact_mod_cast (by omega : 0 < p)
  have h1 := add_sum_erase (range p) (fun k => (x (i - k) - winMean x p i) ^ 2) (mem_range.2 hj)
  have h2 : (x (i - j) - winMean x p i) ^ 2 ≤ ((p : K) - 1) * ∑ k ∈ (range p).erase j, (x (i - k) - winMean x p i) ^ 2 := by
    have := sq_sum_le_card_mul_sum_sq (s := (range p).erase j) (f := fun k => x (i - k) - winMean x p i)
    rw [card_erase_of_mem (mem_range.2 hj), card_range, Nat.cast_sub (show 1 ≤ p by omega), Nat.cast_one] at this
    rw [show (x (i - j) - winMean x p i) ^ 2 = (∑ k ∈ (range p).erase j, (x (i - k) - winMean x p i)) ^ 2 by
      rw [dev_rest x hj i, neg_sq]]
    exact this
  have h3 : ∑ k ∈ range p, (x (i - k) - winMean x p i) ^ 2 = p * winVar 0 x p i := by
    unfold winVar; rw [Nat.cast_zero, sub_zero, mul_div_cancel₀ _ hk.ne']
  rw [h3] at h1
  have h4 : ∑ k ∈ (range p).erase j, (x (i - k) - winMean x p i) ^ 2 = p * winVar 0 x p i - (x (i - j) - winMean x p i) ^ 2 := by linarith
  rw [h4] at h2
  have : p * (x (i - j) - winMean x p i) ^ 2 ≤ p * (((p : K) - 1) * winVar 0 x p i) := by nlinarith
  exact le_of_mul_le_mul_left this hk

/-! ### the last price of a jump -/

theorem jump_sum (f : K → K) (hp : 1 ≤ p) : ∑ k ∈ range p, f (jump p (p - 1 - k)) = f 1 + ((p : K) - 1) * f 0 := by
  obtain ⟨q, rfl⟩ : ∃ q, p = q + 1 := ⟨p - 1, by omega⟩
  rw [sum_range_succ', sum_congr rfl fun k hk => show f (jump (q + 1) (q + 1 - 1 - (k + 1))) = f 0 by
    have := mem_range.1 hk
    unfold jump; rw [if_neg (by omega)]]
  have : jump (K := K) (q + 1) (q + 1 - 1 - 0) = 1 := by unfold jump; rw [if_pos (by omega)]
  rw [this]
  simp only [sum_const, card_range, nsmul_eq_mul]
  push_cast
  ring

theorem jump_mean (hp : 1 ≤ p) : winMean (jump (K := K) p) p (p - 1) = 1 / p := by
  have := jump_sum (K := K) (fun v => v) hp
  beta_reduce at this
  unfold winMean winSum
  rw [this, mul_zero, add_zero]

theorem jump_last (hp : 1 ≤ p) : jump (K := K) p (p - 1) = 1 := by unfold jump; rw [if_pos (by omega)]

theorem jump_var (hp : 1 ≤ p) : winVar 0 (jump (K := K) p) p (p - 1) = ((p : K) - 1) / p ^ 2 := by
  have hk : (p : K) ≠ 0 := by exact_mod_cast (by omega : p ≠ 0)
  unfold winVar
  rw [jump_mean hp, jump_sum (fun v : K => (v - 1 / (p : K)) ^ 2) hp]
  field_simp
  push_cast
  field_simp
  ring

theorem jump_mad (hp : 1 ≤ p) : winMad (jump (K := K) p) p (p - 1) = 2 * ((p : K) - 1) / p ^ 2 := by
  have hk : (1 : K) ≤ p := by exact_mod_cast hp
  have h0 : (0 : K) < p := by linarith
  unfold winMad
  rw [jump_mean hp, jump_sum (fun v : K => |v - 1 / (p : K)|) hp]
  have e1 : |(1 : K) - 1 / p| = 1 - 1 / p := abs_of_nonneg (by rw [sub_nonneg, div_le_one h0]; exact hk)
  have e2 : |(0 : K) - 1 / p| = 1 / p := by rw [zero_sub, abs_neg, abs_of_pos (by positivity)]
  rw [e1, e2]
  field_simp
  ring

/-! ### the theorems -/

/-- **C140** If the square of `devs` is at least `p - 1`, no price of the last `p` bars is outside of the Bollinger bands; -/
theorem C140_bands (ha : Holds a n m x) (hp : 1 ≤ p) (hn : m + (p - 1) ≤ n) {sq : Ext K → Ext K} {s : K → K}
    (hsq : ∀ v, 0 ≤ v → sq (fin v) = fin (s v)) (hs : ∀ v, 0 ≤ v → 0 ≤ s v ∧ s v * s v = v) {devs : K} (h0 : 0 ≤ devs)
    (hd : (p : K) - 1 ≤ devs ^ 2) :
    Gives (Ind.bbands sq Ind.sma (fin devs) p a) fun (_, top, bot) => ∃ T B, Shows top n (m + (p - 1)) T ∧ Shows bot n (m + (p - 1)) B ∧
      ∀ i, m + (p - 1) ≤ i + 1 → i < n → ∀ k, k < p → B i ≤ x (i - k) ∧ x (i - k) ≤ T i := by
  refine (C30_bbands sma_isMA ha hp hn hsq devs).imp fun r ⟨_, h2, h3⟩ => ?_
  have hm := ha.pos
  refine ⟨_, _, shows_congr h2 (by unfold ext1; omega) fun _ _ _ => rfl, shows_congr h3 (by unfold ext1; omega) fun _ _ _ => rfl,
    fun i _ _ k hk => ?_⟩
  have hv := winVar_nonneg x i (ddof := 0) (p := p) (by omega)
  obtain ⟨s0, s1⟩ := hs _ hv
  have key : |x (i - k) - winMean x p i| ≤ devs * s (winVar 0 x p i) := by
    refine abs_le_of_sq_le_sq ?_ (mul_nonneg h0 s0)
    rw [mul_pow, pow_two (s _), s1]
    exact (dev_var x hk i).trans (mul_le_mul_of_nonneg_right hd hv)
  have := abs_le.1 key
  unfold smaF
  constructor <;> linarith

/-- **C140** with any smaller `devs` a last price outside of the bands is possible. -/
theorem C140_bands_sharp (hp : 1 ≤ p) {sq : Ext K → Ext K} {s : K → K} (hsq : ∀ v, 0 ≤ v → sq (fin v) = fin (s v))
    (hs : ∀ v, 0 ≤ v → 0 ≤ s v ∧ s v * s v = v) {devs : K} (hd : devs ^ 2 < (p : K) - 1) :
    Gives (Ind.bbands sq Ind.sma (fin devs) p (bars p (jump p))) fun (_, top, _) => ∃ t, top.series[p - 1]? = some (fin t) ∧
      t < jump p (p - 1) := by
  refine (C30_bbands sma_isMA (bars_holds p (jump p)) hp (by unfold ext1; omega) hsq devs).imp fun r ⟨_, h2, _⟩ => ?_
  refine ⟨_, h2.val (p - 1) (by unfold ext1; omega) (by omega), ?_⟩
  have h1 : (0 : K) < p := by exact_mod_cast (by omega : 0 < p)
  have hv := winVar_nonneg (jump (K := K) p) (p - 1) (ddof := 0) (p := p) (by omega)
  obtain ⟨s0, s1⟩ := hs _ hv
  have hq : (0 : K) < (p : K) - 1 := lt_of_le_of_lt (sq_nonneg _) hd
  have key : devs * s (winVar 0 (jump (K := K) p) p (p - 1)) < 1 - 1 / p := by
    refine lt_of_pow_lt_pow_left₀ 2 (by rw [sub_nonneg, div_le_one h1]; linarith) ?_
    rw [mul_pow, pow_two (s _), s1, jump_var hp]
    have : (1 - 1 / (p : K)) ^ 2 = ((p : K) - 1) * (((p : K) - 1) / p ^ 2) := by field_simp
    rw [this]
    exact mul_lt_mul_of_pos_right hd (by positivity)
  unfold smaF
  beta_reduce
  rw [jump_mean hp, jump_last hp]
  linarith

/-- **C140** cci (with its simple average) is never more than `p / (2 factor)` away from 0: 2000/3 with the default parameters; -/
theorem C140_cci (hh : Holds h n m H) (hl : Holds l n m L) (hc : Holds c n m C) (hp : 1 ≤ p) (he : m + (p - 1) ≤ n) {factor : K}
    (hf : 0 < factor) :
    Gives (Ind.cci Ind.sma (fin factor) p h l c) fun r => ∀ i, m + (p - 1) ≤ i + 1 → i < n →
      r.series[i]? = some Ext.nan ∨ ∃ v, r.series[i]? = some (fin v) ∧ |v| ≤ p / (2 * factor) := by
  refine (C75_cci_flat hh hl hc hp he hf.ne').imp fun r ⟨q, h1, h2⟩ i i1 i2 => ?_
  rw [h1.val i i1 i2]
  by_cases hfl : ∃ k, k < p ∧ typical H L C (i - k) ≠ typical H L C i
  · refine Or.inr ⟨_, by rw [(h2 i).2 hfl], ?_⟩
    have hd : 0 < winMad (typical H L C) p i := lt_of_le_of_ne (winMad_nonneg _ _ _) fun e => by
      obtain ⟨k, k1, k2⟩ := hfl
      exact k2 ((winMad_zero _ hp i).1 e.symm k k1)
    rw [abs_div, abs_of_pos (mul_pos hf hd), div_le_div_iff₀ (mul_pos hf hd) (by positivity)]
    have := dev_mad (typical H L C) (j := 0) (show 0 < p by omega) i
    rw [Nat.sub_zero] at this
    nlinarith
  · left
    push Not at hfl
    rw [(h2 i).1 hfl]; rfl

/-- **C140** this is reached, by a jump after `p - 1` equal bars. -/
theorem C140_cci_sharp (hp : 2 ≤ p) {factor : K} (hf : 0 < factor) :
    Gives (Ind.cci Ind.sma (fin factor) p (bars p (jump p)) (bars p (jump p)) (bars p (jump p))) fun r =>
      r.series[p - 1]? = some (fin (p / (2 * factor))) := by
  have hb := bars_holds p (jump (K := K) p)
  refine (C75_cci_flat hb hb hb (show 1 ≤ p by omega) (by omega) hf.ne').imp fun r ⟨q, h1, h2⟩ => ?_
  have et : typical (jump (K := K) p) (jump p) (jump p) = jump p := by
    funext i; unfold typical; ring
  rw [h1.val (p - 1) (by omega) (by omega), (h2 (p - 1)).2 ⟨1, by omega, ?_⟩, et, jump_last (by omega), jump_mean (by omega),
    jump_mad (by omega)]
  · have hk : (2 : K) ≤ p := by exact_mod_cast hp
    have h0 : (p : K) ≠ 0 := by linarith
    have h1 : (p : K) - 1 ≠ 0 := by linarith
    congr 2
    field_simp
  · rw [et, jump_last (by omega)]
    unfold jump
    rw [if_neg (by omega)]
    exact zero_ne_one

/-- **C140** The mean absolute deviation is at most the standard deviation, and this at most half of the distance of the highest and the lowest price
(here the squares). -/
theorem C140_spread (ha : Holds a n m x) (hp : 1 ≤ p) :
    ∃ d v hi lo, Shows (Ind.mad p a) n (m + (p - 1)) d ∧ Shows (Ind.var 0 p a) n (m + p - 1) v ∧
      Shows (Ind.highest p a) n (m + p - 1) hi ∧ Shows (Ind.lowest p a) n (m + p - 1) lo ∧
      ∀ i, d i ^ 2 ≤ v i ∧ v i ≤ ((hi i - lo i) / 2) ^ 2 := by
  obtain ⟨hi, e1, e2⟩ := C09_max ha hp
  obtain ⟨lo, f1, f2⟩ := C09_min ha hp
  refine ⟨_, _, hi, lo, mad_shows ha hp, ha.var (ddof := 0) (by omega), e1, f1, fun i => ⟨?_, ?_⟩⟩
  · have h0 : (0 : K) < p := by exact_mod_cast (by omega : 0 < p)
    have := sq_sum_le_card_mul_sum_sq (s := range p) (f := fun k => |x (i - k) - winMean x p i|)
    simp only [sq_abs, card_range] at this
    unfold winMad winVar
    rw [div_pow, Nat.cast_zero, sub_zero, div_le_div_iff₀ (by positivity) h0]
    nlinarith
  · have h0 : (0 : K) < p := by exact_mod_cast (by omega : 0 < p)
    unfold winVar
    rw [Nat.cast_zero, sub_zero, div_le_iff₀ h0]
    set M := hi i with hM
    set N := lo i with hN
    have e : ∀ k ∈ range p, (x (i - k) - winMean x p i) ^ 2 =
        (x (i - k) - (M + N) / 2) ^ 2 + 2 * ((M + N) / 2 - winMean x p i) * (x (i - k) - winMean x p i) - ((M + N) / 2 - winMean x p i) ^ 2 :=
      fun k _ => by ring
    rw [sum_congr rfl e, sum_sub_distrib, sum_add_distrib, ← mul_sum, dev_sum x hp i, mul_zero, add_zero]
    have : ∑ k ∈ range p, (x (i - k) - (M + N) / 2) ^ 2 ≤ ∑ _k ∈ range p, ((M - N) / 2) ^ 2 := sum_le_sum fun k hk => by
      have h1 : x (i - k) ≤ M := (e2 i).2 ⟨k, mem_range.1 hk, rfl⟩
      have h2 : N ≤ x (i - k) := (f2 i).2 ⟨k, mem_range.1 hk, rfl⟩
      refine sq_le_sq' (by linarith) (by linarith)
    simp only [sum_const, card_range, nsmul_eq_mul] at this ⊢
    nlinarith [mul_nonneg h0.le (sq_nonneg ((M + N) / 2 - winMean x p i))]

/-! ### oscillators of positive prices -/

theorem winSum_succ (x : ℕ → K) (q i : ℕ) : winSum x (q + 1) (i + 1) = winSum x q i + x (i + 1) := by
  unfold winSum
  rw [sum_range_succ']
  congr 1
  exact sum_congr rfl fun k _ => by rw [show i + 1 - (k + 1) = i - k by omega]

/-- no price has more than the weight of the last one in an exponential average -/
theorem emaF_le_sum (hp : 1 ≤ p) {b : ℕ} (hx : ∀ i, b ≤ i → 0 ≤ x i) (j : ℕ) :
    emaF p x b (b + p - 1 + j) ≤ 2 / ((p : K) + 1) * winSum x (p + j) (b + p - 1 + j) := by
  have h0 : (1 : K) ≤ p := by exact_mod_cast hp
  have hα : (0 : K) < 2 / ((p : K) + 1) := by positivity
  induction j with
  | zero =>
    unfold emaF Spec.ema expAvg
    rw [show b + p - 1 + 0 - (b + p - 1) = 0 by omega]
    show winMean x p (b + p - 1) ≤ _
    unfold winMean
    rw [div_eq_mul_inv, mul_comm]
    refine mul_le_mul_of_nonneg_right ?_ (sum_nonneg fun k hk => hx _ (by have := mem_range.1 hk; omega))
    rw [inv_eq_one_div, div_le_div_iff₀ (by linarith) (by linarith)]
    linarith
  | succ j ih =>
    have e := expAvg_succ (2 / ((p : K) + 1)) x b p (b + p - 1 + j) (by omega)
    have hn : 0 ≤ emaF p x b (b + p - 1 + j) := emaF_nonneg p hp x b _ (by unfold ext1; omega) fun k hk _ => hx k hk
    rw [← Nat.add_assoc p j 1, ← Nat.add_assoc (b + p - 1) j 1, winSum_succ]
    unfold emaF Spec.ema at hn ih ⊢
    rw [e]
    nlinarith [mul_nonneg hα.le hn]

/-- the fast average is at most `2 pslow / (pfast + 1)` times the slow one -/
theorem ema_ratio {pf ps b : ℕ} (h1 : 1 ≤ pf) (h2 : pf ≤ ps) (hx : ∀ i, b ≤ i → 0 ≤ x i) (j : ℕ) :
    emaF pf x b (b + ps - 1 + j) ≤ 2 * ps / ((pf : K) + 1) * emaF ps x b (b + ps - 1 + j) := by
  have f0 : (1 : K) ≤ pf := by exact_mod_cast h1
  have s0 : (pf : K) ≤ ps := by exact_mod_cast h2
  induction j with
  | zero =>
    have := emaF_le_sum h1 hx (ps - pf)
    rw [show b + pf - 1 + (ps - pf) = b + ps - 1 by omega, show pf + (ps - pf) = ps by omega] at this
    rw [Nat.add_zero]
    refine this.trans (le_of_eq ?_)
    have e : emaF ps x b (b + ps - 1) = winSum x ps (b + ps - 1) / ps := by
      unfold emaF Spec.ema expAvg
      rw [Nat.sub_self]; rfl
    have : (ps : K) ≠ 0 := by linarith
    rw [e]
    field_simp
  | succ j ih =>
    have ef := expAvg_succ (2 / ((pf : K) + 1)) x b pf (b + ps - 1 + j) (by omega)
    have es := expAvg_succ (2 / ((ps : K) + 1)) x b ps (b + ps - 1 + j) (by omega)
    have hn : 0 ≤ emaF ps x b (b + ps - 1 + j) := emaF_nonneg ps (by omega) x b _ (by unfold ext1; omega) fun k hk _ => hx k hk
    have hX := hx (b + ps - 1 + j + 1) (by omega)
    rw [← Nat.add_assoc (b + ps - 1) j 1]
    unfold emaF Spec.ema at hn ih ⊢
    rw [ef, es]
    set E := expAvg (2 / ((pf : K) + 1)) x b pf (b + ps - 1 + j)
    set S := expAvg (2 / ((ps : K) + 1)) x b ps (b + ps - 1 + j)
    set X := x (b + ps - 1 + j + 1)
    have a1 : (0 : K) ≤ 1 - 2 / ((pf : K) + 1) := by rw [sub_nonneg, div_le_one (by linarith)]; linarith
    have a2 : 2 / ((ps : K) + 1) ≤ 2 / ((pf : K) + 1) := by
      rw [div_le_div_iff₀ (by linarith) (by linarith)]; linarith
    have a3 : 2 / ((pf : K) + 1) ≤ 2 * ps / ((pf : K) + 1) * (2 / ((ps : K) + 1)) := by
      rw [div_mul_div_comm, div_le_div_iff₀ (by linarith) (by positivity)]
      nlinarith [mul_nonneg (show (0 : K) ≤ pf + 1 by linarith) (show (0 : K) ≤ ps - 1 by linarith)]
    have hR : (0 : K) ≤ 2 * ps / ((pf : K) + 1) := div_nonneg (by linarith) (by linarith)
    calc E + 2 / ((pf : K) + 1) * (X - E) = (1 - 2 / ((pf : K) + 1)) * E + 2 / ((pf : K) + 1) * X := by ring
      _ ≤ (1 - 2 / ((pf : K) + 1)) * (2 * ps / ((pf : K) + 1) * S) + 2 * ps / ((pf : K) + 1) * (2 / ((ps : K) + 1)) * X :=
        add_le_add (mul_le_mul_of_nonneg_left ih a1) (mul_le_mul_of_nonneg_right a3 hX)
      _ ≤ (1 - 2 / ((ps : K) + 1)) * (2 * ps / ((pf : K) + 1) * S) + 2 * ps / ((pf : K) + 1) * (2 / ((ps : K) + 1)) * X := by
        have : (1 - 2 / ((pf : K) + 1)) * (2 * ps / ((pf : K) + 1) * S) ≤ (1 - 2 / ((ps : K) + 1)) * (2 * ps / ((pf : K) + 1) * S) :=
          mul_le_mul_of_nonneg_right (by linarith) (mul_nonneg hR hn)
        linarith
      _ = _ := by ring

theorem positive_everywhere (ha : Holds a n m x) (hx : ∀ i, m ≤ i + 1 → i < n → 0 < x i) :
    ∃ y, Holds a n m y ∧ ∀ i, 0 < y i := by
  refine ⟨fun i => if m ≤ i + 1 ∧ i < n then x i else 1, ⟨ha.len, ha.mp, ha.pos, fun i h1 h2 => ?_⟩, fun i => ?_⟩
  · beta_reduce
    rw [ha.val i h1 h2, if_pos ⟨h1, h2⟩]
  · beta_reduce
    split
    · next h => exact hx i h.1 h.2
    · exact one_pos

/-- **C140** ppo of positive prices is above -100 and at most 100 (2 pslow / (pfast + 1) - 1) with exponential averages (300 with the default
periods 12 and 26); -/
theorem C140_ppo {masig : MA (Ext K)} {G : ℕ → (ℕ → K) → ℕ → ℕ → K} (hsig : IsMA masig G ext1) (ha : Holds a n m x) (hx : ∀ i, m ≤ i + 1 → i < n → 0 < x i)
    {pf ps psig : ℕ} (h1 : 1 ≤ pf) (h2 : pf ≤ ps) (h3 : 1 ≤ psig) (hn : m + (ps - 1) + (psig - 1) ≤ n) :
    Gives (Ind.ppo false Ind.ema masig pf ps psig a) fun r => ∃ g, Shows r.1 n (m + (ps - 1)) g ∧
      ∀ i, m + (ps - 1) ≤ i + 1 → i < n → -100 < g i ∧ g i ≤ 100 * (2 * ps / ((pf : K) + 1) - 1) := by
  obtain ⟨x, ha, hx⟩ := positive_everywhere ha hx
  have hm := ha.pos
  have pos : ∀ q, 1 ≤ q → q ≤ ps → ∀ i, m + (ps - 1) ≤ i + 1 → 0 < emaF q x (m - 1) i := fun q q1 q2 i hi =>
    emaF_posWin q q1 x (m - 1) i (by unfold ext1; omega) (fun j _ _ => (hx j).le) ⟨i, by omega, by omega, by omega, hx i⟩
  refine (C48_ppo ema_isMA hsig ha h1 h2 h3 hn fun i i1 _ => (pos ps (by omega) (le_refl _) i i1).ne').imp fun r hr =>
    ⟨_, hr.main, fun i i1 i2 => ?_⟩
  have pF := pos pf h1 h2 i i1
  have pS := pos ps (by omega) (le_refl _) i i1
  have key := ema_ratio (x := x) (b := m - 1) h1 h2 (fun i _ => (hx i).le) (i - (m - 1 + ps - 1))
  rw [show m - 1 + ps - 1 + (i - (m - 1 + ps - 1)) = i by omega] at key
  have h := div_pos pF pS
  have h' := (div_le_iff₀ pS).2 key
  constructor <;> linarith

/-- **C140** and at most 100 (pslow / pfast - 1) with simple ones. -/
theorem C140_ppo_sma {masig : MA (Ext K)} {G : ℕ → (ℕ → K) → ℕ → ℕ → K} (hsig : IsMA masig G ext1) (ha : Holds a n m x) (hx : ∀ i, m ≤ i + 1 → i < n → 0 < x i)
    {pf ps psig : ℕ} (h1 : 1 ≤ pf) (h2 : pf ≤ ps) (h3 : 1 ≤ psig) (hn : m + (ps - 1) + (psig - 1) ≤ n) :
    Gives (Ind.ppo false Ind.sma masig pf ps psig a) fun r => ∃ g, Shows r.1 n (m + (ps - 1)) g ∧
      ∀ i, m + (ps - 1) ≤ i + 1 → i < n → -100 < g i ∧ g i ≤ 100 * ((ps : K) / pf - 1) := by
  obtain ⟨x, ha, hx⟩ := positive_everywhere ha hx
  have hm := ha.pos
  have pos : ∀ q, 1 ≤ q → q ≤ ps → ∀ i, m + (ps - 1) ≤ i + 1 → 0 < smaF q x (m - 1) i := fun q q1 q2 i hi =>
    smaF_posWin q q1 x (m - 1) i (by unfold ext1; omega) (fun j _ _ => (hx j).le) ⟨i, by omega, by omega, by omega, hx i⟩
  refine (C48_ppo sma_isMA hsig ha h1 h2 h3 hn fun i i1 _ => (pos ps (by omega) (le_refl _) i i1).ne').imp fun r hr =>
    ⟨_, hr.main, fun i i1 i2 => ?_⟩
  have pF := pos pf h1 h2 i i1
  have pS := pos ps (by omega) (le_refl _) i i1
  have f0 : (1 : K) ≤ pf := by exact_mod_cast h1
  have s0 : (pf : K) ≤ ps := by exact_mod_cast h2
  have key : smaF pf x (m - 1) i ≤ (ps : K) / pf * smaF ps x (m - 1) i := by
    have : winSum x pf i ≤ winSum x ps i :=
      sum_le_sum_of_subset_of_nonneg (range_subset_range.2 h2) fun k _ _ => (hx _).le
    unfold smaF winMean
    have e : (ps : K) / pf * (winSum x ps i / ps) = winSum x ps i / pf := by
      have : (ps : K) ≠ 0 := by linarith
      field_simp
    rw [e]
    exact div_le_div_of_nonneg_right this (by linarith)
  have h := div_pos pF pS
  have h' := (div_le_iff₀ pS).2 key
  constructor <;> linarith

/-- **C140** roc of positive prices is above -100. -/
theorem C140_roc (ha : Holds a n m x) (hx : ∀ i, m ≤ i + 1 → i < n → 0 < x i) (hp : 1 ≤ p) :
    ∃ g, Shows (Ind.roc p a) n (m + p) g ∧ ∀ i, m + p ≤ i + 1 → i < n → -100 < g i := by
  have hm := ha.pos
  refine ⟨_, (C44_consistent ha hp fun i h1 h2 => (hx i h1 h2).ne').2.2.2, fun i h1 h2 => ?_⟩
  have h3 := hx i (by omega) h2
  have h4 := hx (i - p) (by omega) (by omega)
  have : (x i - x (i - p)) / x (i - p) = x i / x (i - p) - 1 := by field_simp
  rw [this]
  have := div_pos h3 h4
  linarith

/-! ### concrete cases -/

/-- two bars, `devs = 1`: the prices are on the bands -/
example : Ind.bbands (fun v : Ext ℚ => if v = .fin 4 then .fin 2 else v) Ind.sma (.fin 1) 2 (bars 2 fun i => if i = 0 then 3 else 7) =
    .ok (⟨[.nan, .fin 5], 2⟩, ⟨[.nan, .fin 7], 2⟩, ⟨[.nan, .fin 3], 2⟩) := by decide +kernel
example : ((2 : ℕ) : ℚ) - 1 ≤ 1 ^ 2 := by norm_num
/-- the default parameters of cci -/
example : Gives (Ind.cci Ind.sma (.fin (15/1000)) 20 (bars 20 (jump (K := ℚ) 20)) (bars 20 (jump 20)) (bars 20 (jump 20))) fun r =>
    r.series[19]? = some (.fin (2000/3)) :=
  (C140_cci_sharp (p := 20) (by omega) (by norm_num)).imp fun r h => by rw [h]; norm_num
/-- the bound of ppo with exponential averages, here 200, is nearly reached -/
example : (Ind.ppo false Ind.ema Ind.ema 1 3 1 (bars 3 fun i => if i = 2 then (1000 : ℚ) else 1)).map (fun r => r.1.series[2]?) =
    .ok (some (.fin (100 * (1000 / 334 - 1)))) := by decide +kernel

end Bta
