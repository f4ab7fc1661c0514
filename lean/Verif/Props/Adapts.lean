import Verif.Props.Kama
import Verif.Props.Trend

/-!
# How the adaptive average adapts (C138)
-/

set_option linter.unusedSectionVars false

namespace Spec
variable {K : Type} [Field K] [LinearOrder K] [IsStrictOrderedRing K]

/-- the prices of the last `p` bars up to bar `i` moved in one direction only (the first of the moves is that from bar `i - p`) -/
def OneWay (x : ℕ → K) (p i : ℕ) : Prop := (∀ j, j < p → x (i - j - 1) ≤ x (i - j)) ∨ ∀ j, j < p → x (i - j) ≤ x (i - j - 1)

/-- in the last `p` bars up to bar `i` the price moved at least once -/
def Moved (x : ℕ → K) (p i : ℕ) : Prop := ∃ j, j < p ∧ x (i - j) ≠ x (i - j - 1)

/-- the smoothing factor of an exponential average of `q` bars, squared -/
def squared (q : K) : K := (2 / (q + 1)) ^ 2

end Spec

namespace Bta
open Line Ext Ind Spec Finset

variable {K : Type} [Field K] [LinearOrder K] [IsStrictOrderedRing K]
variable {a : Line (Ext K)} {n m p i : ℕ} {x : ℕ → K} {fast slow : K}

theorem volatility_pos (h : Moved x p i) : 0 < volatility x p 1 i := by
  obtain ⟨j, hj, hne⟩ := h
  exact sum_pos' (fun _ _ => abs_nonneg _) ⟨j, mem_range.2 hj, abs_pos.2 (sub_ne_zero.2 hne)⟩

theorem oneWay_iff (hi : p ≤ i) : |x i - x (i - p)| = volatility x p 1 i ↔ OneWay x p i := by
  rw [← sum_back_telescope x i p hi]
  constructor
  · intro h
    rcases abs_cases (∑ j ∈ range p, (x (i - j) - x (i - j - 1))) with ⟨e, -⟩ | ⟨e, -⟩
    · left
      have hz : ∑ j ∈ range p, (|x (i - j) - x (i - j - 1)| - (x (i - j) - x (i - j - 1))) = 0 := by
        rw [sum_sub_distrib, ← e, h]; exact sub_self _
      intro j hj
      have := (sum_eq_zero_iff_of_nonneg fun k _ => sub_nonneg.2 (le_abs_self _)).1 hz j (mem_range.2 hj)
      have h1 := abs_nonneg (x (i - j) - x (i - j - 1))
      linarith
    · right
      have hz : ∑ j ∈ range p, (|x (i - j) - x (i - j - 1)| + (x (i - j) - x (i - j - 1))) = 0 := by
        rw [sum_add_distrib]
        have : volatility x p 1 i = ∑ j ∈ range p, |x (i - j) - x (i - j - 1)| := rfl
        linarith
      intro j hj
      have := (sum_eq_zero_iff_of_nonneg fun k _ => by linarith [neg_le_abs (x (i - k) - x (i - k - 1))]).1 hz j (mem_range.2 hj)
      have h1 := abs_nonneg (x (i - j) - x (i - j - 1))
      linarith
  · rintro (h | h)
    · rw [abs_of_nonneg (sum_nonneg fun j hj => sub_nonneg.2 (h j (mem_range.1 hj)))]
      exact sum_congr rfl fun j hj => (abs_of_nonneg (sub_nonneg.2 (h j (mem_range.1 hj)))).symm
    · rw [abs_of_nonpos (sum_nonpos fun j hj => sub_nonpos.2 (h j (mem_range.1 hj))), ← sum_neg_distrib]
      exact sum_congr rfl fun j hj => (abs_of_nonpos (sub_nonpos.2 (h j (mem_range.1 hj)))).symm

theorem kamaFactor_adapts (hf : 1 ≤ fast) (hs : fast < slow) (hi : p ≤ i) (hm : Moved x p i) :
    squared slow ≤ kamaFactor fast slow x p 1 i ∧ kamaFactor fast slow x p 1 i ≤ squared fast ∧
      (kamaFactor fast slow x p 1 i = squared fast ↔ OneWay x p i) ∧ (kamaFactor fast slow x p 1 i = squared slow ↔ x i = x (i - p)) := by
  have hv := volatility_pos hm
  have hle : |x i - x (i - p)| ≤ volatility x p 1 i := by
    rw [← sum_back_telescope x i p hi]
    exact abs_sum_le_sum_abs _ _
  have he0 : 0 ≤ |x i - x (i - p)| / volatility x p 1 i := div_nonneg (abs_nonneg _) hv.le
  have he1 : |x i - x (i - p)| / volatility x p 1 i ≤ 1 := div_le_one_of_le₀ hle hv.le
  have e1 : |x i - x (i - p)| / volatility x p 1 i = 1 ↔ OneWay x p i := by rw [div_eq_one_iff_eq hv.ne', oneWay_iff hi]
  have e0 : |x i - x (i - p)| / volatility x p 1 i = 0 ↔ x i = x (i - p) := by
    rw [div_eq_zero_iff, abs_eq_zero, sub_eq_zero]
    exact or_iff_left hv.ne'
  unfold squared kamaFactor
  rw [← e1, ← e0]
  generalize |x i - x (i - p)| / volatility x p 1 i = e at *
  have hB0 : 0 < 2 / (slow + 1) := by have : 0 < slow + 1 := by linarith
                                      positivity
  have hAB : 2 / (slow + 1) < 2 / (fast + 1) := div_lt_div_of_pos_left (by norm_num) (by linarith) (by linarith)
  generalize 2 / (fast + 1) = A at *
  generalize 2 / (slow + 1) = B at *
  have h0 : B ≤ e * (A - B) + B := by nlinarith
  have h1 : e * (A - B) + B ≤ A := by nlinarith
  refine ⟨pow_le_pow_left₀ hB0.le h0 2, pow_le_pow_left₀ (hB0.le.trans h0) h1 2, ?_, ?_⟩
  · rw [pow_left_inj₀ (hB0.le.trans h0) (by linarith) (by norm_num)]
    constructor
    · intro h
      have : (e - 1) * (A - B) = 0 := by linarith
      rcases mul_eq_zero.1 this with h' | h' <;> linarith
    · rintro rfl; ring
  · rw [pow_left_inj₀ (hB0.le.trans h0) hB0.le (by norm_num)]
    constructor
    · intro h
      have : e * (A - B) = 0 := by linarith
      rcases mul_eq_zero.1 this with h' | h' <;> linarith
    · rintro rfl; ring

/-- **C138** From each bar to the next kama goes a part `c` of the way to the new price.  The part is between the squared factors of the slow
and the fast exponential average; it is the fast one exactly if prices moved in one direction only in the period, and the slow one
exactly if the price is where it was a period ago.  (The look-back of the volatility is one bar, as by default; the price has to move
in each period, else C19_flat_window.) -/
theorem C138_step (hf : 1 ≤ fast) (hs : fast < slow) (ha : Holds a n 1 x) (hp : 1 ≤ p) (hn : p ≤ n) (last : Bool)
    (hm : ∀ i, p ≤ i → i < n → Moved x p i) :
    Gives (Ind.kama (fin fast) (fin slow) 1 (if last then .last else .avg) p a) fun r => ∀ i, p ≤ i → i + 1 < n →
      ∃ v c : K, r.series[i]? = some (fin v) ∧ r.series[i + 1]? = some (fin (v + c * (x (i + 1) - v))) ∧
        squared slow ≤ c ∧ c ≤ squared fast ∧ (c = squared fast ↔ OneWay x p (i + 1)) ∧ (c = squared slow ↔ x (i + 1) = x (i + 1 - p)) := by
  refine (C19_kama_partial (by linarith) (by linarith) ha hp (le_refl 1) (by omega) last fun i h1 h2 =>
    (volatility_pos (hm i (by omega) h2)).ne').imp fun r hr i h1 h2 => ?_
  refine ⟨_, kamaFactor fast slow x p 1 (i + 1), hr.val i (by omega) (by omega), ?_, kamaFactor_adapts hf hs (by omega) (hm _ (by omega) h2)⟩
  rw [hr.val (i + 1) (by omega) h2]
  beta_reduce
  rw [show i + 1 - (p + 1 - 2) = (i - (p + 1 - 2)) + 1 by omega, adaptive,
    show p + 1 - 2 + (i - (p + 1 - 2)) + 1 = i + 1 by omega]

/-- **C138** The first value goes from the seed (the average of the first `p` prices, or the last of them) to the price of the bar after them
in the same way. -/
theorem C138_first (hf : 1 ≤ fast) (hs : fast < slow) (ha : Holds a n 1 x) (hp : 1 ≤ p) (hn : p < n) (last : Bool)
    (hm : ∀ i, p ≤ i → i < n → Moved x p i) :
    Gives (Ind.kama (fin fast) (fin slow) 1 (if last then .last else .avg) p a) fun r => r.minperiod = p + 1 ∧
      ∃ v c : K, v = (if last then x (p - 1) else (∑ j ∈ range p, x j) / p) ∧ r.series[p]? = some (fin (v + c * (x p - v))) ∧
        squared slow ≤ c ∧ c ≤ squared fast ∧ (c = squared fast ↔ OneWay x p p) ∧ (c = squared slow ↔ x p = x 0) := by
  refine (C19_kama_partial (by linarith) (by linarith) ha hp (le_refl 1) (by omega) last fun i h1 h2 =>
    (volatility_pos (hm i (by omega) h2)).ne').imp fun r hr => ?_
  have hk := kamaFactor_adapts hf hs (le_refl p) (hm _ (le_refl p) hn)
  rw [Nat.sub_self] at hk
  refine ⟨by have := hr.mp; exact_mod_cast this, _, kamaFactor fast slow x p 1 p, rfl, ?_, hk⟩
  rw [hr.val p (by omega) hn]
  beta_reduce
  rw [show p - (p + 1 - 2) = 0 + 1 by omega, adaptive, adaptive, show p + 1 - 2 + 0 + 1 = p by omega]
  have : kamaSeed last x p (p + 1 - 2) = (if last then x (p - 1) else (∑ j ∈ range p, x j) / p) := by
    unfold kamaSeed
    rw [show p + 1 - 2 = p - 1 by omega]
    congr 1
    unfold winMean winSum
    congr 1
    exact sum_range_reflect (fun j => x j) p
  rw [this]

/-- **C138** (a steady trend): kama falls back, from the lag of its seed (none, or that of the simple average) to `(1 - c) / c` bars, where
`c` is the squared factor of the fast exponential average. -/
theorem C138_trend {u b : K} (hf : 1 ≤ fast) (hs : fast < slow) (hb : b ≠ 0) (ha : Trend a n 1 u b 0) (hp : 1 ≤ p) (hn : p ≤ n) (last : Bool) :
    Gives (Ind.kama (fin fast) (fin slow) 1 (if last then .last else .avg) p a) fun r => Shows r n (p + 1) fun i =>
      u + b * (i - ((1 - squared fast) / squared fast -
        ((1 - squared fast) / squared fast - (if last then 0 else ((p : K) - 1) / 2)) * (1 - squared fast) ^ (i + 1 - p))) := by
  have hx : ∀ k : ℕ, 1 ≤ k → (u + b * ((k : K) - 0)) - (u + b * (((k - 1 : ℕ) : K) - 0)) = b := fun k hk => by
    rw [Nat.cast_sub hk]; push_cast; ring
  have hm : ∀ i, p ≤ i → i < n → Moved (fun i : ℕ => u + b * ((i : K) - 0)) p i := fun i h1 h2 => ⟨0, by omega, fun h => by
    have := hx (i - 0) (by omega)
    rw [sub_eq_zero.2 h] at this
    exact hb this.symm⟩
  have ho : ∀ i, p ≤ i → OneWay (fun i : ℕ => u + b * ((i : K) - 0)) p i := fun i h1 => by
    rcases lt_or_gt_of_ne hb with h | h
    · exact Or.inr fun j hj => by have := hx (i - j) (by omega); dsimp only; linarith
    · exact Or.inl fun j hj => by have := hx (i - j) (by omega); dsimp only; linarith
  have hc : squared fast ≠ 0 := by
    have : 0 < fast + 1 := by linarith
    unfold squared; positivity
  refine (C19_kama_partial (by linarith) (by linarith) ha hp (le_refl 1) (by omega) last fun i h1 h2 =>
    (volatility_pos (hm i (by omega) h2)).ne').imp fun r hr => shows_congr hr rfl fun i h1 h2 => ?_
  have key : ∀ j : ℕ, p - 1 + j < n → adaptive (kamaFactor fast slow (fun i : ℕ => u + b * ((i : K) - 0)) p 1) (fun i : ℕ => u + b * ((i : K) - 0)) (p - 1)
      (kamaSeed last (fun i : ℕ => u + b * ((i : K) - 0)) p (p - 1)) j = u + b * ((p - 1 + j : ℕ) - ((1 - squared fast) / squared fast -
        ((1 - squared fast) / squared fast - (if last then 0 else ((p : K) - 1) / 2)) * (1 - squared fast) ^ j)) := by
    intro j
    induction j with
    | zero =>
      intro _
      rw [adaptive]
      unfold kamaSeed
      cases last
      · simp only [Bool.false_eq_true, if_false]
        rw [winMean_trend u b 0 hp (by omega)]
        simp only [pow_zero, add_zero]; ring
      · simp only [if_true, pow_zero, add_zero]; ring
    | succ j ih =>
      intro hj
      rw [adaptive, ih (by omega), ((kamaFactor_adapts hf hs (by omega) (hm _ (by omega) (by omega))).2.2.1).2 (ho _ (by omega))]
      generalize squared fast = c at *
      generalize (if last = true then (0 : K) else ((p : K) - 1) / 2) = d
      push_cast
      field_simp
      ring
  have := key (i + 1 - p) (by omega)
  rw [show p - 1 + (i + 1 - p) = i by omega] at this
  rw [show p + 1 - 2 = p - 1 by omega, show i - (p - 1) = i + 1 - p by omega, this]

/-! ### concrete cases -/

/-- prices which go up and come back -/
def zigzag : ℕ → ℚ := fun i => if i % 4 = 3 then 1 else (i % 4 : ℕ)

example : Gives (Ind.kama (fin 2) (fin 30) 1 .avg 2 (bars 8 zigzag)) fun r => ∀ i, 2 ≤ i → i + 1 < 8 →
    ∃ v c : ℚ, r.series[i]? = some (fin v) ∧ r.series[i + 1]? = some (fin (v + c * (zigzag (i + 1) - v))) ∧
      squared 30 ≤ c ∧ c ≤ squared 2 ∧ (c = squared 2 ↔ OneWay zigzag 2 (i + 1)) ∧ (c = squared 30 ↔ zigzag (i + 1) = zigzag (i + 1 - 2)) :=
  C138_step (last := false) (by norm_num) (by norm_num) (bars_holds 8 zigzag) (by omega) (by omega) fun i h1 h2 => ⟨0, by omega, by
    unfold zigzag
    interval_cases i <;> norm_num⟩

/-- both ends are reached: prices moved one way up to bar 2, and are back at bar 3 -/
example : OneWay zigzag 2 2 ∧ ¬ OneWay zigzag 2 3 ∧ zigzag 3 = zigzag 1 := by
  unfold OneWay
  refine ⟨Or.inl fun j hj => ?_, ?_, ?_⟩
  · unfold zigzag; interval_cases j <;> norm_num
  · rintro (h | h)
    · exact absurd (h 0 (by omega)) (by unfold zigzag; norm_num)
    · exact absurd (h 1 (by omega)) (by unfold zigzag; norm_num)
  · unfold zigzag; norm_num

example : Gives (Ind.kama (fin 2) (fin 30) 1 .last 2 (bars 6 fun i => (5 : ℚ) + 3 * (i - 0))) fun r => Shows r 6 3 fun i =>
    5 + 3 * (i - ((1 - squared 2) / squared 2 - ((1 - squared 2) / squared 2 - 0) * (1 - squared 2) ^ (i + 1 - 2))) :=
  C138_trend (last := true) (by norm_num) (by norm_num) (by norm_num) (bars_holds 6 _) (by omega) (by omega)

end Bta
