import Verif.Props.Stat
import Verif.Props.More
import Verif.Props.Price
import Mathlib.Algebra.Order.Chebyshev

/-!
# How measures of spread compare (C144)

`mad`, `stddev`, `highest`/`lowest`, `bbands`, `mom` and `truerange` measure how far prices move, each in its own way.  For
all data their numbers satisfy inequalities which do not depend on the prices.
-/

set_option linter.unusedSectionVars false

namespace Bta
open Line Ext Ind Finset

variable {K : Type} [Field K] [LinearOrder K] [IsStrictOrderedRing K] {n m : ℕ} {a h l c : Line (Ext K)} {x H L C : ℕ → K}

theorem winMad_sq_le (x : ℕ → K) {p : ℕ} (hp : 1 ≤ p) (i : ℕ) : Spec.winMad x p i ^ 2 ≤ Spec.winVar 0 x p i := by
  have hk : (0 : K) < p := by exact_mod_cast hp
  have h1 := sq_sum_le_card_mul_sum_sq (s := range p) (f := fun k => |x (i - k) - Spec.winMean x p i|)
  simp only [card_range, sq_abs] at h1
  unfold Spec.winMad Spec.winVar
  rw [div_pow, div_le_div_iff₀ (by positivity) (by simpa using hk)]
  calc _ ≤ ((p : K) * ∑ k ∈ range p, (x (i - k) - Spec.winMean x p i) ^ 2) * ((p : K) - (0 : ℕ)) :=
        mul_le_mul_of_nonneg_right h1 (by simp)
    _ = _ := by push_cast; ring

/-- the variance is at most the product of the distances of the mean from the extremes -/
theorem winVar_le (x : ℕ → K) {p : ℕ} (hp : 1 ≤ p) (i : ℕ) :
    Spec.winVar 0 x p i ≤ (Spec.winMax x p i - Spec.winMean x p i) * (Spec.winMean x p i - Spec.winMin x p i) := by
  have hk : (0 : K) < p := by exact_mod_cast hp
  have hs : ∑ k ∈ range p, x (i - k) = p * Spec.winMean x p i := by
    unfold Spec.winMean Spec.winSum; rw [mul_div_cancel₀ _ hk.ne']
  unfold Spec.winVar
  set M := Spec.winMean x p i
  set T := Spec.winMax x p i
  set B := Spec.winMin x p i
  rw [div_le_iff₀ (by simpa using hk)]
  have h1 : ∑ k ∈ range p, (x (i - k) - M) ^ 2 ≤ ∑ k ∈ range p, ((T + B - 2 * M) * (x (i - k)) + (M ^ 2 - T * B)) := by
    refine sum_le_sum fun k hk => ?_
    have h2 : 0 ≤ (T - x (i - k)) * (x (i - k) - B) :=
      mul_nonneg (sub_nonneg.mpr (Spec.le_winMax x (mem_range.mp hk))) (sub_nonneg.mpr (Spec.winMin_le x (mem_range.mp hk)))
    nlinarith
  refine h1.trans (le_of_eq ?_)
  rw [sum_add_distrib, ← mul_sum, hs, sum_const, card_range, nsmul_eq_mul]
  push_cast
  ring

theorem le_of_sq_le {u v : K} (hv : 0 ≤ v) (h : u * u ≤ v * v) : u ≤ v := by
  by_contra hc
  have hc := lt_of_not_ge hc
  nlinarith

theorem stddev_shows (ha : Holds a n m x) {sq : Ext K → Ext K} {s : K → K} (hsq : ∀ v, 0 ≤ v → sq (fin v) = fin (s v))
    {ddof p : ℕ} (hd : ddof < p) : Shows (Ind.stddev sq ddof p a) n (m + p - 1) fun i => s (Spec.winVar ddof x p i) :=
  (C31_stddev ha sq hd).congr rfl fun i _ _ => hsq _ (winVar_nonneg x i hd)

/-- the root of the variance is at most half the range -/
theorem root_le_half (x : ℕ → K) {s : K → K} (hs : ∀ v, 0 ≤ v → 0 ≤ s v ∧ s v * s v = v) {p : ℕ} (hp : 1 ≤ p) (i : ℕ) :
    s (Spec.winVar 0 x p i) ≤ (Spec.winMax x p i - Spec.winMin x p i) / 2 := by
  obtain ⟨_, h4⟩ := hs _ (winVar_nonneg x i (ddof := 0) (p := p) (by omega))
  have h5 := winVar_le x hp i
  have h6 : Spec.winMin x p i ≤ Spec.winMax x p i := (Spec.winMin_le x (j := 0) hp).trans (Spec.le_winMax x hp)
  refine le_of_sq_le (by linarith) ?_
  rw [h4]
  nlinarith [sq_nonneg (Spec.winMax x p i + Spec.winMin x p i - 2 * Spec.winMean x p i)]

/-- **C144** (mean deviation, standard deviation, range) with an exact root: at every bar the mean absolute deviation is at
most the standard deviation; the square of the latter is at most the product of the distances of the simple average from the
highest and the lowest value; so the standard deviation is at most half the range. -/
theorem C144_spread (ha : Holds a n m x) {sq : Ext K → Ext K} {s : K → K} (hsq : ∀ v, 0 ≤ v → sq (fin v) = fin (s v))
    (hs : ∀ v, 0 ≤ v → 0 ≤ s v ∧ s v * s v = v) {p : ℕ} (hp : 1 ≤ p) :
    ∃ D S T B M : ℕ → K, ∃ avg, Ind.sma p a = .ok avg ∧ Shows (Ind.mad p a) n (m + p - 1) D ∧
      Shows (Ind.stddev sq 0 p a) n (m + p - 1) S ∧ Shows (Ind.highest p a) n (m + p - 1) T ∧
      Shows (Ind.lowest p a) n (m + p - 1) B ∧ Shows avg n (m + p - 1) M ∧
      ∀ i, 0 ≤ D i ∧ D i ≤ S i ∧ S i ^ 2 ≤ (T i - M i) * (M i - B i) ∧ S i ≤ (T i - B i) / 2 := by
  obtain ⟨avg, h1, h2⟩ := C09_sma ha hp
  refine ⟨_, _, _, _, _, avg, h1, shows_congr (mad_shows ha hp) (by omega) fun _ _ _ => rfl, stddev_shows ha hsq (by omega),
    ha.rollMax hp, ha.rollMin hp, h2, fun i => ?_⟩
  obtain ⟨h3, h4⟩ := hs _ (winVar_nonneg x i (ddof := 0) (p := p) (by omega))
  refine ⟨winMad_nonneg x p i, le_of_sq_le h3 ?_, ?_, root_le_half x hs hp i⟩
  · rw [h4, ← pow_two]; exact winMad_sq_le x hp i
  · rw [pow_two, h4]; exact winVar_le x hp i

/-- C144, a case: in real numbers there are such roots -/
example (x : ℕ → ℝ) : ∃ D S T B : ℕ → ℝ, Shows (Ind.mad 20 (bars 100 x)) 100 20 D ∧ Shows (Ind.stddev sqrtR 0 20 (bars 100 x)) 100 20 S ∧
    Shows (Ind.highest 20 (bars 100 x)) 100 20 T ∧ Shows (Ind.lowest 20 (bars 100 x)) 100 20 B ∧
    ∀ i, D i ≤ S i ∧ S i ≤ (T i - B i) / 2 := by
  obtain ⟨D, S, T, B, _, _, _, h1, h2, h3, h4, _, h5⟩ := C144_spread (bars_holds 100 x) (sq := sqrtR) (s := Real.sqrt)
    (fun _ _ => rfl) (fun v hv => ⟨Real.sqrt_nonneg v, Real.mul_self_sqrt hv⟩) (p := 20) (by norm_num)
  exact ⟨D, S, T, B, h1, h2, h3, h4, fun i => ⟨(h5 i).2.1, (h5 i).2.2.2⟩⟩

/-- the bounds are reached: prices 0 and 2 in turn have deviation 1 (also the mean one) and range 2; other prices do not
reach them -/
example : (Ind.mad 4 (bars 5 fun i => (2 * (i % 2 : ℕ) : ℚ))).series = [.nan, .nan, .nan, .fin 1, .fin 1] ∧
    (Ind.var 0 4 (bars 5 fun i => (2 * (i % 2 : ℕ) : ℚ))).series = [.nan, .nan, .nan, .fin 1, .fin 1] ∧
    (Ind.mad 3 exData).series = [.nan, .nan, .fin (10/9), .fin (16/9), .fin (22/9), .fin (28/9)] ∧
    (Ind.var 0 3 exData).series = [.nan, .nan, .fin (14/9), .fin (38/9), .fin (74/9), .fin (122/9)] := by decide +kernel

/-- **C144** (sample and population): `p - 1` times the sample variance is `p` times the variance; so the sample deviation
is never smaller than the deviation. -/
theorem C144_sample (ha : Holds a n m x) {sq : Ext K → Ext K} {s : K → K} (hsq : ∀ v, 0 ≤ v → sq (fin v) = fin (s v))
    (hs : ∀ v, 0 ≤ v → 0 ≤ s v ∧ s v * s v = v) {p : ℕ} (hp : 2 ≤ p) :
    ∃ V V₁ S S₁ : ℕ → K, Shows (Ind.var 0 p a) n (m + p - 1) V ∧ Shows (Ind.var 1 p a) n (m + p - 1) V₁ ∧
      Shows (Ind.stddev sq 0 p a) n (m + p - 1) S ∧ Shows (Ind.stddev sq 1 p a) n (m + p - 1) S₁ ∧
      ∀ i, ((p : K) - 1) * V₁ i = p * V i ∧ V i ≤ V₁ i ∧ S i ≤ S₁ i := by
  refine ⟨_, _, _, _, ha.var (by omega), ha.var (by omega), stddev_shows ha hsq (by omega), stddev_shows ha hsq (by omega),
    fun i => ?_⟩
  have hk : (2 : K) ≤ p := by exact_mod_cast hp
  have h1 : ((p : K) - 1) * Spec.winVar 1 x p i = p * Spec.winVar 0 x p i := by
    unfold Spec.winVar
    push_cast
    have h2 : (p : K) - 1 ≠ 0 := by intro h; linarith
    have h3 : (p : K) ≠ 0 := by intro h; linarith
    rw [sub_zero, mul_div_cancel₀ _ h2, mul_div_cancel₀ _ h3]
  have h0 := winVar_nonneg x i (ddof := 0) (p := p) (by omega)
  have h0' := winVar_nonneg x i (ddof := 1) (p := p) (by omega)
  have h2 : Spec.winVar 0 x p i ≤ Spec.winVar 1 x p i := by nlinarith
  exact ⟨h1, h2, le_of_sq_le (hs _ h0').1 (by rw [(hs _ h0).2, (hs _ h0').2]; exact h2)⟩

/-- **C144** (Bollinger bands): the distance of the upper from the lower band is at most `devs` times the distance of the
highest from the lowest price of the window, whatever the average in the middle. -/
theorem C144_bbands {ma : MA (Ext K)} {F : ℕ → (ℕ → K) → ℕ → ℕ → K} {e : ℕ → ℕ} (hma : IsMA ma F e) (ha : Holds a n m x)
    {p : ℕ} (hp : 1 ≤ p) (hn : m + e p ≤ n) {sq : Ext K → Ext K} {s : K → K} (hsq : ∀ v, 0 ≤ v → sq (fin v) = fin (s v))
    (hs : ∀ v, 0 ≤ v → 0 ≤ s v ∧ s v * s v = v) {devs : K} (hdev : 0 ≤ devs) :
    Gives (Ind.bbands sq ma (fin devs) p a) fun (_, top, bot) => ∃ T B hi lo : ℕ → K,
      Shows top n (max (m + e p) (m + p - 1)) T ∧ Shows bot n (max (m + e p) (m + p - 1)) B ∧
      Shows (Ind.highest p a) n (m + p - 1) hi ∧ Shows (Ind.lowest p a) n (m + p - 1) lo ∧
      ∀ i, T i - B i ≤ devs * (hi i - lo i) := by
  obtain ⟨r, hr, _, h2, h3⟩ := C30_bbands hma ha hp hn hsq devs
  refine ⟨r, hr, _, _, _, _, h2, h3, ha.rollMax hp, ha.rollMin hp, fun i => ?_⟩
  have h4 := mul_le_mul_of_nonneg_left (root_le_half x hs hp i) hdev
  linarith

theorem path_le (x : ℕ → K) (i j : ℕ) : ∀ k, j ≤ k →
    |x (i - j) - x (i - k)| ≤ ∑ t ∈ range k, |x (i - t) - x (i - t - 1)| := by
  intro k
  induction k with
  | zero => intro hj; obtain rfl : j = 0 := by omega
            simp
  | succ k ih =>
    intro hj
    rcases Nat.lt_or_ge k j with h1 | h1
    · obtain rfl : j = k + 1 := by omega
      rw [sub_self, abs_zero]
      exact sum_nonneg fun _ _ => abs_nonneg _
    · rw [sum_range_succ]
      calc |x (i - j) - x (i - (k + 1))| = |(x (i - j) - x (i - k)) + (x (i - k) - x (i - k - 1))| := by
            rw [Nat.sub_sub]; ring_nf
        _ ≤ |x (i - j) - x (i - k)| + |x (i - k) - x (i - k - 1)| := abs_add_le _ _
        _ ≤ _ := add_le_add (ih h1) le_rfl

theorem path_le' (x : ℕ → K) {i j k p : ℕ} (hj : j ≤ p) (hk : k ≤ p) :
    x (i - j) - x (i - k) ≤ ∑ t ∈ range p, |x (i - t) - x (i - t - 1)| := by
  have hm : ∀ q, q ≤ p → ∑ t ∈ range q, |x (i - t) - x (i - t - 1)| ≤ ∑ t ∈ range p, |x (i - t) - x (i - t - 1)| :=
    fun q hq => sum_le_sum_of_subset_of_nonneg (range_mono hq) fun _ _ _ => abs_nonneg _
  rcases le_total j k with h1 | h1
  · exact (le_abs_self _).trans ((path_le x i j k h1).trans (hm k hk))
  · rw [← neg_sub]
    exact (neg_le_abs _).trans ((path_le x i k j h1).trans (hm j hj))

/-- **C144** (path): the absolute changes from bar to bar over `p` bars add up to at least the change over `p` bars in either
direction, and to at least the distance of the highest from the lowest of the `p + 1` prices. -/
theorem C144_path (ha : Holds a n m x) {p : ℕ} (hp : 1 ≤ p) :
    ∃ P D T B : ℕ → K, Shows (Ind.sumN p (Ind.mom 1 a).abs) n (m + p) P ∧ Shows (Ind.mom p a) n (m + p) D ∧
      Shows (Ind.highest (p + 1) a) n (m + p) T ∧ Shows (Ind.lowest (p + 1) a) n (m + p) B ∧
      ∀ i, |D i| ≤ T i - B i ∧ T i - B i ≤ P i := by
  have h1 : Shows (Ind.mom 1 a) n (m + 1) _ := ha.diff 1
  have h2 := Holds.rollSum (Holds.abs h1.toRepW).toRepW hp
  refine ⟨_, _, _, _, shows_congr h2 (by omega) fun _ _ _ => rfl, ha.diff p, shows_congr (ha.rollMax (p := p + 1) (by omega))
    (by omega) fun _ _ _ => rfl, shows_congr (ha.rollMin (p := p + 1) (by omega)) (by omega) fun _ _ _ => rfl, fun i => ⟨?_, ?_⟩⟩
  · have h3 := Spec.le_winMax x (p := p + 1) (i := i) (j := 0) (by omega)
    have h4 := Spec.le_winMax x (p := p + 1) (i := i) (j := p) (by omega)
    have h5 := Spec.winMin_le x (p := p + 1) (i := i) (j := 0) (by omega)
    have h6 := Spec.winMin_le x (p := p + 1) (i := i) (j := p) (by omega)
    simp only [Nat.sub_zero] at h3 h5
    exact abs_le.mpr ⟨by linarith, by linarith⟩
  · obtain ⟨j, hj, h3⟩ := (Spec.winMax_isGreatest x (p := p + 1) (by omega) i).1
    obtain ⟨k, hk, h4⟩ := (Spec.winMin_isLeast x (p := p + 1) (by omega) i).1
    rw [h3, h4]
    exact path_le' x (by omega) (by omega)

/-- the true ranges of consecutive bars, put side by side, cover all prices of the bars -/
theorem trueRange_cover (H L C : ℕ → K) (i : ℕ) : ∀ p, p ≤ i → (∀ t, t ≤ p → L (i - t) ≤ C (i - t) ∧ C (i - t) ≤ H (i - t)) →
    ∀ j k, j < p → k < p → max (C (i - j - 1)) (H (i - j)) - min (C (i - k - 1)) (L (i - k)) ≤
      ∑ t ∈ range p, (max (C (i - t - 1)) (H (i - t)) - min (C (i - t - 1)) (L (i - t))) := by
  intro p
  induction p with
  | zero => intro _ _ j k hj; omega
  | succ p ih =>
    intro hpi hv j k hj hk
    have hnn : ∀ t, t ≤ p → C (i - t) ≤ max (C (i - t - 1)) (H (i - t)) ∧ min (C (i - t - 1)) (L (i - t)) ≤ C (i - t) := fun t ht =>
      ⟨le_max_of_le_right (hv t (by omega)).2, min_le_of_right_le (hv t (by omega)).1⟩
    have ihp := ih (by omega) fun t ht => hv t (by omega)
    rw [sum_range_succ]
    have hp' := hnn p le_rfl
    have key : ∀ u, u < p → max (C (i - u - 1)) (H (i - u)) - C (i - p) ≤
          ∑ t ∈ range p, (max (C (i - t - 1)) (H (i - t)) - min (C (i - t - 1)) (L (i - t))) ∧
        C (i - p) - min (C (i - u - 1)) (L (i - u)) ≤
          ∑ t ∈ range p, (max (C (i - t - 1)) (H (i - t)) - min (C (i - t - 1)) (L (i - t))) := fun u hu => by
      have h1 := ihp u (p - 1) hu (by omega)
      have h2 := ihp (p - 1) u (by omega) hu
      have e : i - (p - 1) - 1 = i - p := by omega
      rw [e] at h1 h2
      have h3 := min_le_left (C (i - p)) (L (i - (p - 1)))
      have h4 := le_max_left (C (i - p)) (H (i - (p - 1)))
      exact ⟨by linarith, by linarith⟩
    rcases Nat.lt_or_ge j p with h1 | h1 <;> rcases Nat.lt_or_ge k p with h2 | h2
    · have := ihp j k h1 h2
      linarith
    · obtain rfl : k = p := by omega
      have := (key j h1).1
      linarith
    · obtain rfl : j = p := by omega
      have := (key k h2).2
      linarith
    · obtain rfl : j = p := by omega
      obtain rfl : k = j := by omega
      have : 0 ≤ ∑ t ∈ range k, (max (C (i - t - 1)) (H (i - t)) - min (C (i - t - 1)) (L (i - t))) :=
        sum_nonneg fun t ht => by
          have := hnn t (mem_range.mp ht).le
          linarith
      linarith

/-- **C144** (true ranges), for bars with `low ≤ close ≤ high`: the true ranges of `p` bars add up to at least the distance of
the highest high from the lowest low of these bars, and to at least the change of the close over `p` bars. -/
theorem C144_truerange (hh : Holds h n m H) (hl : Holds l n m L) (hc : Holds c n m C)
    (hv : ∀ i, m ≤ i + 1 → i < n → L i ≤ C i ∧ C i ≤ H i) {p : ℕ} (hp : 1 ≤ p) :
    ∃ S T B D : ℕ → K, Shows (Ind.sumN p (Ind.truerange 1 h l c)) n (m + p) S ∧ Shows (Ind.highest p h) n (m + p - 1) T ∧
      Shows (Ind.lowest p l) n (m + p - 1) B ∧ Shows (Ind.mom p c) n (m + p) D ∧
      ∀ i, m + p ≤ i + 1 → i < n → T i - B i ≤ S i ∧ |D i| ≤ S i := by
  have hm := hh.pos
  have h1 := (C27_truerange hh hl hc (q := 1) le_rfl fun i h1 h2 => (hv i (by omega) h2).1.trans (hv i (by omega) h2).2).1
  refine ⟨_, _, _, _, shows_congr (Holds.rollSum h1.toRepW hp) (by omega) fun _ _ _ => rfl, hh.rollMax hp, hl.rollMin hp,
    hc.diff p, fun i hi hn => ?_⟩
  have hlh : ∀ t, t < p → L (i - t) ≤ C (i - t) ∧ C (i - t) ≤ H (i - t) := fun t ht => hv (i - t) (by omega) (by omega)
  have e : Spec.winSum (fun i => max (H i - L i) (max |H i - C (i - 1)| |L i - C (i - 1)|)) p i =
      ∑ t ∈ range p, (max (C (i - t - 1)) (H (i - t)) - min (C (i - t - 1)) (L (i - t))) :=
    sum_congr rfl fun t ht => (trueRange_eq ((hlh t (mem_range.mp ht)).1.trans (hlh t (mem_range.mp ht)).2)).symm
  have cov := trueRange_cover H L C i p (by omega) (fun t ht => hv (i - t) (by omega) (by omega))
  rw [e]
  constructor
  · obtain ⟨j, hj, h3⟩ := (Spec.winMax_isGreatest H hp i).1
    obtain ⟨k, hk, h4⟩ := (Spec.winMin_isLeast L hp i).1
    rw [h3, h4]
    have := cov j k hj hk
    have h5 := le_max_right (C (i - j - 1)) (H (i - j))
    have h6 := min_le_right (C (i - k - 1)) (L (i - k))
    linarith
  · have c1 := cov 0 (p - 1) (by omega) (by omega)
    have c2 := cov (p - 1) 0 (by omega) (by omega)
    have e : i - (p - 1) - 1 = i - p := by omega
    rw [e] at c1 c2
    simp only [Nat.sub_zero] at c1 c2
    have h0 := hlh 0 (by omega)
    simp only [Nat.sub_zero] at h0
    have h3 := min_le_left (C (i - p)) (L (i - (p - 1)))
    have h4 := le_max_left (C (i - p)) (H (i - (p - 1)))
    have h5 := le_max_right (C (i - 1)) (H i)
    have h6 := min_le_right (C (i - 1)) (L i)
    exact abs_le.mpr ⟨by linarith, by linarith⟩

/-- C144, a case with a gap between the bars: range of three bars 11, true ranges 3 + 7 + 3 -/
example : (Ind.sumN 3 (Ind.truerange 1 (bars 4 fun i => ([3, 4, 11, 12] : List ℚ).getD i 0) (bars 4 fun i => ([1, 1, 9, 9] : List ℚ).getD i 0)
      (bars 4 fun i => ([2, 4, 10, 11] : List ℚ).getD i 0))).series = [.nan, .nan, .nan, .fin 13] ∧
    (Ind.highest 3 (bars 4 fun i => ([3, 4, 11, 12] : List ℚ).getD i 0)).series = [.nan, .nan, .fin 11, .fin 12] ∧
    (Ind.lowest 3 (bars 4 fun i => ([1, 1, 9, 9] : List ℚ).getD i 0)).series = [.nan, .nan, .fin 1, .fin 1] ∧
    ∀ i < 4, ([1, 1, 9, 9] : List ℚ).getD i 0 ≤ ([2, 4, 10, 11] : List ℚ).getD i 0 ∧
      ([2, 4, 10, 11] : List ℚ).getD i 0 ≤ ([3, 4, 11, 12] : List ℚ).getD i 0 := by decide +kernel

end Bta
