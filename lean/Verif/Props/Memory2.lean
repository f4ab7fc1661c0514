import Verif.Props.Memory
import Verif.Props.Osc
import Verif.Props.Price

/-!
# C102 for indicators built on Wilder's average: atr and rsi
-/

set_option linter.unusedSectionVars false
set_option linter.unusedVariables false

namespace Bta
open Line Ext

variable {K : Type} [Field K] [LinearOrder K] [IsStrictOrderedRing K]

/-- **C102** atr: two sets of bars, of whatever lengths, with the same bars from bar `s` of the one (bar `s + d` of the
other) on.  Once both deliver, the atrs differ `k` bars later by exactly `(1 - 1/p)^k` times their difference. -/
theorem C102_atr {h l c h' l' c' : Line (Ext K)} {n n' m m' : ℕ} {H L C H' L' C' : ℕ → K} {p s d : ℕ} (hp : 1 ≤ p)
    (hh : Holds h n m H) (hl : Holds l n m L) (hc : Holds c n m C)
    (hh' : Holds h' n' m' H') (hl' : Holds l' n' m' L') (hc' : Holds c' n' m' C')
    (hv : ∀ i, m ≤ i + 1 → i < n → L i ≤ H i) (hv' : ∀ i, m' ≤ i + 1 → i < n' → L' i ≤ H' i)
    (hn : m + p ≤ n) (hn' : m' + p ≤ n') (hs : m + p ≤ s + d + 1) (hs' : m' + p ≤ s + 1)
    (heq : ∀ j, s ≤ j → j < n' → j + d < n → H (j + d) = H' j ∧ L (j + d) = L' j ∧ C (j + d) = C' j) :
    ∃ r r', Ind.atr Ind.smma 1 p h l c = .ok r ∧ Ind.atr Ind.smma 1 p h' l' c' = .ok r' ∧
      ∀ k, s + k + d < n → s + k < n' → ∃ v v' u u' : K,
        r.series[s + d]? = some (.fin v) ∧ r'.series[s]? = some (.fin v') ∧
        r.series[s + k + d]? = some (.fin u) ∧ r'.series[s + k]? = some (.fin u') ∧ u - u' = (1 - 1 / (p : K)) ^ k * (v - v') := by
  have := hh.pos
  have := hh'.pos
  have e0 : ext1 p = p - 1 := rfl
  obtain ⟨r, h1, h2, -⟩ := C27_atr smma_isMA smmaF_nonneg hh hl hc (le_refl 1) hp hv (by omega)
  obtain ⟨r', h1', h2', -⟩ := C27_atr smma_isMA smmaF_nonneg hh' hl' hc' (le_refl 1) hp hv' (by omega)
  refine ⟨r, r', h1, h1', fun k hk hk' => ⟨_, _, _, _, h2.val _ (by omega) (by omega), h2'.val _ (by omega) (by omega),
    h2.val _ (by omega) hk, h2'.val _ (by omega) hk', ?_⟩⟩
  refine expAvg_diff (1 / (p : K)) (by omega) (by omega) k fun j h3 h4 => ?_
  obtain ⟨a1, a2, -⟩ := heq j (by omega) (by omega) (by omega)
  obtain ⟨-, -, a3⟩ := heq (j - 1) (by omega) (by omega) (by omega)
  unfold Spec.trueRange
  rw [a1, a2, show j + d - 1 = j - 1 + d from by omega, a3]

/-! ### rsi -/

theorem abs_max_zero (u v : K) : |max u 0 - max v 0| ≤ |u - v| := by
  rcases le_total u 0 with h | h <;> rcases le_total v 0 with h' | h'
  · rw [max_eq_right h, max_eq_right h', sub_self, abs_zero]; exact abs_nonneg _
  · rw [max_eq_right h, max_eq_left h', abs_of_nonpos (by linarith), abs_of_nonpos (by linarith)]; linarith
  · rw [max_eq_left h, max_eq_right h', abs_of_nonneg (by linarith), abs_of_nonneg (by linarith)]; linarith
  · rw [max_eq_left h, max_eq_left h']

theorem fading_up (q : ℕ) : Fading (fun (x : ℕ → K) _ i => max (x i - x (i - q)) 0) q where
  bdd := fun B => ⟨2 * |B|, fun x b i hi hx => by
    have h1 := hx i (by omega) (le_refl _)
    have h2 := hx (i - q) (by omega) (by omega)
    have := le_abs_self B
    rw [abs_le] at h1 h2
    rw [abs_of_nonneg (le_max_right _ _)]
    exact max_le (by linarith) (by positivity)⟩
  fade := fun B ε hε => ⟨ε / 2, by positivity, q, le_refl _, fun x x' b b' s d i hb hb' hi hx hx' hc => by
    have h1 := hc i (by omega) (le_refl _)
    have h2 := hc (i - q) (by omega) (by omega)
    rw [show i + d - q = i - q + d from by omega]
    refine le_trans (abs_max_zero _ _) ?_
    rw [abs_le] at *
    constructor <;> linarith [h1.1, h1.2, h2.1, h2.2]⟩

theorem fading_down (q : ℕ) : Fading (fun (x : ℕ → K) _ i => max (x (i - q) - x i) 0) q where
  bdd := fun B => ⟨2 * |B|, fun x b i hi hx => by
    have h1 := hx i (by omega) (le_refl _)
    have h2 := hx (i - q) (by omega) (by omega)
    have := le_abs_self B
    rw [abs_le] at h1 h2
    rw [abs_of_nonneg (le_max_right _ _)]
    exact max_le (by linarith) (by positivity)⟩
  fade := fun B ε hε => ⟨ε / 2, by positivity, q, le_refl _, fun x x' b b' s d i hb hb' hi hx hx' hc => by
    have h1 := hc i (by omega) (le_refl _)
    have h2 := hc (i - q) (by omega) (by omega)
    rw [show i + d - q = i - q + d from by omega]
    refine le_trans (abs_max_zero _ _) ?_
    rw [abs_le] at *
    constructor <;> linarith [h1.1, h1.2, h2.1, h2.2]⟩

/-- the average of non-negative data is at least what is left of one of them -/
theorem expAvg_ge {a : K} (h0 : 0 ≤ a) (h1 : a ≤ 1) {x : ℕ → K} {b p j : ℕ} (hp : 1 ≤ p) (hj : b + p ≤ j)
    (hx : ∀ i, b ≤ i → 0 ≤ x i) : ∀ k, (1 - a) ^ k * (a * x j) ≤ Spec.expAvg a x b p (j + k) := by
  have nn : ∀ i, b + (p - 1) ≤ i → 0 ≤ Spec.expAvg a x b p i := fun i hi => by
    have hc : Spec.expAvg a (fun _ => (0 : K)) b p i = 0 := by
      have := expAvg_affine (a := a) (x := fun _ => 0) (b := b) (i := i) hp 0 0
      simpa using this
    rw [← hc]
    exact expAvg_mono h0 h1 hp hi fun j h2 _ => hx j h2
  intro k
  induction k with
  | zero =>
    obtain ⟨j, rfl⟩ : ∃ j', j = j' + 1 := ⟨j - 1, by omega⟩
    rw [Nat.add_zero, expAvg_succ a x b p j (by omega), pow_zero, one_mul]
    have := mul_nonneg (sub_nonneg.mpr h1) (nn j (by omega))
    nlinarith
  | succ k ih =>
    rw [show j + (k + 1) = j + k + 1 from rfl, expAvg_succ a x b p _ (by omega), pow_succ]
    have m1 := mul_le_mul_of_nonneg_left ih (sub_nonneg.mpr h1)
    have m2 := mul_nonneg h0 (hx (j + k + 1) (by omega))
    nlinarith

/-- two ratios -/
theorem ratio_close {u v u' v' δ t : K} (hu : 0 ≤ u) (hv : 0 ≤ v) (hu' : 0 ≤ u') (hv' : 0 ≤ v') (ht : 0 < t)
    (h1 : t ≤ u + v) (h2 : t ≤ u' + v') (hd : |u - u'| ≤ δ) (he : |v - v'| ≤ δ) :
    |100 * u / (u + v) - 100 * u' / (u' + v')| ≤ 100 * δ / t := by
  have p1 : 0 < u + v := lt_of_lt_of_le ht h1
  have p2 : 0 < u' + v' := lt_of_lt_of_le ht h2
  have hδ : 0 ≤ δ := le_trans (abs_nonneg _) hd
  have e : 100 * u / (u + v) - 100 * u' / (u' + v') = 100 * ((u - u') * v' - u' * (v - v')) / ((u + v) * (u' + v')) := by
    field_simp
    ring
  rw [e, abs_div, abs_of_pos (mul_pos p1 p2), div_le_div_iff₀ (mul_pos p1 p2) ht, abs_mul, abs_of_pos (by norm_num : (0 : K) < 100)]
  have q1 : |(u - u') * v' - u' * (v - v')| ≤ δ * (u' + v') := by
    refine le_trans (abs_sub _ _) ?_
    rw [abs_mul, abs_mul, abs_of_nonneg hv', abs_of_nonneg hu']
    nlinarith [mul_le_mul_of_nonneg_right hd hv', mul_le_mul_of_nonneg_left he hu']
  have q2 : |(u - u') * v' - u' * (v - v')| * t ≤ δ * (u' + v') * (u + v) :=
    mul_le_mul q1 h1 ht.le (mul_nonneg hδ p2.le)
  nlinarith

/-- **C102** rsi: for data within `-B .. B`, any tolerance `ε` and any `μ` there is a number of bars `N` such that the
rsis of two inputs which hold the same values from bar `s` (resp. `s + d`) on differ by at most `ε` at each bar from `s + N`
on, provided the price moved by at least `μ` in one of the last `p` bars. -/
theorem C102_rsi [Archimedean K] {p q : ℕ} (hp : 1 ≤ p) (B ε μ : K) (hε : 0 < ε) (hμ : 0 < μ) :
    ∃ N : ℕ, ∀ (a a' : Line (Ext K)) (n n' m m' : ℕ) (x x' : ℕ → K) (s d : ℕ), Holds a n m x → Holds a' n' m' x' →
      m + q + (p - 1) ≤ n → m' + q + (p - 1) ≤ n' → m ≤ s + d + 1 → m' ≤ s + 1 →
      (∀ j, m ≤ j + 1 → j < n → |x j| ≤ B) → (∀ j, m' ≤ j + 1 → j < n' → |x' j| ≤ B) →
      (∀ j, s ≤ j → j < n' → j + d < n → x (j + d) = x' j) →
      ∃ r r', Ind.rsi Ind.smma q p a = .ok r ∧ Ind.rsi Ind.smma q p a' = .ok r' ∧ ∀ i, s + N ≤ i → i + d < n → i < n' →
        (∃ j, i < j + p ∧ j ≤ i ∧ μ ≤ |x' j - x' (j - q)|) →
        ∃ v v', r.series[i + d]? = some (.fin v) ∧ r'.series[i]? = some (.fin v') ∧ |v - v'| ≤ ε := by
  have hal := smma_alpha (K := K) hp
  have hpK : (0 : K) < p := by exact_mod_cast hp
  -- what is left of a move after less than p bars
  obtain ⟨t, ht, htle⟩ : ∃ t : K, 0 < t ∧ ∀ k, k < p → ∀ y, μ ≤ y → t ≤ (1 - 1 / (p : K)) ^ k * (1 / (p : K) * y) := by
    rcases Nat.lt_or_ge 1 p with h | h
    · have hq : 0 < 1 - 1 / (p : K) := by
        rw [sub_pos, div_lt_one hpK]
        exact_mod_cast h
      refine ⟨(1 - 1 / (p : K)) ^ p * (1 / (p : K) * μ), by positivity, fun k hk y hy => ?_⟩
      refine mul_le_mul (pow_le_pow_of_le_one hq.le (by linarith [hal.1]) hk.le) ?_ (by positivity) (by positivity)
      exact mul_le_mul_of_nonneg_left hy hal.1
    · obtain rfl : p = 1 := by omega
      refine ⟨μ, hμ, fun k hk y hy => ?_⟩
      obtain rfl : k = 0 := by omega
      simpa using hy
  obtain ⟨δ1, hδ1, N1, hN1, f1⟩ := ((fading_up (K := K) q).comp (fading_smma hp)).fade B (ε * t / 100) (by positivity)
  obtain ⟨δ2, hδ2, N2, hN2, f2⟩ := ((fading_down (K := K) q).comp (fading_smma hp)).fade B (ε * t / 100) (by positivity)
  refine ⟨max N1 N2 + (2 * p + q), fun a a' n n' m m' x x' s d ha ha' hn hn' hs hs' hB hB' hx => ?_⟩
  have := ha.pos
  have := ha'.pos
  have e0 : ext1 p = p - 1 := rfl
  obtain ⟨r, h1, h2⟩ := C21_formula smma_isMA smmaF_mono smmaF_nonneg ha (q := q) hp (by omega)
  obtain ⟨r', h1', h2'⟩ := C21_formula smma_isMA smmaF_mono smmaF_nonneg ha' (q := q) hp (by omega)
  refine ⟨r, r', h1, h1', fun i hi hin hin' ⟨j, j1, j2, j3⟩ => ?_⟩
  have m1 := le_max_left N1 N2
  have m2 := le_max_right N1 N2
  have g1 := f1 x x' (m - 1) (m' - 1) s d i (by omega) (by omega) (by omega) (fun j h3 h4 => hB j (by omega) (by omega))
    (fun j h3 h4 => hB' j (by omega) (by omega)) fun j h3 h4 => by
      rw [hx j h3 (by omega) (by omega), sub_self, abs_zero]; exact hδ1.le
  have g2 := f2 x x' (m - 1) (m' - 1) s d i (by omega) (by omega) (by omega) (fun j h3 h4 => hB j (by omega) (by omega))
    (fun j h3 h4 => hB' j (by omega) (by omega)) fun j h3 h4 => by
      rw [hx j h3 (by omega) (by omega), sub_self, abs_zero]; exact hδ2.le
  have r1 := h2.val (i + d) (by omega) hin
  have r2 := h2'.val i (by omega) hin'
  have u1 : smmaF p (fun i => max (x i - x (i - q)) 0) (m - 1 + q) (i + d) = upAvg smmaF q p m x (i + d) := by
    unfold upAvg; rw [show m - 1 + q = m + q - 1 from by omega]
  have u2 : smmaF p (fun i => max (x' i - x' (i - q)) 0) (m' - 1 + q) i = upAvg smmaF q p m' x' i := by
    unfold upAvg; rw [show m' - 1 + q = m' + q - 1 from by omega]
  have u3 : smmaF p (fun i => max (x (i - q) - x i) 0) (m - 1 + q) (i + d) = downAvg smmaF q p m x (i + d) := by
    unfold downAvg; rw [show m - 1 + q = m + q - 1 from by omega]
  have u4 : smmaF p (fun i => max (x' (i - q) - x' i) 0) (m' - 1 + q) i = downAvg smmaF q p m' x' i := by
    unfold downAvg; rw [show m' - 1 + q = m' + q - 1 from by omega]
  simp only [u1, u2, u3, u4] at g1 g2
  -- the moves seen by both
  have low : ∀ (y : ℕ → K) (b k : ℕ), b + q + p ≤ k + 1 → (∃ j, k < j + p ∧ b + q + p ≤ j + 1 ∧ j ≤ k ∧ μ ≤ |y j - y (j - q)|) →
      1 ≤ b → t ≤ upAvg smmaF q p b y k + downAvg smmaF q p b y k := by
    rintro y b k hk ⟨j, w1, w2, w3, w4⟩ hb
    have n1 := upAvg_nonneg (x := y) smmaF_nonneg (q := q) hp hb (i := k) (by omega)
    have n2 := downAvg_nonneg (x := y) smmaF_nonneg (q := q) hp hb (i := k) (by omega)
    rcases le_total 0 (y j - y (j - q)) with hy | hy
    · rw [abs_of_nonneg hy] at w4
      have := expAvg_ge hal.1 hal.2 (x := fun j => max (y j - y (j - q)) 0) (b := b + q - 1) (j := j) hp (by omega)
        (fun i _ => le_max_right _ _) (k - j)
      rw [show j + (k - j) = k from by omega] at this
      have h3 := htle (k - j) (by omega) (max (y j - y (j - q)) 0) (le_trans w4 (le_max_left _ _))
      have h4 : upAvg smmaF q p b y k = Spec.expAvg (1 / (p : K)) (fun j => max (y j - y (j - q)) 0) (b + q - 1) p k := rfl
      rw [h4] at n1 ⊢
      linarith
    · rw [abs_of_nonpos hy, neg_sub] at w4
      have := expAvg_ge hal.1 hal.2 (x := fun j => max (y (j - q) - y j) 0) (b := b + q - 1) (j := j) hp (by omega)
        (fun i _ => le_max_right _ _) (k - j)
      rw [show j + (k - j) = k from by omega] at this
      have h3 := htle (k - j) (by omega) (max (y (j - q) - y j) 0) (le_trans w4 (le_max_left _ _))
      have h4 : downAvg smmaF q p b y k = Spec.expAvg (1 / (p : K)) (fun j => max (y (j - q) - y j) 0) (b + q - 1) p k := rfl
      rw [h4] at n2 ⊢
      linarith
  have l1 := low x m (i + d) (by omega) ⟨j + d, by omega, by omega, by omega, by
    rw [hx j (by omega) (by omega) (by omega), show j + d - q = j - q + d from by omega,
      hx (j - q) (by omega) (by omega) (by omega)]
    exact j3⟩ ha.pos
  have l2 := low x' m' i (by omega) ⟨j, by omega, by omega, by omega, j3⟩ ha'.pos
  rw [if_neg (lt_of_lt_of_le ht l1).ne'] at r1
  rw [if_neg (lt_of_lt_of_le ht l2).ne'] at r2
  refine ⟨_, _, r1, r2, ?_⟩
  have n1 := upAvg_nonneg (x := x) smmaF_nonneg (q := q) hp ha.pos (i := i + d) (by omega)
  have n2 := downAvg_nonneg (x := x) smmaF_nonneg (q := q) hp ha.pos (i := i + d) (by omega)
  have n3 := upAvg_nonneg (x := x') smmaF_nonneg (q := q) hp ha'.pos (i := i) (by omega)
  have n4 := downAvg_nonneg (x := x') smmaF_nonneg (q := q) hp ha'.pos (i := i) (by omega)
  refine le_trans (ratio_close n1 n2 n3 n4 ht l1 l2 g1 g2) ?_
  rw [div_le_iff₀ ht]
  linarith

/-- C102, why the move is needed: without movement the rsi keeps its value, whatever it was -/
example : (Ind.rsi Ind.smma 1 2 (bars 6 fun i => if i = 0 then (0 : ℚ) else if i = 1 then 2 else 1)).map (·.series[5]?)
      = .ok (some (.fin (200/3))) ∧
    (Ind.rsi Ind.smma 1 2 (bars 6 fun i => if i = 0 then (0 : ℚ) else if i = 1 then 3 else 1)).map (·.series[5]?)
      = .ok (some (.fin 60)) := by decide +kernel

end Bta
