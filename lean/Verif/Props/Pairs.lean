import Verif.Props.Stat

/-!
# Two lines compared: correlation and beta (C139)
-/

set_option linter.unusedSectionVars false

namespace Spec
variable {K : Type} [Field K] [LinearOrder K] [IsStrictOrderedRing K]

/-- in the `p` bars up to bar `i`, `y` is `s` times `x` plus a fixed amount -/
def Moves (x y : ℕ → K) (p i : ℕ) (s : K) : Prop := ∃ t, ∀ k, k < p → y (i - k) = s * x (i - k) + t

/-- an exact square root (`sq` is the one the library uses) -/
def ExactRoot (sq : Bta.Ext K → Bta.Ext K) (s : K → K) : Prop :=
  (∀ v, 0 ≤ v → sq (.fin v) = .fin (s v)) ∧ ∀ v, 0 ≤ v → 0 ≤ s v ∧ s v * s v = v

end Spec

namespace Bta
open Line Ext Ind Spec Finset

variable {K : Type} [Field K] [LinearOrder K] [IsStrictOrderedRing K]
variable {a b c : Line (Ext K)} {n m m' m'' p i : ℕ} {x y z : ℕ → K} {sq : Ext K → Ext K} {s : K → K}

theorem winCov_comm (x y : ℕ → K) (p i : ℕ) : winCov x y p i = winCov y x p i := by
  unfold winCov
  congr 1
  exact sum_congr rfl fun k _ => mul_comm _ _

theorem winCov_self (x : ℕ → K) (p i : ℕ) : winCov x x p i = winVar 1 x p i := by
  unfold winCov winVar
  rw [Nat.cast_one]
  congr 1
  exact sum_congr rfl fun k _ => (sq _).symm

theorem moves_mean (hp : 1 ≤ p) {u t : K} (h : ∀ k, k < p → y (i - k) = u * x (i - k) + t) :
    winMean y p i = u * winMean x p i + t := by
  have hk : (p : K) ≠ 0 := by exact_mod_cast (by omega : p ≠ 0)
  unfold winMean winSum
  rw [sum_congr rfl fun k hk => h k (mem_range.1 hk), sum_add_distrib, ← mul_sum]
  simp only [sum_const, card_range, nsmul_eq_mul]
  field_simp

theorem moves_cov (hp : 1 ≤ p) {u : K} (h : Moves x y p i u) : winCov x y p i = u * winVar 1 x p i ∧ winVar 1 y p i = u ^ 2 * winVar 1 x p i := by
  obtain ⟨t, h⟩ := h
  have hm := moves_mean hp h
  constructor
  · rw [← winCov_self]
    unfold winCov
    rw [← mul_div_assoc, mul_sum]
    congr 1
    exact sum_congr rfl fun k hk => by rw [hm, h k (mem_range.1 hk)]; ring
  · unfold winVar
    rw [← mul_div_assoc, mul_sum]
    congr 1
    exact sum_congr rfl fun k hk => by rw [hm, h k (mem_range.1 hk)]; ring

theorem flat_var (hp : 2 ≤ p) : Flat x p i ↔ winVar 1 x p i = 0 := by
  have hpk : (2 : K) ≤ p := by exact_mod_cast hp
  have h1 : (p : K) - 1 ≠ 0 := by linarith
  rw [flat_iff_sum (by omega)]
  unfold winVar
  rw [Nat.cast_one, div_eq_zero_iff]
  exact ⟨Or.inl, fun h => h.resolve_right h1⟩

/-- equality in the inequality of Cauchy and Schwarz -/
theorem moves_of_cov (hp : 2 ≤ p) (hx : ¬ Flat x p i) (h : winCov x y p i ^ 2 = winVar 1 x p i * winVar 1 y p i) :
    Moves x y p i (winCov x y p i / winVar 1 x p i) := by
  have hpk : (2 : K) ≤ p := by exact_mod_cast hp
  have h1 : (p : K) - 1 ≠ 0 := by linarith
  have hv : winVar 1 x p i ≠ 0 := fun h' => hx ((flat_var hp).2 h')
  have ex : ∑ k ∈ range p, (x (i - k) - winMean x p i) ^ 2 = winVar 1 x p i * ((p : K) - 1) := by
    unfold winVar; rw [Nat.cast_one, div_mul_cancel₀ _ h1]
  have ey : ∑ k ∈ range p, (y (i - k) - winMean y p i) ^ 2 = winVar 1 y p i * ((p : K) - 1) := by
    unfold winVar; rw [Nat.cast_one, div_mul_cancel₀ _ h1]
  have ec : ∑ k ∈ range p, (x (i - k) - winMean x p i) * (y (i - k) - winMean y p i) = winCov x y p i * ((p : K) - 1) := by
    unfold winCov; rw [div_mul_cancel₀ _ h1]
  set u := winCov x y p i / winVar 1 x p i with hu
  have hz : ∑ k ∈ range p, ((y (i - k) - winMean y p i) - u * (x (i - k) - winMean x p i)) ^ 2 = 0 := by
    have e : ∀ k ∈ range p, ((y (i - k) - winMean y p i) - u * (x (i - k) - winMean x p i)) ^ 2 =
        (y (i - k) - winMean y p i) ^ 2 - 2 * u * ((x (i - k) - winMean x p i) * (y (i - k) - winMean y p i)) +
          u ^ 2 * (x (i - k) - winMean x p i) ^ 2 := fun k _ => by ring
    rw [sum_congr rfl e, sum_add_distrib, sum_sub_distrib, ← mul_sum, ← mul_sum, ex, ey, ec]
    have hc : winCov x y p i = u * winVar 1 x p i := by rw [hu, div_mul_cancel₀ _ hv]
    have hy : winVar 1 y p i = u ^ 2 * winVar 1 x p i := by
      rw [hc] at h
      refine mul_left_cancel₀ hv ?_
      rw [← h]; ring
    rw [hc, hy]; ring
  refine ⟨winMean y p i - u * winMean x p i, fun k hk => ?_⟩
  have := (sum_eq_zero_iff_of_nonneg fun k _ => sq_nonneg _).1 hz k (mem_range.2 hk)
  have := pow_eq_zero_iff (two_ne_zero) |>.1 this
  linarith

/-- **C139** The correlation does not depend on the order of the two lines. -/
theorem C139_symmetric (ha : Holds a n m x) (hb : Holds b n m y) (hp : 2 ≤ p) (hs : ExactRoot sq s) :
    Ind.correl sq p a b = Ind.correl sq p b a := by
  obtain ⟨ρ, r1, r2⟩ := C33_correl ha hb (le_refl m) hp hs.1 hs.2
  obtain ⟨σ, s1, s2⟩ := C33_correl hb ha (le_refl m) hp hs.1 hs.2
  refine Rep.ext r1 s1 fun i h1 h2 => ?_
  by_cases hf : Flat x p i ∨ Flat y p i
  · rw [(r2 i h1 h2).1 hf, (s2 i h1 h2).1 hf.symm]
  · obtain ⟨c, c1, c2, -⟩ := (r2 i h1 h2).2 hf
    obtain ⟨d, d1, d2, -⟩ := (s2 i h1 h2).2 fun h => hf h.symm
    rw [c1, d1, c2, d2, winCov_comm, mul_comm (s _)]

/-- **C139** The correlation is 1 exactly if, in the last `p` bars, the one line is a positive multiple of the other one plus a fixed amount,
and -1 exactly if it is a negative multiple. -/
theorem C139_perfect (ha : Holds a n m x) (hb : Holds b n m y) (hp : 2 ≤ p) (hs : ExactRoot sq s) {i : ℕ} (h1 : m + p - 1 ≤ i + 1)
    (h2 : i < n) (hx : ¬ Flat x p i) (hy : ¬ Flat y p i) :
    ((Ind.correl sq p a b).series[i]? = some (fin 1) ↔ ∃ u, 0 < u ∧ Moves x y p i u) ∧
      ((Ind.correl sq p a b).series[i]? = some (fin (-1)) ↔ ∃ u, u < 0 ∧ Moves x y p i u) := by
  obtain ⟨ρ, r1, r2⟩ := C33_correl ha hb (le_refl m) hp hs.1 hs.2
  obtain ⟨c, c1, c2, -⟩ := (r2 i h1 h2).2 (by rintro (h | h) <;> contradiction)
  rw [r1.val i h1 h2, c1]
  have nx := winVar_nonneg x i (show 1 < p by omega)
  have ny := winVar_nonneg y i (show 1 < p by omega)
  have vx : winVar 1 x p i ≠ 0 := fun h' => hx ((flat_var hp).2 h')
  have vy : winVar 1 y p i ≠ 0 := fun h' => hy ((flat_var hp).2 h')
  obtain ⟨px, rx⟩ := hs.2 _ nx
  obtain ⟨py, ry⟩ := hs.2 _ ny
  have gx : 0 < s (winVar 1 x p i) := lt_of_le_of_ne px fun q => vx (by rw [← rx, ← q, zero_mul])
  have gy : 0 < s (winVar 1 y p i) := lt_of_le_of_ne py fun q => vy (by rw [← ry, ← q, zero_mul])
  have g := mul_pos gx gy
  have vx' : 0 < winVar 1 x p i := lt_of_le_of_ne nx (Ne.symm vx)
  have fwd : ∀ e : K, e ^ 2 = 1 → c = e → Moves x y p i (winCov x y p i / winVar 1 x p i) ∧
      winCov x y p i = e * (s (winVar 1 x p i) * s (winVar 1 y p i)) := by
    intro e he hc
    have hcov : winCov x y p i = e * (s (winVar 1 x p i) * s (winVar 1 y p i)) := by rw [← hc, c2, div_mul_cancel₀ _ g.ne']
    refine ⟨moves_of_cov hp hx ?_, hcov⟩
    rw [hcov, mul_pow, he, one_mul, mul_pow, pow_two, pow_two, rx, ry]
  have bwd : ∀ u, u ≠ 0 → Moves x y p i u → c = u / |u| := by
    intro u hu h
    obtain ⟨k1, k2⟩ := moves_cov (by omega) h
    have : s (winVar 1 y p i) = |u| * s (winVar 1 x p i) := by
      refine (mul_self_inj gy.le (by positivity)).1 ?_
      rw [ry, k2, mul_mul_mul_comm, rx, abs_mul_abs_self]; ring
    rw [c2, k1, this, mul_left_comm, rx]
    have : |u| ≠ 0 := abs_ne_zero.2 hu
    field_simp
  refine ⟨⟨fun h => ?_, fun ⟨u, hu, h⟩ => ?_⟩, fun h => ?_, fun ⟨u, hu, h⟩ => ?_⟩
  · obtain ⟨k1, k2⟩ := fwd 1 (by norm_num) (by simpa using h)
    refine ⟨_, div_pos ?_ vx', k1⟩
    rw [k2]; linarith
  · rw [bwd u hu.ne' h, abs_of_pos hu, div_self hu.ne']
  · obtain ⟨k1, k2⟩ := fwd (-1) (by norm_num) (by simpa using h)
    refine ⟨_, div_neg_of_neg_of_pos ?_ vx', k1⟩
    rw [k2]; linarith
  · rw [bwd u hu.ne h, abs_of_neg hu, div_neg, div_self hu.ne]

/-! ### beta -/

/-- the numerator of `beta` -/
def xyDet (x y : ℕ → K) (p i : ℕ) : K :=
  p * ∑ k ∈ range p, x (i - k) * y (i - k) - (∑ k ∈ range p, x (i - k)) * ∑ k ∈ range p, y (i - k)

theorem xyDet_cov (x y : ℕ → K) (hp : 2 ≤ p) : xyDet x y p i = p * (p - 1) * winCov x y p i := by
  have hpk : (2 : K) ≤ p := by exact_mod_cast hp
  have h0 : (p : K) ≠ 0 := by linarith
  have h1 : (p : K) - 1 ≠ 0 := by linarith
  rw [← cov_split x y hp]
  unfold xyDet winSum
  field_simp

theorem lsDet_xy (x : ℕ → K) (p i : ℕ) : lsDet (fun k => x (i - k)) p = xyDet x x p i := by
  unfold lsDet xyDet
  rw [pow_two, sum_congr rfl fun k _ => pow_two (x (i - k))]

theorem flat_det (hp : 1 ≤ p) (h : Flat x p i) : xyDet x y p i = 0 := by
  have e : ∀ k ∈ range p, x (i - k) = x (i - 0) := fun k hk => h k 0 (mem_range.mp hk) (by omega)
  unfold xyDet
  rw [sum_congr rfl fun k hk => by rw [e k hk], ← mul_sum, sum_congr rfl e]
  simp only [sum_const, card_range, nsmul_eq_mul]
  ring

/-- what beta (of prices) shows: nothing while the first line does not move, else the covariance of the lines over the variance of the first -/
theorem beta_value (ha : Holds a n m x) (hb : Holds b n m' y) (hp : 1 ≤ p) :
    Delivers (Ind.beta false 1 p a b) n (max m m' + p - 1) fun i =>
      if lsDet (fun k => x (i - k)) p = 0 then nan else fin (xyDet x y p i / lsDet (fun k => x (i - k)) p) := by
  refine (beta_core ha hb hp).congr rfl fun i h1 h2 => ?_
  show fin (xyDet x y p i) / _ = _
  by_cases h : lsDet (fun k => x (i - k)) p = 0
  · rw [if_pos h, h, flat_det hp ((lsDet_flat hp).1 h), Ext.fin_div_zero]
    simp [Ext.infSign]
  · rw [if_neg h, Ext.fin_div _ h]

/-- **C139** beta of a line which moves `u` times as much as the first one is `u`; so it is 1 for the line itself, and 0 for a line which does
not move. -/
theorem C139_beta_multiple (ha : Holds a n m x) (hb : Holds b n m' y) (hp : 1 ≤ p) {i : ℕ} (h1 : max m m' + p - 1 ≤ i + 1) (h2 : i < n)
    (hx : ¬ Flat x p i) {u : K} (h : Moves x y p i u) : (Ind.beta false 1 p a b).series[i]? = some (fin u) := by
  have hD : lsDet (fun k => x (i - k)) p ≠ 0 := fun h' => hx ((lsDet_flat hp).1 h')
  rw [(beta_value ha hb hp).val i h1 h2, if_neg hD]
  congr 2
  rw [div_eq_iff hD, lsDet_xy]
  obtain ⟨t, h⟩ := h
  unfold xyDet
  rw [sum_congr rfl fun k hk => by rw [h k (mem_range.1 hk), mul_add, mul_left_comm], sum_add_distrib, ← mul_sum, ← sum_mul,
    sum_congr rfl fun k hk => h k (mem_range.1 hk), sum_add_distrib, ← mul_sum]
  simp only [sum_const, card_range, nsmul_eq_mul]
  ring

/-- **C139** beta of a combination of two lines is the combination of their betas, as lines. -/
theorem C139_beta_combination (ha : Holds a n m x) (hb : Holds b n m' y) (hc : Holds c n m'' z) (hp : 1 ≤ p) (u v : K) :
    Ind.beta false 1 p a (rmulS (fin u) b + rmulS (fin v) c) =
      rmulS (fin u) (Ind.beta false 1 p a b) + rmulS (fin v) (Ind.beta false 1 p a c) := by
  have e1 := beta_value ha (Holds.add (Holds.rmulS hb u).toRepW (Holds.rmulS hc v).toRepW).toRepW hp
  have e2 := rep_add (rep_rmulS (beta_value ha hb hp).toRepW (fin u)).toRepW (rep_rmulS (beta_value ha hc hp).toRepW (fin v)).toRepW
  have hm := ha.pos
  refine (e1.congr (m' := max (max m m' + p - 1) (max m m'' + p - 1)) (by omega) fun _ _ _ => rfl).ext e2 fun i h1 h2 => ?_
  by_cases h : lsDet (fun k => x (i - k)) p = 0
  · rw [if_pos h, if_pos h, if_pos h]; simp
  · rw [if_neg h, if_neg h, if_neg h, Ext.fin_mul, Ext.fin_mul, Ext.fin_add]
    congr 1
    rw [← mul_div_assoc, ← mul_div_assoc, ← add_div]
    congr 1
    unfold xyDet
    rw [sum_congr rfl fun k _ => show x (i - k) * (u * y (i - k) + v * z (i - k)) =
      u * (x (i - k) * y (i - k)) + v * (x (i - k) * z (i - k)) by ring]
    simp only [sum_add_distrib, ← mul_sum]
    ring

/-- **C139** The product of the betas of two lines against each other is the square of their correlation. -/
theorem C139_beta_correl (ha : Holds a n m x) (hb : Holds b n m y) (hp : 2 ≤ p) (hs : ExactRoot sq s) {i : ℕ} (h1 : m + p - 1 ≤ i + 1)
    (h2 : i < n) (hx : ¬ Flat x p i) (hy : ¬ Flat y p i) :
    ∃ β γ ρ : K, (Ind.beta false 1 p a b).series[i]? = some (fin β) ∧ (Ind.beta false 1 p b a).series[i]? = some (fin γ) ∧
      (Ind.correl sq p a b).series[i]? = some (fin ρ) ∧ β * γ = ρ ^ 2 := by
  obtain ⟨ρ, r1, r2⟩ := C33_correl ha hb (le_refl m) hp hs.1 hs.2
  obtain ⟨c, c1, c2, -⟩ := (r2 i h1 h2).2 (by rintro (h | h) <;> contradiction)
  have hDx : lsDet (fun k => x (i - k)) p ≠ 0 := fun h' => hx ((lsDet_flat (by omega)).1 h')
  have hDy : lsDet (fun k => y (i - k)) p ≠ 0 := fun h' => hy ((lsDet_flat (by omega)).1 h')
  refine ⟨_, _, c, by rw [(beta_value ha hb (by omega)).val i (by omega) h2, if_neg hDx],
    by rw [(beta_value hb ha (by omega)).val i (by omega) h2, if_neg hDy], by rw [r1.val i h1 h2, c1], ?_⟩
  have hpk : (2 : K) ≤ p := by exact_mod_cast hp
  have h0 : (p : K) ≠ 0 := by linarith
  have h1 : (p : K) - 1 ≠ 0 := by linarith
  rw [lsDet_xy] at hDx hDy ⊢
  rw [lsDet_xy]
  rw [xyDet_cov _ _ hp, winCov_self] at hDx hDy
  simp only [xyDet_cov _ _ hp, winCov_self]
  rw [winCov_comm y x, c2, div_pow, mul_pow, pow_two (s (winVar 1 x p i)), pow_two (s (winVar 1 y p i)),
    (hs.2 _ (winVar_nonneg x i (show 1 < p by omega))).2, (hs.2 _ (winVar_nonneg y i (show 1 < p by omega))).2]
  have vx : winVar 1 x p i ≠ 0 := fun h => hDx (by rw [h, mul_zero])
  have vy : winVar 1 y p i ≠ 0 := fun h => hDy (by rw [h, mul_zero])
  field_simp

/-- **C139** The slope of the regression line is the beta against the number of the bar. -/
theorem C139_slope {t : Line (Ext K)} (ha : Holds a n m x) (ht : Holds t n m' fun i => (i : K)) (hm : m' ≤ m) (hp : 2 ≤ p) :
    Ind.linregSlope p a = Ind.beta false 1 p t a := by
  have hpos := ha.pos
  obtain ⟨s, y, h1, h2, -⟩ := C32_linreg ha hp
  obtain ⟨β, b1, b2⟩ := C33_beta ht ha (show 1 ≤ p by omega)
  refine Rep.ext h2 (b1.congr (m' := m + p - 1) (by omega) fun _ _ _ => rfl) fun i q1 q2 => ?_
  have hnf : ¬ Flat (fun i : ℕ => (i : K)) p i := fun h => by
    have h' : ((i - 0 : ℕ) : K) = ((i - 1 : ℕ) : K) := h 0 1 (by omega) (by omega)
    have : (i - 0 : ℕ) = i - 1 := by exact_mod_cast h'
    omega
  obtain ⟨u, d, e1, e2⟩ := (b2 i).2 hnf
  rw [e1]
  congr 1
  have hb := (h1 i q1 q2 (s i) (y i)).2 ⟨rfl, rfl⟩
  refine ((e2 (s i) (y i - s i * i)).1 fun s' c' => ?_).1
  have key : ∀ s' c' : K, sse (fun k => ((i - k : ℕ) : K)) (fun k => x (i - k)) p s' c' =
      ∑ k ∈ range p, (x (i - k) - ((c' + s' * i) - s' * k)) ^ 2 := fun s' c' => by
    unfold sse
    refine sum_congr rfl fun k hk => ?_
    have := mem_range.1 hk
    beta_reduce
    rw [Nat.cast_sub (show k ≤ i by omega)]
    ring
  show sse (fun k => ((i - k : ℕ) : K)) (fun k => x (i - k)) p _ _ ≤ sse (fun k => ((i - k : ℕ) : K)) (fun k => x (i - k)) p _ _
  rw [key, key, sub_add_cancel]
  exact hb s' (c' + s' * i)

/-! ### concrete cases -/

example : ¬ Flat (fun i => ((i * i : ℕ) : ℚ)) 3 4 ∧ Moves (fun i => ((i * i : ℕ) : ℚ)) (fun i => 5 - 2 * ((i * i : ℕ) : ℚ)) 3 4 (-2) :=
  ⟨fun h => absurd (h 0 1 (by omega) (by omega)) (by norm_num), 5, fun k _ => by ring⟩
example : Ind.beta false 1 3 (bars 5 fun i => ((i * i : ℕ) : ℚ)) (bars 5 fun i => 5 - 2 * ((i * i : ℕ) : ℚ)) =
    ⟨[.nan, .nan, .fin (-2), .fin (-2), .fin (-2)], 3⟩ := by decide +kernel
example : Ind.linregSlope 3 (bars 5 fun i => ((i * i : ℕ) : ℚ)) = Ind.beta false 1 3 (bars 5 fun i => (i : ℚ)) (bars 5 fun i => ((i * i : ℕ) : ℚ)) :=
  C139_slope (bars_holds _ _) (bars_holds _ _) (le_refl 1) (by omega)
/-- the square root of the real numbers -/
noncomputable def realRoot : Ext ℝ → Ext ℝ
  | .fin v => .fin (Real.sqrt v)
  | v => v

theorem realRoot_exact : ExactRoot realRoot Real.sqrt :=
  ⟨fun _ _ => rfl, fun v hv => ⟨Real.sqrt_nonneg v, Real.mul_self_sqrt hv⟩⟩

example : (Ind.correl realRoot 3 (bars 5 fun i => ((i * i : ℕ) : ℝ)) (bars 5 fun i => 5 - 2 * ((i * i : ℕ) : ℝ))).series[4]? =
    some (fin (-1) : Ext ℝ) :=
  (C139_perfect (bars_holds _ _) (bars_holds _ _) (by omega) realRoot_exact (by omega) (by omega)
    (fun h => absurd (h 0 1 (by omega) (by omega)) (by norm_num)) (fun h => absurd (h 0 1 (by omega) (by omega)) (by norm_num))).2.2
    ⟨-2, by norm_num, 5, fun k _ => by ring⟩

end Bta
