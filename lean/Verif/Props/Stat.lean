import Verif.Lemmas.Stat
import Verif.Props.Ma
import Mathlib.Analysis.Real.Sqrt
import Mathlib.Tactic.IntervalCases

/-!
# Statistics: C30 - C33
-/

set_option linter.unusedSectionVars false
set_option linter.unusedVariables false

namespace Bta
open Line Ext Finset

variable {K : Type} [Field K] [LinearOrder K] [IsStrictOrderedRing K]
variable {a b : Line (Ext K)} {n m m' : ℕ} {x y : ℕ → K}

/-! ## C31 -/

theorem Holds.var (ha : Holds a n m x) {ddof p : ℕ} (hd : ddof < p) :
    Shows (Ind.var ddof p a) n (m + p - 1) fun i => Spec.winVar ddof x p i :=
  (rep_rolling (by omega) ha).congr rfl fun i h1 _ => aggVar_wnd ddof x hd (by have := ha.pos; omega)

theorem winVar_nonneg (x : ℕ → K) {ddof p : ℕ} (i : ℕ) (hd : ddof < p) : 0 ≤ Spec.winVar ddof x p i := by
  have : (ddof : K) < p := by exact_mod_cast hd
  exact div_nonneg (sum_nonneg fun k _ => sq_nonneg _) (by linarith)

/-- the mean of a window lies among its values, so equals all of them if they are equal -/
theorem winMean_const {p i : ℕ} (hp : 1 ≤ p) (c : K) (hc : ∀ k, k < p → x (i - k) = c) : Spec.winMean x p i = c := by
  have hpk : (p : K) ≠ 0 := by exact_mod_cast (by omega : p ≠ 0)
  unfold Spec.winMean Spec.winSum
  rw [sum_congr rfl fun k hk => hc k (mem_range.mp hk)]
  simp only [sum_const, card_range, nsmul_eq_mul]
  field_simp

/-- **C31** var (`ddof = 0`) and var_s (`ddof = 1`): the mean of the squared deviations of the last `p` values from their
mean (divisor `p - ddof`), in the bars with `p` values.  It is not negative, and 0 exactly if the `p` values are equal. -/
theorem C31_var (ha : Holds a n m x) {ddof p : ℕ} (hd : ddof < p) :
    ∃ v, Shows (Ind.var ddof p a) n (m + p - 1) v ∧ ∀ i, m + p - 1 ≤ i + 1 → i < n →
      v i = (∑ k ∈ range p, (x (i - k) - (∑ k ∈ range p, x (i - k)) / p) ^ 2) / ((p : K) - ddof) ∧ 0 ≤ v i ∧
      (v i = 0 ↔ ∀ j k, j < p → k < p → x (i - j) = x (i - k)) := by
  refine ⟨_, ha.var hd, fun i h1 h2 => ⟨rfl, winVar_nonneg x i hd, ?_, ?_⟩⟩
  · intro hz
    have hdk : (ddof : K) < p := by exact_mod_cast hd
    have h3 : ∑ k ∈ range p, (x (i - k) - Spec.winMean x p i) ^ 2 = 0 := by
      rcases div_eq_zero_iff.mp hz with h | h
      · exact h
      · linarith
    have h4 : ∀ k, k < p → x (i - k) = Spec.winMean x p i := fun k hk => by
      have := (sum_eq_zero_iff_of_nonneg fun k _ => sq_nonneg (x (i - k) - Spec.winMean x p i)).mp h3 k (mem_range.mpr hk)
      have := pow_eq_zero_iff (two_ne_zero) |>.mp this
      linarith
    intro j k hj hk
    rw [h4 j hj, h4 k hk]
  · intro hc
    have hm : Spec.winMean x p i = x (i - 0) := winMean_const (by omega) _ fun k hk => hc k 0 hk (by omega)
    unfold Spec.winVar
    rw [sum_eq_zero fun k hk => ?_, zero_div]
    rw [hm, hc k 0 (mem_range.mp hk) (by omega)]
    ring

/-- **C31** (variance of shifted and scaled data): adding a constant to the prices changes nothing, a factor `c` becomes
`c ^ 2`. -/
theorem C31_affine {a' : Line (Ext K)} (ha : Holds a n m x) (c d : K) (ha' : Holds a' n m fun i => c * x i + d) {ddof p : ℕ}
    (hd : ddof < p) :
    ∃ v, Shows (Ind.var ddof p a) n (m + p - 1) v ∧ Shows (Ind.var ddof p a') n (m + p - 1) fun i => c ^ 2 * v i := by
  refine ⟨_, ha.var hd, shows_congr (ha'.var hd) rfl fun i h1 h2 => ?_⟩
  have hpk : (p : K) ≠ 0 := by exact_mod_cast (by omega : p ≠ 0)
  have hm : Spec.winMean (fun i => c * x i + d) p i = c * Spec.winMean x p i + d := by
    unfold Spec.winMean Spec.winSum
    rw [sum_add_distrib, ← mul_sum]
    simp only [sum_const, card_range, nsmul_eq_mul]
    field_simp
  unfold Spec.winVar
  rw [hm, ← mul_div_assoc, mul_sum]
  congr 1
  exact sum_congr rfl fun k _ => by ring

/-- **C31** stddev: the root of the variance, whatever function stands for the root -/
theorem C31_stddev (ha : Holds a n m x) (sq : Ext K → Ext K) {ddof p : ℕ} (hd : ddof < p) :
    Delivers (Ind.stddev sq ddof p a) n (m + p - 1) fun i =>
      sq (fin ((∑ k ∈ range p, (x (i - k) - (∑ k ∈ range p, x (i - k)) / p) ^ 2) / ((p : K) - ddof))) :=
  (rep_rolling (by omega) ha).congr rfl fun i h1 _ => by
    rw [aggVar_wnd ddof x hd (by have := ha.pos; omega)]; rfl

/-- **C31** (boundary): with `ddof = p` (sample variance of one value) there is no number. -/
theorem C31_degenerate (ha : Holds a n m x) {p : ℕ} (hp : 1 ≤ p) :
    Delivers (Ind.var p p a) n (m + p - 1) fun _ => Ext.nan :=
  (rep_rolling hp ha).congr rfl fun i h1 _ => by
    unfold aggVar whenAllFin
    split
    · simp only [wnd_length]; rw [if_neg (by omega)]; rfl
    · rfl

example : Ind.var 0 3 exData = ⟨[.nan, .nan, .fin (14/9), .fin (38/9), .fin (74/9), .fin (122/9)], 3⟩ := by decide +kernel

/-! ## C30 -/

/-- **C30** bbands with any moving average and any `devs`: the middle line is the moving average; the upper and the lower
line are at the distance `devs * stddev` above and below. -/
theorem C30_bbands {ma : MA (Ext K)} {F : ℕ → (ℕ → K) → ℕ → ℕ → K} {e : ℕ → ℕ} (hma : IsMA ma F e) (ha : Holds a n m x)
    {p : ℕ} (hp : 1 ≤ p) (hn : m + e p ≤ n) {sq : Ext K → Ext K} {s : K → K} (hsq : ∀ v, 0 ≤ v → sq (fin v) = fin (s v))
    (devs : K) :
    Gives (Ind.bbands sq ma (fin devs) p a) fun (mid, top, bot) =>
      Shows mid n (m + e p) (F p x (m - 1)) ∧
      Shows top n (max (m + e p) (m + p - 1)) (fun i => F p x (m - 1) i + devs * s (Spec.winVar 0 x p i)) ∧
      Shows bot n (max (m + e p) (m + p - 1)) (fun i => F p x (m - 1) i - devs * s (Spec.winVar 0 x p i)) := by
  unfold Ind.bbands
  refine Gives.bind (P := fun r => Shows r n (m + e p) (F p x (m - 1))) (hma p hp a n m x ha hn) fun mid hmid => ?_
  have hsd : Shows (Ind.stddev sq 0 p a) n (m + p - 1) fun i => s (Spec.winVar 0 x p i) :=
    (C31_stddev ha sq (by omega)).congr rfl fun i h1 h2 => hsq _ (winVar_nonneg x i (ddof := 0) (p := p) (by omega))
  exact ⟨_, rfl, hmid, Holds.add hmid.toRepW (Holds.rmulS hsd.toRepW devs).toRepW,
    Holds.sub hmid.toRepW (Holds.rmulS hsd.toRepW devs).toRepW⟩

/-- **C30** (order), for `devs ≥ 0` and a root without negative results: `bot ≤ mid ≤ top` in every bar, and the three
are equal exactly in the bars with zero deviation (or if `devs` is 0). -/
theorem C30_order {ma : MA (Ext K)} {F : ℕ → (ℕ → K) → ℕ → ℕ → K} {e : ℕ → ℕ} (hma : IsMA ma F e) (ha : Holds a n m x)
    {p : ℕ} (hp : 1 ≤ p) (hn : m + e p ≤ n) {sq : Ext K → Ext K} {s : K → K} (hsq : ∀ v, 0 ≤ v → sq (fin v) = fin (s v))
    (hs : ∀ v, 0 ≤ v → 0 ≤ s v) {devs : K} (hdev : 0 ≤ devs) :
    Gives (Ind.bbands sq ma (fin devs) p a) fun (mid, top, bot) => ∃ M T B,
      Shows mid n (m + e p) M ∧ Shows top n (max (m + e p) (m + p - 1)) T ∧ Shows bot n (max (m + e p) (m + p - 1)) B ∧
      ∀ i, max (m + e p) (m + p - 1) ≤ i + 1 → i < n →
        B i ≤ M i ∧ M i ≤ T i ∧ T i - M i = M i - B i ∧ (T i = B i ↔ devs = 0 ∨ s (Spec.winVar 0 x p i) = 0) := by
  obtain ⟨r, hr, h1, h2, h3⟩ := C30_bbands hma ha hp hn hsq devs
  refine ⟨r, hr, _, _, _, h1, h2, h3, fun i _ _ => ?_⟩
  have hv := mul_nonneg hdev (hs _ (winVar_nonneg x i (ddof := 0) (p := p) (by omega)))
  refine ⟨by linarith, by linarith, by ring, ?_, ?_⟩
  · intro h; exact mul_eq_zero.mp (by linarith)
  · intro h
    have := mul_eq_zero.mpr h
    linarith

/-- the function `v ↦ v` stands for the root here -/
example : Ind.bbands id Ind.sma (fin 2) 3 exData = .ok
    (⟨[.nan, .nan, .fin (7/3), .fin (13/3), .fin (22/3), .fin (34/3)], 3⟩,
     ⟨[.nan, .nan, .fin (49/9), .fin (115/9), .fin (214/9), .fin (346/9)], 3⟩,
     ⟨[.nan, .nan, .fin (-7/9), .fin (-37/9), .fin (-82/9), .fin (-142/9)], 3⟩) := by decide +kernel

/-! ## C32 -/

theorem linreg_core (minus1 : Bool) (ha : Holds a n m x) {p : ℕ} (hp : 2 ≤ p) :
    Shows (Ind.linregBase minus1 p a).1 n (m + p - 1)
      (fun i => lsSlope (fun k => (posBack (if minus1 then 0 else 1) p k : K)) (fun k => x (i - k)) p) ∧
    Shows (Ind.linregBase minus1 p a).2 n (m + p - 1)
      (fun i => lsIcpt (fun k => (posBack (if minus1 then 0 else 1) p k : K)) (fun k => x (i - k)) p) := by
  have hpos := ha.pos
  set q := if minus1 then 0 else 1 with hq
  set X : ℕ → K := fun k => (posBack q p k : K) with hX
  have hpk : (p : K) ≠ 0 := by exact_mod_cast (by omega : p ≠ 0)
  have hsx : (lit ((((p - if minus1 then 1 else 0 : ℕ) : ℚ) * ((p - if minus1 then 1 else 0 : ℕ) + 1) / 2 : ℚ)) : Ext K)
      = fin (∑ k ∈ range p, X k) := by
    rw [hX, sum_posBack (fun k => (k : K)), sum_pos_lin]
    obtain ⟨r, rfl⟩ : ∃ r, p = r + 1 := ⟨p - 1, by omega⟩
    cases minus1 <;> simp [hq] <;> ring
  have hsxx : (lit ((((p - if minus1 then 1 else 0 : ℕ) : ℚ) * ((p - if minus1 then 1 else 0 : ℕ) + 1)
      * (2 * ((p - if minus1 then 1 else 0 : ℕ) : ℚ) + 1) / 6 : ℚ)) : Ext K) = fin (∑ k ∈ range p, X k ^ 2) := by
    rw [hX, sum_posBack (fun k => (k : K) ^ 2), sum_pos_sq]
    obtain ⟨r, rfl⟩ : ∃ r, p = r + 1 := ⟨p - 1, by omega⟩
    cases minus1
    · simp [hq]; ring
    · simp [hq]; left; ring
  have hsy : Shows (Ind.sumN p a) n (m + p - 1) fun i => ∑ k ∈ range p, x (i - k) := ha.rollSum (by omega)
  have hlp : (lit (p : ℚ) : Ext K) = fin (p : K) := by simp
  have hsxy : Shows (rolling p (aggApply fun w => dotV w ((List.range p).map fun j =>
      (lit (((1 - if minus1 then 1 else 0) + j : ℕ) : ℚ) : Ext K))) a) n (m + p - 1)
      fun i => ∑ k ∈ range p, X k * x (i - k) := by
    refine (rep_rolling (by omega) ha).congr rfl fun i h1 h2 => ?_
    have : ((List.range p).map fun j => (lit (((1 - if minus1 then 1 else 0) + j : ℕ) : ℚ) : Ext K))
        = (List.range p).map fun j => fin ((q + j : ℕ) : K) :=
      List.map_congr_left fun j _ => by cases minus1 <;> simp [hq]
    rw [this, aggDot_wnd x (fun j => ((q + j : ℕ) : K)) (by omega)]
    rfl
  have hD : (lit (p : ℚ) * fin (∑ k ∈ range p, X k ^ 2) - fin (∑ k ∈ range p, X k) * fin (∑ k ∈ range p, X k) : Ext K)
      = fin (lsDet X p) := by
    rw [hlp, Ext.fin_mul, Ext.fin_mul, Ext.fin_sub]; unfold lsDet; congr 1; ring
  have hm : Shows (Ind.linregBase minus1 p a).1 n (m + p - 1) (fun i => lsSlope X (fun k => x (i - k)) p) := by
    unfold Ind.linregBase
    simp only []
    rw [hsx, hsxx, hD, hlp]
    exact shows_congr (Holds.divS (Holds.sub (Holds.rmulS hsxy.toRepW _).toRepW (Holds.rmulS hsy.toRepW _).toRepW).toRepW
      (det_pos q hp)) (by omega) fun i _ _ => rfl
  refine ⟨hm, ?_⟩
  have e : (Ind.linregBase minus1 p a).2 = (Ind.sumN p a - (Ind.linregBase minus1 p a).1.mulS (lit
      ((((p - if minus1 then 1 else 0 : ℕ) : ℚ) * ((p - if minus1 then 1 else 0 : ℕ) + 1) / 2 : ℚ)))).divS (lit (p : ℚ)) := rfl
  rw [e, hsx, hlp]
  exact shows_congr (Holds.divS (Holds.sub hsy.toRepW (Holds.mulS hm.toRepW _).toRepW).toRepW hpk) (by omega) fun i _ _ => rfl

theorem best_iff (x : ℕ → K) (q p i : ℕ) (s y : K) :
    Spec.BestLine x p i s y ↔
      Spec.LeastSquares (fun k => (posBack q p k : K)) (fun k => x (i - k)) p s (y - s * (posBack q p 0 : ℕ)) := by
  have e : ∀ s y : K, ∑ k ∈ range p, (x (i - k) - (y - s * k)) ^ 2
      = Spec.sse (fun k => (posBack q p k : K)) (fun k => x (i - k)) p s (y - s * (posBack q p 0 : ℕ)) := fun s y => by
    refine sum_congr rfl fun k hk => ?_
    have hk := mem_range.mp hk
    have h1 : (posBack q p 0 : K) = posBack q p k + k := by
      rw [← Nat.cast_add]; congr 1; unfold posBack; omega
    rw [h1]; ring
  unfold Spec.BestLine Spec.LeastSquares
  constructor
  · intro h s' b'
    have := h s' (b' + s' * (posBack q p 0 : ℕ))
    rw [e, e] at this
    simpa using this
  · intro h s' y'
    rw [e, e]
    exact h _ _

/-- the indicators of `linreg.py` in terms of one line per bar -/
theorem linreg_line (q : ℕ) (x : ℕ → K) {p : ℕ} (hp : 2 ≤ p) (i : ℕ) (s y : K) :
    (Spec.BestLine x p i s y) ↔ (s = lsSlope (fun k => (posBack q p k : K)) (fun k => x (i - k)) p ∧
      y - s * (posBack q p 0 : ℕ) = lsIcpt (fun k => (posBack q p k : K)) (fun k => x (i - k)) p) := by
  rw [best_iff x q p i s y]
  constructor
  · exact fun h => ls_unique _ (by omega) (det_pos q hp) h
  · rintro ⟨h1, h2⟩
    rw [h1] at h2 ⊢
    rw [h2]
    exact ls_best _ (by omega) (det_pos q hp)

/-- **C32** For `p ≥ 2`: in each bar with `p` values there is exactly one line (slope `s i`, value `y i` in the bar itself)
with the least sum of squared distances to the last `p` values; `linearreg_slope` delivers its slope, `linearreg` its value in
the bar itself, `tsf` its value one bar later, `linearreg_intercept` with `_talib` its value in the first bar of the window,
and without `_talib` its value one bar before the window. -/
theorem C32_linreg (ha : Holds a n m x) {p : ℕ} (hp : 2 ≤ p) :
    ∃ s y : ℕ → K, (∀ i, m + p - 1 ≤ i + 1 → i < n → ∀ s' y', Spec.BestLine x p i s' y' ↔ s' = s i ∧ y' = y i) ∧
      Shows (Ind.linregSlope p a) n (m + p - 1) s ∧
      Shows (Ind.linreg p a) n (m + p - 1) y ∧
      Shows (Ind.tsf p a) n (m + p - 1) (fun i => y i + s i) ∧
      Shows (Ind.linregIntercept true p a) n (m + p - 1) (fun i => y i - s i * ((p : K) - 1)) ∧
      Shows (Ind.linregIntercept false p a) n (m + p - 1) (fun i => y i - s i * p) := by
  obtain ⟨hs0, hb0⟩ := linreg_core true ha hp
  obtain ⟨hs1, hb1⟩ := linreg_core false ha hp
  simp only [if_true, Bool.false_eq_true, if_false] at hs0 hb0 hs1 hb1
  set s0 := fun i => lsSlope (fun k => (posBack 0 p k : K)) (fun k => x (i - k)) p with e0
  set b0 := fun i => lsIcpt (fun k => (posBack 0 p k : K)) (fun k => x (i - k)) p with e1
  have hp0 : ((posBack 0 p 0 : ℕ) : K) = (p : K) - 1 := by
    obtain ⟨r, rfl⟩ : ∃ r, p = r + 1 := ⟨p - 1, by omega⟩
    simp [posBack]
  have hp1 : ((posBack 1 p 0 : ℕ) : K) = p := by
    obtain ⟨r, rfl⟩ : ∃ r, p = r + 1 := ⟨p - 1, by omega⟩
    simp [posBack]; ring
  have hl1 : (lit ((p : ℚ) - 1) : Ext K) = fin ((p : K) - 1) := by simp
  have hl : (lit (p : ℚ) : Ext K) = fin (p : K) := by simp
  have hline : ∀ i, s0 i = lsSlope (fun k => (posBack 1 p k : K)) (fun k => x (i - k)) p ∧
      b0 i + s0 i * ((p : K) - 1) - s0 i * p = lsIcpt (fun k => (posBack 1 p k : K)) (fun k => x (i - k)) p := fun i => by
    have h1 := (linreg_line 0 x hp i (s0 i) (b0 i + s0 i * ((p : K) - 1))).mpr ⟨rfl, by rw [hp0]; ring⟩
    have h2 := (linreg_line 1 x hp i _ _).mp h1
    rwa [hp1] at h2
  refine ⟨s0, fun i => b0 i + s0 i * ((p : K) - 1), fun i h1 h2 s' y' => ?_, ?_, ?_, ?_, ?_, ?_⟩
  · rw [linreg_line 0 x hp i, hp0]
    constructor
    · rintro ⟨h3, h4⟩
      have h3' : s' = s0 i := h3
      have h4' : y' - s' * ((p : K) - 1) = b0 i := h4
      exact ⟨h3', by show y' = b0 i + s0 i * _; rw [← h4', ← h3']; ring⟩
    · rintro ⟨h3, h4⟩
      refine ⟨h3, ?_⟩
      rw [h4, h3]
      show b0 i + _ - _ = b0 i
      ring
  · exact shows_congr hs1 rfl fun i _ _ => ((hline i).1).symm
  · unfold Ind.linreg
    rw [hl1]
    exact shows_congr (Holds.add hb0.toRepW (Holds.mulS hs0.toRepW _).toRepW) (by omega) fun i _ _ => rfl
  · unfold Ind.tsf
    rw [hl]
    exact shows_congr (Holds.add hb0.toRepW (Holds.mulS hs0.toRepW _).toRepW) (by omega) fun i _ _ => by ring
  · exact shows_congr hb0 rfl fun i _ _ => by ring
  · exact shows_congr hb1 rfl fun i _ _ => ((hline i).2).symm

/-- **C32** (angle): the arc tangent of the slope, in degrees -/
theorem C32_angle (ha : Holds a n m x) {p : ℕ} (hp : 2 ≤ p) (atan : Ext K → Ext K) (deg : Ext K) :
    ∃ s : ℕ → K, Shows (Ind.linregSlope p a) n (m + p - 1) s ∧
      Delivers (Ind.linregAngle atan deg p a) n (m + p - 1) fun i => atan (fin (s i)) * deg := by
  obtain ⟨hs, _⟩ := linreg_core false ha hp
  exact ⟨_, hs, rep_mulS (rep_mapOp hs.toRepW).toRepW deg⟩

/-- **C32** (prices on a line): the forecast for the next bar is exact, and `linearreg` is the price itself. -/
theorem C32_on_line {p : ℕ} (hp : 2 ≤ p) (A B : K) (ha : Holds a n m fun i => A + B * i) :
    Shows (Ind.linregSlope p a) n (m + p - 1) (fun _ => B) ∧
    Shows (Ind.linreg p a) n (m + p - 1) (fun i => A + B * i) ∧
    Shows (Ind.tsf p a) n (m + p - 1) (fun i => A + B * ((i + 1 : ℕ) : K)) := by
  have hpos := ha.pos
  obtain ⟨s, y, hu, h1, h2, h3, _⟩ := C32_linreg ha hp
  have hb : ∀ i, m + p - 1 ≤ i + 1 → i < n → B = s i ∧ A + B * i = y i := fun i q1 q2 => by
    refine (hu i q1 q2 B (A + B * i)).mp fun s' y' => ?_
    rw [sum_eq_zero fun k hk => ?_]
    · exact sum_nonneg fun k _ => sq_nonneg _
    · have := mem_range.mp hk
      beta_reduce
      rw [Nat.cast_sub (by omega)]
      ring
  refine ⟨shows_congr h1 rfl fun i q1 q2 => (hb i q1 q2).1.symm, shows_congr h2 rfl fun i q1 q2 => (hb i q1 q2).2.symm,
    shows_congr h3 rfl fun i q1 q2 => ?_⟩
  rw [← (hb i q1 q2).1, ← (hb i q1 q2).2]
  push_cast
  ring

/-- with period 1 there is no line: 0/0 -/
example : Ind.linregSlope 1 (bars (K := ℚ) 2 fun i => i) = ⟨[.nan, .nan], 1⟩ := by decide +kernel
example : Ind.linreg 3 (bars (K := ℚ) 4 fun i => i * i) = ⟨[.nan, .nan, .fin (11/3), .fin (26/3)], 3⟩ := by decide +kernel

/-! ## C33 -/

/-- the last `p` values are all equal -/
def _root_.Spec.Flat (x : ℕ → K) (p i : ℕ) : Prop := ∀ j k, j < p → k < p → x (i - j) = x (i - k)

theorem lsDet_split (X : ℕ → K) {p : ℕ} (hp : 1 ≤ p) :
    lsDet X p = p * ∑ k ∈ range p, (X k - (∑ k ∈ range p, X k) / p) ^ 2 := by
  have hpk : (p : K) ≠ 0 := by exact_mod_cast (by omega : p ≠ 0)
  set S := ∑ k ∈ range p, X k with hS
  have : ∑ k ∈ range p, (X k - S / p) ^ 2 = ∑ k ∈ range p, X k ^ 2 - 2 * (S / p) * S + p * (S / p) ^ 2 := by
    have e : ∀ k ∈ range p, (X k - S / p) ^ 2 = X k ^ 2 - 2 * (S / p) * X k + (S / p) ^ 2 := fun k _ => by ring
    rw [sum_congr rfl e, sum_add_distrib, sum_sub_distrib, ← mul_sum, ← hS]
    simp only [sum_const, card_range, nsmul_eq_mul]
  rw [this]
  unfold lsDet
  rw [← hS]
  field_simp
  ring

theorem flat_iff_sum {x : ℕ → K} {p i : ℕ} (hp : 1 ≤ p) :
    Spec.Flat x p i ↔ ∑ k ∈ range p, (x (i - k) - Spec.winMean x p i) ^ 2 = 0 := by
  constructor
  · intro hc
    have hm : Spec.winMean x p i = x (i - 0) := winMean_const hp _ fun k hk => hc k 0 hk (by omega)
    refine sum_eq_zero fun k hk => ?_
    rw [hm, hc k 0 (mem_range.mp hk) (by omega)]
    ring
  · intro h3
    have h4 : ∀ k, k < p → x (i - k) = Spec.winMean x p i := fun k hk => by
      have := (sum_eq_zero_iff_of_nonneg fun k _ => sq_nonneg (x (i - k) - Spec.winMean x p i)).mp h3 k (mem_range.mpr hk)
      have := pow_eq_zero_iff (two_ne_zero) |>.mp this
      linarith
    intro j k hj hk
    rw [h4 j hj, h4 k hk]

theorem lsDet_flat {x : ℕ → K} {p i : ℕ} (hp : 1 ≤ p) : lsDet (fun k => x (i - k)) p = 0 ↔ Spec.Flat x p i := by
  have hpk : (p : K) ≠ 0 := by exact_mod_cast (by omega : p ≠ 0)
  rw [lsDet_split _ hp, flat_iff_sum hp, mul_eq_zero]
  constructor
  · rintro (h | h)
    · exact absurd h hpk
    · exact h
  · exact Or.inr

theorem beta_core {a b : Line (Ext K)} {n m m' : ℕ} {x y : ℕ → K} (ha : Holds a n m x) (hb : Holds b n m' y) {p : ℕ}
    (hp : 1 ≤ p) :
    Delivers (Ind.beta false 1 p a b) n (max m m' + p - 1) fun i =>
      fin (p * ∑ k ∈ range p, x (i - k) * y (i - k) - (∑ k ∈ range p, x (i - k)) * ∑ k ∈ range p, y (i - k)) /
        fin (lsDet (fun k => x (i - k)) p) := by
  have hpa := ha.pos
  have hpb := hb.pos
  have hl : (lit (p : ℚ) : Ext K) = fin (p : K) := by simp
  unfold Ind.beta
  simp only [Bool.false_eq_true, if_false, hl]
  have hsx : Shows (Ind.sumN p a) n (m + p - 1) fun i => ∑ k ∈ range p, x (i - k) := ha.rollSum hp
  have hsy : Shows (Ind.sumN p b) n (m' + p - 1) fun i => ∑ k ∈ range p, y (i - k) := hb.rollSum hp
  have hsxx : Shows (Ind.sumN p (mapOp (fun v => v * v) a)) n (m + p - 1) fun i => ∑ k ∈ range p, x (i - k) * x (i - k) :=
    Holds.rollSum (Holds.mapOp (F := fun v => v * v) ha fun v => by simp).toRepW hp
  have hsxy : Shows (Ind.sumN p (a * b)) n (max m m' + p - 1) fun i => ∑ k ∈ range p, x (i - k) * y (i - k) :=
    Holds.rollSum (Holds.mul ha hb).toRepW hp
  refine (rep_div (Holds.sub (Holds.rmulS hsxy.toRepW _).toRepW (Holds.mul hsx.toRepW hsy.toRepW).toRepW).toRepW
    (Holds.sub (Holds.rmulS hsxx.toRepW _).toRepW (Holds.mapOp (F := fun v => v * v) hsx.toRepW fun v => by simp).toRepW).toRepW).congr
    (by omega) fun i h1 h2 => ?_
  unfold lsDet
  simp only [pow_two]

/-- **C33** beta without `_rets`: the slope of the line of least squares through the last `p` points
(first input, second input), unique; NaN exactly if the first input did not move in the last `p` bars. -/
theorem C33_beta {a b : Line (Ext K)} {n m m' : ℕ} {x y : ℕ → K} (ha : Holds a n m x) (hb : Holds b n m' y) {p : ℕ}
    (hp : 1 ≤ p) :
    ∃ β, Delivers (Ind.beta false 1 p a b) n (max m m' + p - 1) β ∧ ∀ i,
      (Spec.Flat x p i → β i = Ext.nan) ∧
      (¬ Spec.Flat x p i → ∃ s c, β i = fin s ∧
        ∀ s' c', Spec.LeastSquares (fun k => x (i - k)) (fun k => y (i - k)) p s' c' ↔ s' = s ∧ c' = c) := by
  refine ⟨_, beta_core ha hb hp, fun i => ⟨fun hf => ?_, fun hf => ?_⟩⟩
  · have h0 := (lsDet_flat hp).mpr hf
    have e : ∀ k ∈ range p, x (i - k) = x (i - 0) := fun k hk => hf k 0 (mem_range.mp hk) (by omega)
    have h1 : (p : K) * ∑ k ∈ range p, x (i - k) * y (i - k) - (∑ k ∈ range p, x (i - k)) * ∑ k ∈ range p, y (i - k) = 0 := by
      rw [sum_congr rfl fun k hk => by rw [e k hk], ← mul_sum, sum_congr rfl e]
      simp only [sum_const, card_range, nsmul_eq_mul]
      ring
    rw [h0, h1, Ext.fin_div_zero]
    simp [Ext.infSign]
  · have hD : lsDet (fun k => x (i - k)) p ≠ 0 := fun h => hf ((lsDet_flat hp).mp h)
    refine ⟨lsSlope (fun k => x (i - k)) (fun k => y (i - k)) p, lsIcpt (fun k => x (i - k)) (fun k => y (i - k)) p,
      Ext.fin_div _ hD, fun s' c' => ⟨fun h => ls_unique _ hp hD h, ?_⟩⟩
    rintro ⟨rfl, rfl⟩
    exact ls_best _ hp hD

/-- **C33** beta (default, with `_rets`), for prices without zeros: the same with the returns over `r` bars in place of the
prices.  The regressor is the return of the *first* input. -/
theorem C33_beta_returns {a b : Line (Ext K)} {n m m' : ℕ} {x y : ℕ → K} (ha : Holds a n m x) (hb : Holds b n m' y)
    (hx : ∀ i, m ≤ i + 1 → i < n → x i ≠ 0) (hy : ∀ i, m' ≤ i + 1 → i < n → y i ≠ 0) {p : ℕ} (hp : 1 ≤ p) (r : ℕ) :
    ∃ β, Delivers (Ind.beta true r p a b) n (max m m' + r + p - 1) β ∧ ∀ i,
      (Spec.Flat (fun i => x i / x (i - r) - 1) p i → β i = Ext.nan) ∧
      (¬ Spec.Flat (fun i => x i / x (i - r) - 1) p i → ∃ s c, β i = fin s ∧
        ∀ s' c', Spec.LeastSquares (fun k => x (i - k) / x (i - k - r) - 1) (fun k => y (i - k) / y (i - k - r) - 1) p s' c' ↔
          s' = s ∧ c' = c) := by
  obtain ⟨β, h1, h2⟩ := C33_beta (ha.pctChange r hx).toRepW (hb.pctChange r hy).toRepW hp
  refine ⟨β, ?_, h2⟩
  have e : Ind.beta true r p a b = Ind.beta false 1 p (pctChange r a) (pctChange r b) := rfl
  rw [e]
  exact h1.congr (by omega) fun i _ _ => rfl

/-- covariance in the last `p` bars (divisor `p - 1`) -/
def _root_.Spec.winCov (x y : ℕ → K) (p i : ℕ) : K :=
  (∑ k ∈ range p, (x (i - k) - Spec.winMean x p i) * (y (i - k) - Spec.winMean y p i)) / ((p : K) - 1)

theorem cov_split (x y : ℕ → K) {p i : ℕ} (hp : 2 ≤ p) :
    ((∑ k ∈ range p, x (i - k) * y (i - k)) / p - (Spec.winSum x p i / p) * (Spec.winSum y p i / p)) * (p / (p - 1))
      = Spec.winCov x y p i := by
  have hpk : (2 : K) ≤ p := by exact_mod_cast hp
  have h0 : (p : K) ≠ 0 := by linarith
  have h1 : (p : K) - 1 ≠ 0 := by linarith
  have e : ∀ k ∈ range p, (x (i - k) - Spec.winMean x p i) * (y (i - k) - Spec.winMean y p i)
      = x (i - k) * y (i - k) - Spec.winMean x p i * y (i - k) - Spec.winMean y p i * x (i - k)
        + Spec.winMean x p i * Spec.winMean y p i := fun k _ => by ring
  unfold Spec.winCov
  rw [sum_congr rfl e, sum_add_distrib, sum_sub_distrib, sum_sub_distrib, ← mul_sum, ← mul_sum]
  simp only [sum_const, card_range, nsmul_eq_mul]
  unfold Spec.winMean Spec.winSum
  field_simp
  ring

theorem aggCorr_wnd (x y : ℕ → K) {sq : Ext K → Ext K} {s : K → K} (hsq : ∀ v, 0 ≤ v → sq (fin v) = fin (s v)) {w i : ℕ}
    (hw2 : 2 ≤ w) (hw : w ≤ i + 1) :
    aggCorr sq (wnd (fun i => ((fin (x i) : Ext K), (fin (y i) : Ext K))) w i)
      = fin (Spec.winCov x y w i) / fin (s (Spec.winVar 1 x w i) * s (Spec.winVar 1 y w i)) := by
  have hwk : (2 : K) ≤ w := by exact_mod_cast hw2
  have h0 : (w : K) ≠ 0 := by linarith
  have h1 : (w : K) - 1 ≠ 0 := by linarith
  unfold aggCorr
  rw [if_pos (by
    rw [List.all_eq_true]
    intro q hq
    obtain ⟨j, _, rfl⟩ := (mem_wnd hw).mp hq
    rfl)]
  simp only []
  have hz : List.zipWith (· * ·) (wnd (fun i => (fin (x i) : Ext K)) w i) (wnd (fun i => (fin (y i) : Ext K)) w i)
      = (wnd (fun i => x i * y i) w i).map fin := by
    unfold wnd
    rw [List.zipWith_map, List.map_map]
    rw [List.zipWith_self]
    exact List.map_congr_left fun j _ => by simp
  rw [map_wnd, map_wnd, wnd_length, hz]
  simp only []
  rw [aggVar_wnd 1 x (by omega) hw, aggVar_wnd 1 y (by omega) hw, hsq _ (winVar_nonneg x i (by omega)),
    hsq _ (winVar_nonneg y i (by omega)), sumV_fin, wnd_fin, wnd_fin, sumV_fin, sumV_fin, wnd_sum _ hw, wnd_sum _ hw, wnd_sum _ hw,
    show (lit (w : ℚ) : Ext K) = fin (w : K) from by simp, show (lit 1 : Ext K) = fin 1 from by simp, Ext.fin_sub,
    Ext.fin_div _ h0, Ext.fin_div _ h0, Ext.fin_div _ h0, Ext.fin_div _ h1, Ext.fin_mul, Ext.fin_mul, Ext.fin_sub, Ext.fin_mul]
  rw [← cov_split x y hw2]
  rfl

/-- **C33** correl, for `p ≥ 2` and the exact root: NaN exactly in the bars where one of the inputs did not move in the last
`p` bars, elsewhere a number in `[-1, 1]`, the covariance divided by the product of the deviations. -/
theorem C33_correl {a b : Line (Ext K)} {n m m' : ℕ} {x y : ℕ → K} (ha : Holds a n m x) (hb : Holds b n m' y) (hm : m' ≤ m)
    {p : ℕ} (hp : 2 ≤ p) {sq : Ext K → Ext K} {s : K → K} (hsq : ∀ v, 0 ≤ v → sq (fin v) = fin (s v))
    (hs : ∀ v, 0 ≤ v → 0 ≤ s v ∧ s v * s v = v) :
    ∃ ρ, Delivers (Ind.correl sq p a b) n (m + p - 1) ρ ∧ ∀ i, m + p - 1 ≤ i + 1 → i < n →
      ((Spec.Flat x p i ∨ Spec.Flat y p i) → ρ i = Ext.nan) ∧
      (¬ (Spec.Flat x p i ∨ Spec.Flat y p i) → ∃ c, ρ i = fin c ∧
        c = Spec.winCov x y p i / (s (Spec.winVar 1 x p i) * s (Spec.winVar 1 y p i)) ∧ -1 ≤ c ∧ c ≤ 1) := by
  have hpos := ha.pos
  have hpk : (2 : K) ≤ p := by exact_mod_cast hp
  have h1 : (0 : K) < (p : K) - 1 := by linarith
  refine ⟨fun i => fin (Spec.winCov x y p i) / fin (s (Spec.winVar 1 x p i) * s (Spec.winVar 1 y p i)), ?_, fun i q1 q2 => ?_⟩
  · exact (rep_rolling2 (by omega) ha hb hm).congr rfl fun i q1 q2 => aggCorr_wnd x y hsq hp (by omega)
  set vx := Spec.winVar 1 x p i with hvx
  set vy := Spec.winVar 1 y p i with hvy
  have nx : 0 ≤ vx := winVar_nonneg x i (by omega)
  have ny : 0 ≤ vy := winVar_nonneg y i (by omega)
  have ex : vx * ((p : K) - 1) = ∑ k ∈ range p, (x (i - k) - Spec.winMean x p i) ^ 2 := by
    rw [hvx]; unfold Spec.winVar; rw [Nat.cast_one, div_mul_cancel₀ _ h1.ne']
  have ey : vy * ((p : K) - 1) = ∑ k ∈ range p, (y (i - k) - Spec.winMean y p i) ^ 2 := by
    rw [hvy]; unfold Spec.winVar; rw [Nat.cast_one, div_mul_cancel₀ _ h1.ne']
  have ec : Spec.winCov x y p i * ((p : K) - 1)
      = ∑ k ∈ range p, (x (i - k) - Spec.winMean x p i) * (y (i - k) - Spec.winMean y p i) := by
    unfold Spec.winCov; rw [div_mul_cancel₀ _ h1.ne']
  have cs : Spec.winCov x y p i ^ 2 ≤ vx * vy := by
    have := sum_mul_sq_le_sq_mul_sq (range p) (fun k => x (i - k) - Spec.winMean x p i) (fun k => y (i - k) - Spec.winMean y p i)
    rw [← ex, ← ey, ← ec] at this
    have h2 : (0 : K) < ((p : K) - 1) ^ 2 := by positivity
    nlinarith [this]
  have fx : Spec.Flat x p i ↔ vx = 0 := by
    rw [flat_iff_sum (by omega), ← ex]
    constructor
    · intro h; rcases mul_eq_zero.mp h with h | h
      · exact h
      · exact absurd h h1.ne'
    · intro h; rw [h, zero_mul]
  have fy : Spec.Flat y p i ↔ vy = 0 := by
    rw [flat_iff_sum (by omega), ← ey]
    constructor
    · intro h; rcases mul_eq_zero.mp h with h | h
      · exact h
      · exact absurd h h1.ne'
    · intro h; rw [h, zero_mul]
  obtain ⟨px, rx⟩ := hs vx nx
  obtain ⟨py, ry⟩ := hs vy ny
  rw [fx, fy]
  constructor
  · intro h
    have hv : vx * vy = 0 := mul_eq_zero.mpr h
    have hc : Spec.winCov x y p i = 0 := by
      rw [hv] at cs
      exact pow_eq_zero_iff (two_ne_zero) |>.mp (le_antisymm cs (sq_nonneg _))
    have hz : s vx * s vy = 0 := by
      have : (s vx * s vy) * (s vx * s vy) = 0 := by
        rw [mul_mul_mul_comm, rx, ry]; exact hv
      exact mul_self_eq_zero.mp this
    beta_reduce
    rw [hc, hz, Ext.fin_div_zero]
    simp [Ext.infSign]
  · intro h
    have hvx0 : vx ≠ 0 := fun q => h (Or.inl q)
    have hvy0 : vy ≠ 0 := fun q => h (Or.inr q)
    have gx : 0 < s vx := lt_of_le_of_ne px fun q => hvx0 (by rw [← rx, ← q, zero_mul])
    have gy : 0 < s vy := lt_of_le_of_ne py fun q => hvy0 (by rw [← ry, ← q, zero_mul])
    have g : 0 < s vx * s vy := mul_pos gx gy
    have cs' : Spec.winCov x y p i ^ 2 ≤ (s vx * s vy) ^ 2 := by
      have : (s vx * s vy) ^ 2 = vx * vy := by rw [mul_pow, pow_two, pow_two, rx, ry]
      rw [this]; exact cs
    obtain ⟨l1, l2⟩ := abs_le_of_sq_le_sq' cs' g.le
    refine ⟨_, Ext.fin_div _ g.ne', rfl, ?_, ?_⟩
    · rw [le_div_iff₀ g]; linarith
    · rw [div_le_iff₀ g]; linarith

/-- **C33** correl, the second input starting later than the first (what happens before is C70): from the bar on at which both
inputs have filled a window, the values are the same as above. -/
theorem C33_correl_later {a b : Line (Ext K)} {n m m' : ℕ} {x y : ℕ → K} (ha : Holds a n m x) (hb : Shows b n m' y)
    (hm : m < m') {p : ℕ} (hp : 2 ≤ p) {sq : Ext K → Ext K} {s : K → K} (hsq : ∀ v, 0 ≤ v → sq (fin v) = fin (s v))
    (hs : ∀ v, 0 ≤ v → 0 ≤ s v ∧ s v * s v = v) :
    ∀ i, m' + p - 1 ≤ i + 1 → i < n →
      ((Spec.Flat x p i ∨ Spec.Flat y p i) → (Ind.correl sq p a b).series[i]? = some Ext.nan) ∧
      (¬ (Spec.Flat x p i ∨ Spec.Flat y p i) → ∃ c, (Ind.correl sq p a b).series[i]? = some (fin c) ∧
        c = Spec.winCov x y p i / (s (Spec.winVar 1 x p i) * s (Spec.winVar 1 y p i)) ∧ -1 ≤ c ∧ c ≤ 1) := by
  have hpos := ha.pos
  have hb' : RepW (⟨b.series, m⟩ : Line (Ext K)) n m fun i => if i + 1 < m' then Ext.nan else fin (y i) := by
    refine ⟨hb.len, rfl, ha.pos, fun i h1 h2 => ?_⟩
    split
    · next h => exact hb.pre i h h2
    · next h => exact hb.val i (by omega) h2
  have ha' : Holds (⟨a.series, m'⟩ : Line (Ext K)) n m' x := ⟨ha.len, rfl, by omega, fun i h1 h2 => ha.val i (by omega) h2⟩
  have h := rep_rolling2 (agg := aggCorr sq) (by omega : 1 ≤ p) ha hb' (le_refl m)
  change Rep _ (Ind.correl sq p a b) n _ _ at h
  have h' := rep_rolling2 (agg := aggCorr sq) (by omega : 1 ≤ p) ha' hb.toRepW (le_refl m')
  change Rep _ (Ind.correl sq p ⟨a.series, m'⟩ b) n _ _ at h'
  obtain ⟨ρ, h1, h2⟩ := C33_correl ha' hb.toRepW (le_refl m') hp hsq hs
  intro i q1 q2
  have e : (Ind.correl sq p a b).series[i]? = some (ρ i) := by
    rw [← h1.val i q1 q2, h.val i (by omega) q2, h'.val i q1 q2]
    congr 2
    unfold wnd
    refine List.map_congr_left fun j hj => ?_
    have := List.mem_range.mp hj
    simp only [if_neg (show ¬ i + 1 - p + j + 1 < m' by omega)]
  rw [e]
  refine ⟨fun hf => by rw [(h2 i q1 q2).1 hf], fun hf => ?_⟩
  obtain ⟨c, e1, e2⟩ := (h2 i q1 q2).2 hf
  exact ⟨c, by rw [e1], e2⟩

/-- returns of the first input 1, 2, 3; of the second 2, 4, 6: the slope of the second against the first is 2 -/
def exA : Line (Ext ℚ) := bars 4 fun i => [1, 2, 6, 24].getD i 0
def exB : Line (Ext ℚ) := bars 4 fun i => [1, 3, 15, 105].getD i 0

example : Ind.beta true 1 3 exA exB = ⟨[.nan, .nan, .nan, .fin 2], 4⟩ := by decide +kernel
/-- non-vacuity of `C33_correl` (with `v ↦ v` in place of the root): not flat, and the value -/
example : Ind.correl id 3 exA exB = ⟨[.nan, .nan, .fin (15/301), .fin (163/106708)], 3⟩ := by decide +kernel

/-- the square root of the reals meets the hypotheses of `C30_order` and `C33_correl` -/
noncomputable def sqrtR : Ext ℝ → Ext ℝ
  | .fin v => .fin (Real.sqrt v)
  | _ => .nan

example {p : ℕ} (hp : 2 ≤ p) (x y : ℕ → ℝ) : ∃ ρ, Delivers (Ind.correl sqrtR p (bars 100 x) (bars 100 y)) 100 (1 + p - 1) ρ ∧
    ∀ i, 1 + p - 1 ≤ i + 1 → i < 100 → ρ i = Ext.nan ∨ ∃ c, ρ i = fin c ∧ -1 ≤ c ∧ c ≤ 1 := by
  obtain ⟨ρ, h1, h2⟩ := C33_correl (bars_holds 100 x) (bars_holds 100 y) (le_refl 1) hp (sq := sqrtR) (s := Real.sqrt)
    (fun _ _ => rfl) (fun v hv => ⟨Real.sqrt_nonneg v, Real.mul_self_sqrt hv⟩)
  refine ⟨ρ, h1, fun i q1 q2 => ?_⟩
  by_cases h : Spec.Flat x p i ∨ Spec.Flat y p i
  · exact Or.inl ((h2 i q1 q2).1 h)
  · obtain ⟨c, e, _, b1, b2⟩ := (h2 i q1 q2).2 h
    exact Or.inr ⟨c, e, b1, b2⟩

/-- non-vacuity of `C33_correl_later`: a price and its highest of three bars, on any data -/
example {p : ℕ} (hp : 2 ≤ p) (x : ℕ → ℝ) (i : ℕ) (h1 : 3 + p - 1 ≤ i + 1) (h2 : i < 100) :
    (Ind.correl sqrtR p (bars 100 x) (Ind.highest 3 (bars 100 x))).series[i]? = some Ext.nan ∨
    ∃ c, (Ind.correl sqrtR p (bars 100 x) (Ind.highest 3 (bars 100 x))).series[i]? = some (fin c) ∧ -1 ≤ c ∧ c ≤ 1 := by
  have h := C33_correl_later (bars_holds 100 x) ((bars_holds 100 x).rollMax (p := 3) (by norm_num)) (by norm_num) hp
    (sq := sqrtR) (s := Real.sqrt) (fun _ _ => rfl) (fun v hv => ⟨Real.sqrt_nonneg v, Real.mul_self_sqrt hv⟩) i h1 h2
  by_cases hf : Spec.Flat x p i ∨ Spec.Flat (Spec.winMax x 3) p i
  · exact Or.inl (h.1 hf)
  · obtain ⟨c, e, _, b1, b2⟩ := h.2 hf
    exact Or.inr ⟨c, e, b1, b2⟩

/-! ## C69, C70 -/

/-- **C69** (violated) The documentation of beta: `x` is the market return and `y` the security return, the result is the slope,
so the security which moves twice as much as the market has beta 2.  Here the security (first input) has the returns 2, 4, 6 and
the market 1, 2, 3, and the result is 1/2. -/
theorem C69_documented_beta_fails :
    Holds exB 4 1 (fun i => [1, 3, 15, 105].getD i 0) ∧ Holds exA 4 1 (fun i => [1, 2, 6, 24].getD i 0) ∧
    (∀ k, k < 3 → ([1, 3, 15, 105].getD (3 - k) 0 / [1, 3, 15, 105].getD (3 - k - 1) 0 - 1 : ℚ)
      = 2 * ([1, 2, 6, 24].getD (3 - k) 0 / [1, 2, 6, 24].getD (3 - k - 1) 0 - 1)) ∧
    (Ind.beta true 1 3 exB exA).series[3]? = some (fin (1/2)) := by
  refine ⟨bars_holds _ _, bars_holds _ _, ?_, by decide +kernel⟩
  intro k hk
  interval_cases k <;> norm_num

/-- **C69** (negation, all data): if the security, the first input, moves `k` times as much as the market in the `p` bars up to
`i` (and the market does move), the documented beta is `k`; the delivered one is `1/k`. -/
theorem C69_reversed {sec mkt : Line (Ext K)} {n m m' : ℕ} {x y : ℕ → K} (ha : Holds sec n m x) (hb : Holds mkt n m' y)
    (hx : ∀ i, m ≤ i + 1 → i < n → x i ≠ 0) (hy : ∀ i, m' ≤ i + 1 → i < n → y i ≠ 0) {p : ℕ} (hp : 1 ≤ p) {k : K} (hk : k ≠ 0)
    {i : ℕ} (hi : max m m' + p ≤ i + 1) (hin : i < n)
    (hret : ∀ j, j < p → x (i - j) / x (i - j - 1) - 1 = k * (y (i - j) / y (i - j - 1) - 1))
    (hmove : ¬ Spec.Flat (fun i => y i / y (i - 1) - 1) p i) :
    Spec.LeastSquares (fun j => y (i - j) / y (i - j - 1) - 1) (fun j => x (i - j) / x (i - j - 1) - 1) p k 0 ∧
    (Ind.beta true 1 p sec mkt).series[i]? = some (fin (1 / k)) := by
  have sse0 : ∀ (X Y : ℕ → K) (c : K), (∀ j, j < p → Y j = c * X j) → Spec.LeastSquares X Y p c 0 := by
    intro X Y c h s' b'
    unfold Spec.sse
    rw [sum_eq_zero fun j hj => by rw [h j (mem_range.mp hj), add_zero, sub_self, zero_pow two_ne_zero]]
    exact sum_nonneg fun j _ => sq_nonneg _
  refine ⟨sse0 _ _ k hret, ?_⟩
  obtain ⟨β, h1, h2⟩ := C33_beta_returns ha hb hx hy hp 1
  have hf : ¬ Spec.Flat (fun i => x i / x (i - 1) - 1) p i := by
    intro h
    apply hmove
    intro j l hj hl
    have := h j l hj hl
    beta_reduce at this ⊢
    rw [hret j hj, hret l hl] at this
    exact mul_left_cancel₀ hk this
  obtain ⟨s, c, e, h⟩ := (h2 i).2 hf
  have := (h (1 / k) 0).mp (sse0 _ _ _ fun j hj => by rw [hret j hj]; field_simp)
  rw [h1.val i (by omega) hin, e, this.1]

/-- non-vacuity: the security of `C69_documented_beta_fails` -/
example : (Ind.beta true 1 3 exB exA).series[3]? = some (fin (1 / 2)) :=
  (C69_reversed (bars_holds 4 _) (bars_holds 4 _) (by intro i _ h; interval_cases i <;> norm_num)
    (by intro i _ h; interval_cases i <;> norm_num) (by norm_num) (k := 2) (by norm_num) (by norm_num) (by norm_num)
    (by intro j h; interval_cases j <;> norm_num) (by intro h; have := h 0 1 (by norm_num) (by norm_num); norm_num at this)).2

/-- **C69** What holds: with the inputs in the order (market, security) the result is the documented slope. -/
theorem C69_swapped_partial {mkt sec : Line (Ext K)} {n m m' : ℕ} {x y : ℕ → K} (ha : Holds mkt n m x) (hb : Holds sec n m' y)
    (hx : ∀ i, m ≤ i + 1 → i < n → x i ≠ 0) (hy : ∀ i, m' ≤ i + 1 → i < n → y i ≠ 0) {p : ℕ} (hp : 1 ≤ p) :
    ∃ β, Delivers (Ind.beta true 1 p mkt sec) n (max m m' + p) β ∧ ∀ i,
      ¬ Spec.Flat (fun i => x i / x (i - 1) - 1) p i → ∃ s c, β i = fin s ∧
        Spec.LeastSquares (fun k => x (i - k) / x (i - k - 1) - 1) (fun k => y (i - k) / y (i - k - 1) - 1) p s c := by
  obtain ⟨β, h1, h2⟩ := C33_beta_returns ha hb hx hy hp 1
  refine ⟨β, h1.congr (by omega) fun _ _ _ => rfl, fun i hi => ?_⟩
  obtain ⟨s, c, e, h⟩ := (h2 i).2 hi
  exact ⟨s, c, e, (h s c).mpr ⟨rfl, rfl⟩⟩

/-- **C70** (violated) `correl` of a price and an average of it: the declared minimum period of the result is 3, although the
second input has values only from bar 2 (minimum period 3) on, and the results in bars 2 and 3 are NaN. -/
theorem C70_second_input_ignored :
    ∃ b, Ind.sma 3 exData = .ok b ∧ b.minperiod = 3 ∧ (Ind.correl id 3 exData b).minperiod = 3 ∧
      (Ind.correl id 3 exData b).series[2]? = some Ext.nan ∧ (Ind.correl id 3 exData b).series[3]? = some Ext.nan ∧
      (Ind.correl id 3 exData b).series[4]? ≠ some Ext.nan := by
  refine ⟨_, rfl, ?_⟩
  decide +kernel

/-- **C70** (negation, all data and periods): whenever the second input starts later than the first, the declared minimum
period is the one for the first alone, and all bars from there until the second input has filled a window are NaN. -/
theorem C70_too_early {a b : Line (Ext K)} {n m m' : ℕ} {x y : ℕ → K} (ha : Holds a n m x) (hb : Shows b n m' y) (hm : m < m')
    {p : ℕ} (hp : 1 ≤ p) (sq : Ext K → Ext K) :
    (Ind.correl sq p a b).minperiod = ((m + p - 1 : ℕ) : Int) ∧
      ∀ i, m + p - 1 ≤ i + 1 → i + 1 < m' + p - 1 → i < n → (Ind.correl sq p a b).series[i]? = some Ext.nan := by
  have hpos := ha.pos
  have hb' : RepW (⟨b.series, m⟩ : Line (Ext K)) n m fun i => if i + 1 < m' then Ext.nan else fin (y i) := by
    refine ⟨hb.len, rfl, ha.pos, fun i h1 h2 => ?_⟩
    split
    · next h => exact hb.pre i h h2
    · next h => exact hb.val i (by omega) h2
  have h := rep_rolling2 (agg := aggCorr sq) hp ha hb' (le_refl m)
  change Rep _ (Ind.correl sq p a b) n _ _ at h
  refine ⟨h.mp, fun i h1 h2 h3 => ?_⟩
  rw [h.val i h1 h3]
  unfold aggCorr
  rw [if_neg]
  · rfl
  rw [List.all_eq_true]
  intro hall
  have := hall (fin (x (i - (p - 1))), Ext.nan) ((mem_wnd (by omega)).mpr ⟨p - 1, by omega, by
    rw [if_pos (by omega)]⟩)
  exact absurd this (by simp [isFin])

example (x : ℕ → ℚ) : ∀ i, 3 ≤ i + 1 → i + 1 < 5 → i < 9 →
    (Ind.correl id 3 (bars 9 x) (Ind.highest 3 (bars 9 x))).series[i]? = some Ext.nan :=
  (C70_too_early (bars_holds 9 x) ((bars_holds 9 x).rollMax (p := 3) (by norm_num)) (by norm_num) (p := 3) (by norm_num) id).2

/-- **C70** What holds: if the first input is the one which starts later, the result has values from its declared minimum period
on (NaN only for unmoved inputs). -/
theorem C70_order_partial {a b : Line (Ext K)} {n m m' : ℕ} {x y : ℕ → K} (ha : Holds a n m x) (hb : Holds b n m' y) (hm : m' ≤ m)
    {p : ℕ} (hp : 2 ≤ p) {sq : Ext K → Ext K} {s : K → K} (hsq : ∀ v, 0 ≤ v → sq (fin v) = fin (s v))
    (hs : ∀ v, 0 ≤ v → 0 ≤ s v ∧ s v * s v = v) :
    ∃ ρ, Delivers (Ind.correl sq p a b) n (max m m' + p - 1) ρ ∧ ∀ i, max m m' + p - 1 ≤ i + 1 → i < n →
      ρ i = Ext.nan → Spec.Flat x p i ∨ Spec.Flat y p i := by
  obtain ⟨ρ, h1, h2⟩ := C33_correl ha hb hm hp hsq hs
  refine ⟨ρ, h1.congr (by omega) fun _ _ _ => rfl, fun i q1 q2 hn => ?_⟩
  by_contra hc
  obtain ⟨c, e, _⟩ := (h2 i (by omega) q2).2 hc
  rw [e] at hn
  exact absurd hn (by simp)

end Bta
