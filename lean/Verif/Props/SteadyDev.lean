import Verif.Props.Steady
import Verif.Props.Stat

/-!
# Small errors in the data: standard deviation and Bollinger bands (C133)
-/

set_option linter.unusedSectionVars false

namespace Bta
open Line Ext Ind Spec Finset

variable {K : Type} [Field K] [LinearOrder K] [IsStrictOrderedRing K] {n m : ℕ} {d : K} {a b : Line (Ext K)}

/-- the squares of the distances from the mean add up to at most the squares -/
theorem dev_shrinks (z : ℕ → K) {p : ℕ} (hp : 1 ≤ p) (i : ℕ) :
    ∑ k ∈ range p, (z (i - k) - winMean z p i) ^ 2 ≤ ∑ k ∈ range p, z (i - k) ^ 2 := by
  have hk : (0 : K) < p := by exact_mod_cast hp
  have h1 : ∑ k ∈ range p, z (i - k) = p * winMean z p i := by
    unfold winMean winSum; rw [mul_div_cancel₀ _ hk.ne']
  have h2 : ∑ k ∈ range p, (z (i - k) - winMean z p i) ^ 2 = ∑ k ∈ range p, z (i - k) ^ 2 - p * winMean z p i ^ 2 := by
    have : ∀ k ∈ range p, (z (i - k) - winMean z p i) ^ 2 = z (i - k) ^ 2 - 2 * winMean z p i * z (i - k) + winMean z p i ^ 2 :=
      fun k _ => by ring
    rw [sum_congr rfl this, sum_add_distrib, sum_sub_distrib, ← mul_sum, h1, sum_const, card_range, nsmul_eq_mul]
    ring
  rw [h2]
  have : 0 ≤ (p : K) * winMean z p i ^ 2 := by positivity
  linarith

/-- roots of the variances of two windows differ by at most as much as the prices in them -/
theorem root_near {x y : ℕ → K} {p : ℕ} (hp : 1 ≤ p) (i : ℕ) (hd : 0 ≤ d) (h : ∀ k, k < p → |x (i - k) - y (i - k)| ≤ d) {A B : K}
    (hA : 0 ≤ A) (hB : 0 ≤ B) (eA : A * A = winVar 0 x p i) (eB : B * B = winVar 0 y p i) : |A - B| ≤ d := by
  have hk : (0 : K) < p := by exact_mod_cast hp
  refine abs_le_of_sq_le_sq ?_ hd
  have h0 : ∀ z : ℕ → K, ∑ k ∈ range p, (z (i - k) - winMean z p i) ^ 2 = p * winVar 0 z p i := fun z => by
    unfold winVar; rw [Nat.cast_zero, sub_zero, mul_div_cancel₀ _ hk.ne']
  have hm : winMean (fun j => x j - y j) p i = winMean x p i - winMean y p i := by
    unfold winMean winSum; rw [sum_sub_distrib, sub_div]
  have h1 : ∑ k ∈ range p, (x (i - k) - winMean x p i - (y (i - k) - winMean y p i)) ^ 2 ≤ p * d ^ 2 := by
    have e := dev_shrinks (fun j => x j - y j) hp i
    rw [hm] at e
    calc _ = ∑ k ∈ range p, (x (i - k) - y (i - k) - (winMean x p i - winMean y p i)) ^ 2 := sum_congr rfl fun k _ => by ring
      _ ≤ ∑ k ∈ range p, (x (i - k) - y (i - k)) ^ 2 := e
      _ ≤ ∑ k ∈ range p, d ^ 2 := sum_le_sum fun k hk => by
          rw [← sq_abs]; exact pow_le_pow_left₀ (abs_nonneg _) (h k (mem_range.1 hk)) 2
      _ = p * d ^ 2 := by rw [sum_const, card_range, nsmul_eq_mul]
  have h2 : (∑ k ∈ range p, (x (i - k) - winMean x p i) * (y (i - k) - winMean y p i)) ≤ p * (A * B) := by
    have e := sum_mul_sq_le_sq_mul_sq (range p) (fun k => x (i - k) - winMean x p i) (fun k => y (i - k) - winMean y p i)
    beta_reduce at e
    rw [h0, h0, ← eA, ← eB] at e
    refine (abs_le.1 (abs_le_of_sq_le_sq ?_ (by positivity))).2
    calc _ ≤ _ := e
      _ = _ := by ring
  have h3 : ∑ k ∈ range p, (x (i - k) - winMean x p i - (y (i - k) - winMean y p i)) ^ 2 =
      p * (A * A) + p * (B * B) - 2 * ∑ k ∈ range p, (x (i - k) - winMean x p i) * (y (i - k) - winMean y p i) := by
    rw [eA, eB, ← h0, ← h0, mul_sum, ← sum_add_distrib, ← sum_sub_distrib]
    exact sum_congr rfl fun k _ => by ring
  rw [h3] at h1
  have : (p : K) * (A - B) ^ 2 ≤ p * d ^ 2 := by nlinarith
  exact le_of_mul_le_mul_left this hk

/-- **C133** stddev: not more than the error, for every period -/
theorem C133_stddev (hab : Near n m d a b) {p : ℕ} (hp : 1 ≤ p) {sq : Ext K → Ext K} {s : K → K} (hsq : ∀ v, 0 ≤ v → sq (fin v) = fin (s v))
    (hs : ∀ v, 0 ≤ v → 0 ≤ s v ∧ s v * s v = v) :
    Near n (m + p - 1) d (Ind.stddev sq 0 p a) (Ind.stddev sq 0 p b) := by
  have hpos := hab.pos
  have hnn := hab.nonneg
  obtain ⟨x, y, hx, hy, h⟩ := hab
  have key : ∀ {a : Line (Ext K)} {x : ℕ → K}, Holds a n m x → Shows (Ind.stddev sq 0 p a) n (m + p - 1) fun i => s (winVar 0 x p i) :=
    fun ha => (C31_stddev ha sq (by omega)).congr rfl fun i h1 h2 => hsq _ (winVar_nonneg _ i (ddof := 0) (p := p) (by omega))
  refine ⟨_, _, (key hx).toRepW, (key hy).toRepW, fun j h1 h2 => ?_⟩
  obtain ⟨a0, a1⟩ := hs _ (winVar_nonneg x j (ddof := 0) (p := p) (by omega))
  obtain ⟨b0, b1⟩ := hs _ (winVar_nonneg y j (ddof := 0) (p := p) (by omega))
  exact root_near hp j (hnn (by omega)) (fun k hk => h _ (by omega) (by omega)) a0 b0 a1 b1

/-- **C133** Bollinger bands: the middle line as much as its average, the bands at most `1 + devs` times the error -/
theorem C133_bbands {ma : MA (Ext K)} {j p : ℕ} (hma : Steady (ma p) j (1 : K)) (hab : Near n m d a b) (hp : 1 ≤ p) (hn : m + j ≤ n)
    {sq : Ext K → Ext K} {s : K → K} (hsq : ∀ v, 0 ≤ v → sq (fin v) = fin (s v)) (hs : ∀ v, 0 ≤ v → 0 ≤ s v ∧ s v * s v = v) (devs : K) :
    ∃ r t, Ind.bbands sq ma (fin devs) p a = .ok r ∧ Ind.bbands sq ma (fin devs) p b = .ok t ∧
      Near n (m + j) d r.1 t.1 ∧
      Near n (max (m + j) (m + p - 1)) ((1 + |devs|) * d) r.2.1 t.2.1 ∧
      Near n (max (m + j) (m + p - 1)) ((1 + |devs|) * d) r.2.2 t.2.2 := by
  obtain ⟨r, t, e1, e2, h⟩ := hma n m d a b hab hn
  have h := h.cast rfl (one_mul d)
  have hd := (C133_stddev hab hp hsq hs).rmulS devs
  unfold Ind.bbands
  rw [e1, e2]
  exact ⟨_, _, rfl, rfl, h, (h.add hd).cast rfl (by ring), (h.sub hd).cast rfl (by ring)⟩

/-- C133, a case: real numbers have such roots -/
example (a b : Line (Ext ℝ)) (h : Near 30 1 (1 / 100) a b) :
    ∃ r t, Ind.bbands (fun v => match v with | fin v => fin (Real.sqrt v) | _ => Ext.nan) Ind.sma (fin 2) 20 a = .ok r ∧
      Ind.bbands (fun v => match v with | fin v => fin (Real.sqrt v) | _ => Ext.nan) Ind.sma (fin 2) 20 b = .ok t ∧
      Near 30 20 (3 / 100 : ℝ) r.2.1 t.2.1 := by
  obtain ⟨r, t, e1, e2, _, h3, _⟩ := C133_bbands ((C133_averages (by norm_num)).1) h (p := 20) (sq := fun v => match v with | fin v => fin (Real.sqrt v) | _ => Ext.nan) (by norm_num) (by norm_num) (s := Real.sqrt) (fun v _ => rfl)
    (fun v hv => ⟨Real.sqrt_nonneg v, Real.mul_self_sqrt hv⟩) 2
  exact ⟨r, t, e1, e2, h3.cast (by norm_num) (by norm_num)⟩

end Bta
