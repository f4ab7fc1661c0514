import Verif.Spec.Ma
import Mathlib.Algebra.Order.BigOperators.Group.Finset
import Mathlib.Algebra.BigOperators.Ring.Finset
import Mathlib.Algebra.BigOperators.Field
import Mathlib.Data.Nat.Cast.Order.Field
import Mathlib.Order.Interval.Finset.Nat

/-!
# Mathematics of the averages
-/

set_option linter.unusedSectionVars false
set_option linter.unusedVariables false

namespace Bta
open Finset

variable {K : Type} [Field K] [LinearOrder K] [IsStrictOrderedRing K]

/-- weighted mean with weights `w j` for the value `j` bars ago -/
def wmean (w : ℕ → K) (p : ℕ) (x : ℕ → K) (i : ℕ) : K :=
  (∑ j ∈ range p, w j * x (i - j)) / ∑ j ∈ range p, w j

theorem wmean_mono {w : ℕ → K} {p i b : ℕ} (hw : ∀ j < p, 0 ≤ w j) (hb : b + (p - 1) ≤ i) (hp : 1 ≤ p)
    {x y : ℕ → K} (h : ∀ j, b ≤ j → j ≤ i → x j ≤ y j) : wmean w p x i ≤ wmean w p y i := by
  unfold wmean
  refine div_le_div_of_nonneg_right ?_ (sum_nonneg fun j hj => hw j (mem_range.mp hj))
  refine sum_le_sum fun j hj => ?_
  have := mem_range.mp hj
  exact mul_le_mul_of_nonneg_left (h _ (by omega) (by omega)) (hw j this)

theorem wmean_affine {w : ℕ → K} {p i : ℕ} (hw : ∑ j ∈ range p, w j ≠ 0) (x : ℕ → K) (c d : K) :
    wmean w p (fun j => c * x j + d) i = c * wmean w p x i + d := by
  unfold wmean
  have : ∑ j ∈ range p, w j * (c * x (i - j) + d) = c * ∑ j ∈ range p, w j * x (i - j) + d * ∑ j ∈ range p, w j := by
    rw [mul_sum, mul_sum, ← sum_add_distrib]
    exact sum_congr rfl fun j _ => by ring
  rw [this, add_div, mul_div_assoc, mul_div_assoc, div_self hw, mul_one]

theorem wmean_const {w : ℕ → K} {p i : ℕ} (hw : ∑ j ∈ range p, w j ≠ 0) (d : K) : wmean w p (fun _ => d) i = d := by
  have := wmean_affine hw (fun _ => 0) 0 d (i := i)
  simpa using this

theorem wmean_bounds {w : ℕ → K} {p i b : ℕ} (hw : ∀ j < p, 0 ≤ w j) (hs : ∑ j ∈ range p, w j ≠ 0)
    (hb : b + (p - 1) ≤ i) (hp : 1 ≤ p)
    {x : ℕ → K} {lo hi : K} (h : ∀ j, b ≤ j → j ≤ i → lo ≤ x j ∧ x j ≤ hi) :
    lo ≤ wmean w p x i ∧ wmean w p x i ≤ hi := by
  constructor
  · calc lo = wmean w p (fun _ => lo) i := (wmean_const hs lo).symm
      _ ≤ _ := wmean_mono hw hb hp fun j h1 h2 => (h j h1 h2).1
  · calc wmean w p x i ≤ wmean w p (fun _ => hi) i := wmean_mono hw hb hp fun j h1 h2 => (h j h1 h2).2
      _ = hi := wmean_const hs hi

/-! ### as weighted means -/

theorem winMean_eq (x : ℕ → K) {p : ℕ} (hp : 1 ≤ p) (i : ℕ) : Spec.winMean x p i = wmean (fun _ => 1) p x i := by
  simp [Spec.winMean, Spec.winSum, wmean]

theorem wma_eq (x : ℕ → K) (p i : ℕ) : Spec.wma x p i = wmean (fun j => ((p - j : ℕ) : K)) p x i := rfl
theorem trima_eq (x : ℕ → K) (p i : ℕ) : Spec.trima x p i = wmean (fun j => (Spec.triWeight p j : K)) p x i := rfl

theorem sum_one_ne {p : ℕ} (hp : 1 ≤ p) : ∑ _j ∈ range p, (1 : K) ≠ 0 := by
  simp; omega

theorem sum_cast_pos {p : ℕ} (hp : 1 ≤ p) {w : ℕ → ℕ} (hw : ∀ j < p, 1 ≤ w j) : ∑ j ∈ range p, ((w j : ℕ) : K) ≠ 0 := by
  have h0 : (0 : K) < ∑ j ∈ range p, ((w j : ℕ) : K) := by
    refine sum_pos (fun j hj => ?_) ⟨0, mem_range.mpr hp⟩
    exact_mod_cast hw j (mem_range.mp hj)
  exact h0.ne'

theorem triWeight_pos {p j : ℕ} (h : j < p) : 1 ≤ Spec.triWeight p j := by
  unfold Spec.triWeight; omega

theorem smaF_averages : Averages (smaF : ℕ → (ℕ → K) → ℕ → ℕ → K) ext1 := by
  intro p hp x b i lo hi h1 h2
  rw [smaF, winMean_eq x hp]
  exact wmean_bounds (fun _ _ => zero_le_one) (sum_one_ne hp) h1 hp h2
theorem smaF_affine : Affine (smaF : ℕ → (ℕ → K) → ℕ → ℕ → K) ext1 := by
  intro p hp x b i c d h1
  rw [smaF, smaF, winMean_eq _ hp, winMean_eq _ hp]
  exact wmean_affine (sum_one_ne hp) x c d
theorem smaF_mono : Mono (smaF : ℕ → (ℕ → K) → ℕ → ℕ → K) ext1 := by
  intro p hp x y b i h1 h2
  rw [smaF, smaF, winMean_eq _ hp, winMean_eq _ hp]
  exact wmean_mono (fun _ _ => zero_le_one) h1 hp h2

theorem wmaF_averages : Averages (wmaF : ℕ → (ℕ → K) → ℕ → ℕ → K) ext1 := by
  intro p hp x b i lo hi h1 h2
  exact wmean_bounds (fun _ _ => Nat.cast_nonneg _) (sum_cast_pos hp fun j hj => by omega) h1 hp h2
theorem wmaF_affine : Affine (wmaF : ℕ → (ℕ → K) → ℕ → ℕ → K) ext1 := by
  intro p hp x b i c d h1
  exact wmean_affine (sum_cast_pos hp fun j hj => by omega) x c d
theorem wmaF_mono : Mono (wmaF : ℕ → (ℕ → K) → ℕ → ℕ → K) ext1 := by
  intro p hp x y b i h1 h2
  exact wmean_mono (fun _ _ => Nat.cast_nonneg _) h1 hp h2

theorem trimaF_averages : Averages (trimaF : ℕ → (ℕ → K) → ℕ → ℕ → K) ext1 := by
  intro p hp x b i lo hi h1 h2
  exact wmean_bounds (fun _ _ => Nat.cast_nonneg _) (sum_cast_pos hp fun j hj => triWeight_pos hj) h1 hp h2
theorem trimaF_affine : Affine (trimaF : ℕ → (ℕ → K) → ℕ → ℕ → K) ext1 := by
  intro p hp x b i c d h1
  exact wmean_affine (sum_cast_pos hp fun j hj => triWeight_pos hj) x c d
theorem trimaF_mono : Mono (trimaF : ℕ → (ℕ → K) → ℕ → ℕ → K) ext1 := by
  intro p hp x y b i h1 h2
  exact wmean_mono (fun _ _ => Nat.cast_nonneg _) h1 hp h2

theorem sumF_mono : Mono (sumF : ℕ → (ℕ → K) → ℕ → ℕ → K) ext1 := by
  intro p hp x y b i h1 h2
  unfold sumF Spec.winSum
  refine sum_le_sum fun j hj => ?_
  have := mem_range.mp hj
  unfold ext1 at h1
  exact h2 _ (by omega) (by omega)

/-! ### exponential -/

theorem expRec_mono {a : K} (h0 : 0 ≤ a) (h1 : a ≤ 1) {x y : ℕ → K} {s : ℕ} {v w : K} (hv : v ≤ w) :
    ∀ k, (∀ j, s ≤ j → j ≤ s + k → x j ≤ y j) → Spec.expRec a x s v k ≤ Spec.expRec a y s w k := by
  intro k
  induction k with
  | zero => intro _; exact hv
  | succ k ih =>
    intro h
    have i1 := ih fun j h1 h2 => h j h1 (by omega)
    have i2 := h (s + k + 1) (by omega) (by omega)
    simp only [Spec.expRec]
    nlinarith [mul_le_mul_of_nonneg_left i1 (sub_nonneg.mpr h1), mul_le_mul_of_nonneg_left i2 h0]

theorem expRec_affine (a : K) (x : ℕ → K) (s : ℕ) (v c d : K) :
    ∀ k, Spec.expRec a (fun j => c * x j + d) s (c * v + d) k = c * Spec.expRec a x s v k + d := by
  intro k
  induction k with
  | zero => rfl
  | succ k ih => simp only [Spec.expRec, ih]; ring

theorem expRec_const (a : K) (s : ℕ) (d : K) (k : ℕ) : Spec.expRec a (fun _ => d) s d k = d := by
  induction k with
  | zero => rfl
  | succ k ih => simp only [Spec.expRec, ih]; ring

theorem expAvg_mono {a : K} (h0 : 0 ≤ a) (h1 : a ≤ 1) {x y : ℕ → K} {b p i : ℕ} (hp : 1 ≤ p) (hi : b + (p - 1) ≤ i)
    (h : ∀ j, b ≤ j → j ≤ i → x j ≤ y j) : Spec.expAvg a x b p i ≤ Spec.expAvg a y b p i := by
  unfold Spec.expAvg
  refine expRec_mono h0 h1 ?_ _ fun j h2 h3 => h j (by omega) (by omega)
  exact smaF_mono p hp x y b (b + p - 1) (by unfold ext1; omega) fun j h2 h3 => h j h2 (by omega)

theorem expAvg_affine {a : K} {x : ℕ → K} {b p i : ℕ} (hp : 1 ≤ p) (c d : K) :
    Spec.expAvg a (fun j => c * x j + d) b p i = c * Spec.expAvg a x b p i + d := by
  unfold Spec.expAvg
  have := smaF_affine p hp x b (b + p - 1) c d (by unfold ext1; omega)
  unfold smaF at this
  rw [this, expRec_affine]

theorem expAvg_bounds {a : K} (h0 : 0 ≤ a) (h1 : a ≤ 1) {x : ℕ → K} {b p i : ℕ} (hp : 1 ≤ p) (hi : b + (p - 1) ≤ i)
    {lo hh : K} (h : ∀ j, b ≤ j → j ≤ i → lo ≤ x j ∧ x j ≤ hh) :
    lo ≤ Spec.expAvg a x b p i ∧ Spec.expAvg a x b p i ≤ hh := by
  have hc : ∀ d : K, Spec.expAvg a (fun _ => d) b p i = d := by
    intro d
    have := expAvg_affine (a := a) (x := fun _ => 0) (b := b) (i := i) hp 0 d
    simpa using this
  constructor
  · rw [← hc lo]; exact expAvg_mono h0 h1 hp hi fun j h2 h3 => (h j h2 h3).1
  · rw [← hc hh]; exact expAvg_mono h0 h1 hp hi fun j h2 h3 => (h j h2 h3).2

theorem ema_alpha {p : ℕ} (hp : 1 ≤ p) : (0 : K) ≤ 2 / ((p : K) + 1) ∧ 2 / ((p : K) + 1) ≤ 1 := by
  have h : (1 : K) ≤ p := by exact_mod_cast hp
  constructor
  · positivity
  · rw [div_le_one (by positivity)]; linarith

theorem smma_alpha {p : ℕ} (hp : 1 ≤ p) : (0 : K) ≤ 1 / (p : K) ∧ 1 / (p : K) ≤ 1 := by
  have h : (1 : K) ≤ p := by exact_mod_cast hp
  constructor
  · positivity
  · rw [div_le_one (by positivity)]; exact h

theorem emaF_averages : Averages (emaF : ℕ → (ℕ → K) → ℕ → ℕ → K) ext1 := fun p hp x b i lo hi h1 h2 =>
  expAvg_bounds (ema_alpha hp).1 (ema_alpha hp).2 hp h1 h2
theorem emaF_affine : Affine (emaF : ℕ → (ℕ → K) → ℕ → ℕ → K) ext1 := fun p hp x b i c d h1 => expAvg_affine hp c d
theorem emaF_mono : Mono (emaF : ℕ → (ℕ → K) → ℕ → ℕ → K) ext1 := fun p hp x y b i h1 h2 =>
  expAvg_mono (ema_alpha hp).1 (ema_alpha hp).2 hp h1 h2
theorem smmaF_averages : Averages (smmaF : ℕ → (ℕ → K) → ℕ → ℕ → K) ext1 := fun p hp x b i lo hi h1 h2 =>
  expAvg_bounds (smma_alpha hp).1 (smma_alpha hp).2 hp h1 h2
theorem smmaF_affine : Affine (smmaF : ℕ → (ℕ → K) → ℕ → ℕ → K) ext1 := fun p hp x b i c d h1 => expAvg_affine hp c d
theorem smmaF_mono : Mono (smmaF : ℕ → (ℕ → K) → ℕ → ℕ → K) ext1 := fun p hp x y b i h1 h2 =>
  expAvg_mono (smma_alpha hp).1 (smma_alpha hp).2 hp h1 h2

/-! ### consequences -/

variable {F : ℕ → (ℕ → K) → ℕ → ℕ → K} {e : ℕ → ℕ}

theorem Mono.local (h : Mono F e) {p : ℕ} (hp : 1 ≤ p) {x y : ℕ → K} {b i : ℕ} (hi : b + e p ≤ i)
    (he : ∀ j, b ≤ j → j ≤ i → x j = y j) : F p x b i = F p y b i :=
  le_antisymm (h p hp x y b i hi fun j h1 h2 => (he j h1 h2).le) (h p hp y x b i hi fun j h1 h2 => (he j h1 h2).ge)

theorem Mono.nonneg (h : Mono F e) (h0 : ∀ p, 1 ≤ p → ∀ b i, b + e p ≤ i → F p (fun _ => 0) b i = 0) : NonNeg F e :=
  fun p hp x b i hi hx => by
    rw [← h0 p hp b i hi]
    exact h p hp _ x b i hi hx

theorem Affine.zero (h : Affine F e) : ∀ p, 1 ≤ p → ∀ b i, b + e p ≤ i → F p (fun _ => 0) b i = 0 := by
  intro p hp b i hi
  have := h p hp (fun _ => 0) b i 0 0 hi
  simpa using this

theorem sumF_nonneg : NonNeg (sumF : ℕ → (ℕ → K) → ℕ → ℕ → K) ext1 :=
  sumF_mono.nonneg fun p _ b i _ => by simp [sumF, Spec.winSum]
theorem smaF_nonneg : NonNeg (smaF : ℕ → (ℕ → K) → ℕ → ℕ → K) ext1 := smaF_mono.nonneg smaF_affine.zero
theorem emaF_nonneg : NonNeg (emaF : ℕ → (ℕ → K) → ℕ → ℕ → K) ext1 := emaF_mono.nonneg emaF_affine.zero
theorem smmaF_nonneg : NonNeg (smmaF : ℕ → (ℕ → K) → ℕ → ℕ → K) ext1 := smmaF_mono.nonneg smmaF_affine.zero
theorem wmaF_nonneg : NonNeg (wmaF : ℕ → (ℕ → K) → ℕ → ℕ → K) ext1 := wmaF_mono.nonneg wmaF_affine.zero
theorem trimaF_nonneg : NonNeg (trimaF : ℕ → (ℕ → K) → ℕ → ℕ → K) ext1 := trimaF_mono.nonneg trimaF_affine.zero

/-- repeated application scales and translates -/
theorem iter_affine (hA : Affine F e) (hM : Mono F e) {p : ℕ} (hp : 1 ≤ p) (x : ℕ → K) (b : ℕ) (c d : K) :
    ∀ k i, b + k * e p ≤ i → Spec.iter F e p (fun j => c * x j + d) b k i = c * Spec.iter F e p x b k i + d := by
  intro k
  induction k with
  | zero => intro i _; rfl
  | succ k ih =>
    intro i hi
    have hi' : b + k * e p + e p ≤ i := by rw [Nat.succ_mul] at hi; omega
    simp only [Spec.iter]
    rw [hM.local hp hi' (y := fun j => c * Spec.iter F e p x b k j + d) fun j h1 _ => ih j h1]
    exact hA p hp _ _ _ _ _ hi'

theorem iter_averages (hA : Averages F e) {p : ℕ} (hp : 1 ≤ p) (x : ℕ → K) (b : ℕ) (lo hh : K) :
    ∀ k i, b + k * e p ≤ i → (∀ j, b ≤ j → j ≤ i → lo ≤ x j ∧ x j ≤ hh) →
      lo ≤ Spec.iter F e p x b k i ∧ Spec.iter F e p x b k i ≤ hh := by
  intro k
  induction k with
  | zero => intro i hi h; exact h i (by omega) (le_refl _)
  | succ k ih =>
    intro i hi h
    have hi' : b + k * e p + e p ≤ i := by rw [Nat.succ_mul] at hi; omega
    exact hA p hp _ _ _ _ _ hi' fun j h1 h2 => ih j h1 fun j' h3 h4 => h j' h3 (by omega)

/-! ### trima: mean of means -/

theorem double_sum (f : ℕ → K) (p1 p2 : ℕ) (h2 : 1 ≤ p2) :
    ∑ j1 ∈ range p1, ∑ j2 ∈ range p2, f (j1 + j2)
      = ∑ k ∈ range (p1 + p2 - 1), ((min p1 (k + 1) - (k + 1 - p2) : ℕ) : K) * f k := by
  have inner : ∀ j1 ∈ range p1, ∑ j2 ∈ range p2, f (j1 + j2)
      = ∑ k ∈ range (p1 + p2 - 1), if j1 ≤ k ∧ k < j1 + p2 then f k else 0 := by
    intro j1 hj1
    have hj1 := mem_range.mp hj1
    rw [← sum_filter]
    have : (range (p1 + p2 - 1)).filter (fun k => j1 ≤ k ∧ k < j1 + p2) = Ico j1 (j1 + p2) := by
      ext k
      simp only [mem_filter, mem_range, mem_Ico]
      omega
    rw [this, sum_Ico_eq_sum_range]
    simp
  rw [sum_congr rfl inner, sum_comm]
  refine sum_congr rfl fun k hk => ?_
  have hk := mem_range.mp hk
  rw [← sum_filter]
  have : (range p1).filter (fun j1 => j1 ≤ k ∧ k < j1 + p2) = Ico (k + 1 - p2) (min p1 (k + 1)) := by
    ext j
    simp only [mem_filter, mem_range, mem_Ico]
    omega
  rw [this, sum_const, Nat.card_Ico, nsmul_eq_mul]

theorem winMean_winMean (x : ℕ → K) {p1 p2 p i : ℕ} (h1 : 1 ≤ p1) (h2 : 1 ≤ p2) (hp : p1 + p2 - 1 = p)
    (h12 : p1 = p2 ∨ p1 = p2 + 1) :
    Spec.winMean (Spec.winMean x p2) p1 i = Spec.trima x p i := by
  have hw : ∀ k < p, min p1 (k + 1) - (k + 1 - p2) = Spec.triWeight p k := by
    intro k hk
    unfold Spec.triWeight
    omega
  have hsum : ∀ f : ℕ → K, ∑ j1 ∈ range p1, ∑ j2 ∈ range p2, f (j1 + j2)
      = ∑ k ∈ range p, (Spec.triWeight p k : K) * f k := by
    intro f
    rw [double_sum f p1 p2 h2, hp]
    refine sum_congr rfl fun k hk => ?_
    rw [hw k (mem_range.mp hk)]
  have hone := hsum (fun _ => 1)
  simp only [sum_const, card_range, nsmul_eq_mul, mul_one] at hone
  unfold Spec.winMean Spec.winSum Spec.trima
  rw [← hone, ← hsum (fun k => x (i - k)), ← sum_div]
  simp only [Nat.sub_sub]
  rw [div_div, mul_comm (p2 : K)]

end Bta
