import Verif.Lemmas.Mas
import Verif.Spec.Memory
import Mathlib.Algebra.Order.Archimedean.Basic

/-!
# Fading memory of averages: the mathematics
-/

set_option linter.unusedSectionVars false
set_option linter.unusedVariables false

namespace Bta
open Line Ext Finset

variable {K : Type} [Field K] [LinearOrder K] [IsStrictOrderedRing K]

/-- A formula `Φ x b i` (data, first bar with data, bar; values from bar `b + e` on) with bounded values for bounded data
whose values for two histories which are close from some bar on become close. -/
structure Fading (Φ : (ℕ → K) → ℕ → ℕ → K) (e : ℕ) : Prop where
  bdd : ∀ B : K, ∃ C : K, ∀ (x : ℕ → K) (b i : ℕ), b + e ≤ i → (∀ j, b ≤ j → j ≤ i → |x j| ≤ B) → |Φ x b i| ≤ C
  fade : ∀ B ε : K, 0 < ε → ∃ δ : K, 0 < δ ∧ ∃ N : ℕ, e ≤ N ∧ ∀ (x x' : ℕ → K) (b b' s d i : ℕ),
    b ≤ s + d → b' ≤ s → s + N ≤ i → (∀ j, b ≤ j → j ≤ i + d → |x j| ≤ B) → (∀ j, b' ≤ j → j ≤ i → |x' j| ≤ B) →
    (∀ j, s ≤ j → j ≤ i → |x (j + d) - x' j| ≤ δ) → |Φ x b (i + d) - Φ x' b' i| ≤ ε

/-- bounded by the bounds of the data -/
theorem Averages.abs {F : ℕ → (ℕ → K) → ℕ → ℕ → K} {e : ℕ → ℕ} (h : Averages F e) {p : ℕ} (hp : 1 ≤ p) (B : K)
    (x : ℕ → K) (b i : ℕ) (hi : b + e p ≤ i) (hx : ∀ j, b ≤ j → j ≤ i → |x j| ≤ B) : |F p x b i| ≤ B :=
  abs_le.mpr (h p hp x b i (-B) B hi fun j h1 h2 => abs_le.mp (hx j h1 h2))

/-! ### averages over a window -/

theorem wmean_shift (w : ℕ → K) {p : ℕ} (x : ℕ → K) {i : ℕ} (d : ℕ) (hi : p ≤ i + 1) :
    wmean w p x (i + d) = wmean w p (fun j => x (j + d)) i := by
  unfold wmean
  congr 1
  refine sum_congr rfl fun j hj => ?_
  have := mem_range.mp hj
  rw [show i + d - j = i - j + d from by omega]

/-- an average over the window which may be shifted in time -/
theorem Fading.window {F : ℕ → (ℕ → K) → ℕ → ℕ → K} (hA : Averages F ext1) (hM : Mono F ext1) (hf : Affine F ext1)
    (hloc : ∀ p x b b' i, F p x b i = F p x b' i)
    (hsh : ∀ p, 1 ≤ p → ∀ x b i d, p ≤ i + 1 → F p x b (i + d) = F p (fun j => x (j + d)) b i) {p : ℕ} (hp : 1 ≤ p) :
    Fading (F p) (p - 1) where
  bdd := fun B => ⟨B, fun x b i hi hx => hA.abs hp B x b i hi hx⟩
  fade := by
    intro B ε hε
    refine ⟨ε, hε, p - 1, le_refl _, ?_⟩
    intro x x' b b' s d i hb hb' hi hx hx' hc
    rw [hsh p hp x b i d (by omega), hloc p _ b s i, hloc p x' b' s i]
    have hu : F p (fun j => x (j + d)) s i ≤ F p x' s i + ε := by
      have := hf p hp x' s i 1 ε (by unfold ext1; omega)
      rw [one_mul] at this
      rw [← this]
      refine hM p hp _ _ s i (by unfold ext1; omega) fun j h1 h2 => ?_
      have := (abs_le.mp (hc j h1 h2)).2
      linarith
    have hl : F p x' s i + -ε ≤ F p (fun j => x (j + d)) s i := by
      have := hf p hp x' s i 1 (-ε) (by unfold ext1; omega)
      rw [one_mul] at this
      rw [← this]
      refine hM p hp _ _ s i (by unfold ext1; omega) fun j h1 h2 => ?_
      have := (abs_le.mp (hc j h1 h2)).1
      linarith
    rw [abs_le]
    constructor <;> linarith

theorem fading_sma {p : ℕ} (hp : 1 ≤ p) : Fading (smaF p : (ℕ → K) → ℕ → ℕ → K) (p - 1) :=
  Fading.window smaF_averages smaF_mono smaF_affine (fun _ _ _ _ _ => rfl)
    (fun p hp x b i d h => by
      unfold smaF
      rw [winMean_eq _ hp, winMean_eq _ hp]
      exact wmean_shift _ x d h) hp
theorem fading_wma {p : ℕ} (hp : 1 ≤ p) : Fading (wmaF p : (ℕ → K) → ℕ → ℕ → K) (p - 1) :=
  Fading.window wmaF_averages wmaF_mono wmaF_affine (fun _ _ _ _ _ => rfl) (fun p hp x b i d h => wmean_shift _ x d h) hp
theorem fading_trima {p : ℕ} (hp : 1 ≤ p) : Fading (trimaF p : (ℕ → K) → ℕ → ℕ → K) (p - 1) :=
  Fading.window trimaF_averages trimaF_mono trimaF_affine (fun _ _ _ _ _ => rfl)
    (fun p hp x b i d h => wmean_shift _ x d h) hp

/-! ### exponential averages -/

theorem expAvg_succ (a : K) (x : ℕ → K) (b p i : ℕ) (hi : b + p - 1 ≤ i) :
    Spec.expAvg a x b p (i + 1) = Spec.expAvg a x b p i + a * (x (i + 1) - Spec.expAvg a x b p i) := by
  unfold Spec.expAvg
  rw [show i + 1 - (b + p - 1) = i - (b + p - 1) + 1 from by omega]
  simp only [Spec.expRec]
  rw [show b + p - 1 + (i - (b + p - 1)) + 1 = i + 1 from by omega]

/-- same data from bar `s + 1` on: the difference shrinks with factor `1 - a` -/
theorem expAvg_diff (a : K) {x x' : ℕ → K} {b b' p p' s d : ℕ} (hb : b + p - 1 ≤ s + d) (hb' : b' + p' - 1 ≤ s) :
    ∀ k, (∀ j, s < j → j ≤ s + k → x (j + d) = x' j) →
      Spec.expAvg a x b p (s + k + d) - Spec.expAvg a x' b' p' (s + k)
        = (1 - a) ^ k * (Spec.expAvg a x b p (s + d) - Spec.expAvg a x' b' p' s) := by
  intro k
  induction k with
  | zero => intro _; simp
  | succ k ih =>
    intro h
    have i1 := ih fun j h1 h2 => h j h1 (by omega)
    have i2 := h (s + k + 1) (by omega) (by omega)
    rw [show s + (k + 1) + d = s + k + d + 1 from by omega, show s + (k + 1) = s + k + 1 from by omega,
      expAvg_succ a x b p _ (by omega), expAvg_succ a x' b' p' _ (by omega),
      show s + k + d + 1 = s + k + 1 + d from by omega, i2, pow_succ, mul_right_comm, ← i1]
    ring

/-- data within `δ` from bar `s + 1` on -/
theorem expAvg_close {a : K} (h0 : 0 ≤ a) (h1 : a ≤ 1) {x x' : ℕ → K} {b b' p s d : ℕ} {δ : K} (hδ : 0 ≤ δ)
    (hb : b + p - 1 ≤ s + d) (hb' : b' + p - 1 ≤ s) :
    ∀ k, (∀ j, s < j → j ≤ s + k → |x (j + d) - x' j| ≤ δ) →
      |Spec.expAvg a x b p (s + k + d) - Spec.expAvg a x' b' p (s + k)|
        ≤ (1 - a) ^ k * |Spec.expAvg a x b p (s + d) - Spec.expAvg a x' b' p s| + δ := by
  intro k
  induction k with
  | zero => intro _; simpa using hδ
  | succ k ih =>
    intro h
    have i1 := ih fun j h1 h2 => h j h1 (by omega)
    have i2 := h (s + k + 1) (by omega) (by omega)
    rw [show s + (k + 1) + d = s + k + d + 1 from by omega, show s + (k + 1) = s + k + 1 from by omega,
      expAvg_succ a x b p _ (by omega), expAvg_succ a x' b' p _ (by omega),
      show s + k + d + 1 = s + k + 1 + d from by omega]
    generalize Spec.expAvg a x b p (s + k + d) = u at *
    generalize Spec.expAvg a x' b' p (s + k) = v at *
    have e1 : u + a * (x (s + k + 1 + d) - u) - (v + a * (x' (s + k + 1) - v))
        = (1 - a) * (u - v) + a * (x (s + k + 1 + d) - x' (s + k + 1)) := by ring
    rw [e1]
    refine le_trans (abs_add_le _ _) ?_
    rw [abs_mul, abs_mul, abs_of_nonneg h0, abs_of_nonneg (sub_nonneg.mpr h1), pow_succ]
    have m1 := mul_le_mul_of_nonneg_left i1 (sub_nonneg.mpr h1)
    have m2 := mul_le_mul_of_nonneg_left i2 h0
    nlinarith

theorem fading_exp [Archimedean K] {a : K} (h0 : 0 < a) (h1 : a ≤ 1) {p : ℕ} (hp : 1 ≤ p) :
    Fading (fun x b i => Spec.expAvg a x b p i) (p - 1) where
  bdd := fun B => ⟨B, fun x b i hi hx => abs_le.mpr
    (expAvg_bounds h0.le h1 hp hi fun j h2 h3 => abs_le.mp (hx j h2 h3))⟩
  fade := by
    intro B ε hε
    obtain ⟨N0, hN0⟩ := exists_pow_lt_of_lt_one (x := ε / 2 / (2 * |B| + 1)) (by positivity) (show 1 - a < 1 by linarith)
    refine ⟨ε / 2, by positivity, p - 1 + N0, by omega, ?_⟩
    intro x x' b b' s d i hb hb' hi hx hx' hc
    have key := expAvg_close h0.le h1 (δ := ε / 2) (by positivity) (x := x) (x' := x') (b := b) (b' := b') (p := p)
      (s := s + (p - 1)) (d := d) (by omega) (by omega) (i - (s + (p - 1))) fun j h2 h3 => hc j (by omega) (by omega)
    rw [show s + (p - 1) + (i - (s + (p - 1))) = i from by omega] at key
    have c1 : |Spec.expAvg a x b p (s + (p - 1) + d)| ≤ B := abs_le.mpr
      (expAvg_bounds h0.le h1 hp (by omega) fun j h2 h3 => abs_le.mp (hx j h2 (by omega)))
    have c2 : |Spec.expAvg a x' b' p (s + (p - 1))| ≤ B := abs_le.mpr
      (expAvg_bounds h0.le h1 hp (by omega) fun j h2 h3 => abs_le.mp (hx' j h2 (by omega)))
    have c3 : |Spec.expAvg a x b p (s + (p - 1) + d) - Spec.expAvg a x' b' p (s + (p - 1))| ≤ 2 * |B| := by
      refine le_trans (abs_sub _ _) ?_
      have := le_abs_self B
      linarith
    refine le_trans key ?_
    have q0 : 0 ≤ 1 - a := by linarith
    have c4 : (1 - a) ^ (i - (s + (p - 1))) ≤ (1 - a) ^ N0 := pow_le_pow_of_le_one q0 (by linarith) (by omega)
    have c5 : (1 - a) ^ (i - (s + (p - 1))) * (2 * |B| + 1) ≤ ε / 2 := by
      rw [← le_div_iff₀ (by positivity)]
      exact le_trans c4 hN0.le
    have c6 : 0 ≤ (1 - a) ^ (i - (s + (p - 1))) := pow_nonneg q0 _
    have c7 := mul_le_mul_of_nonneg_left c3 c6
    nlinarith

theorem fading_ema [Archimedean K] {p : ℕ} (hp : 1 ≤ p) : Fading (emaF p : (ℕ → K) → ℕ → ℕ → K) (p - 1) :=
  fading_exp (by positivity) (ema_alpha hp).2 hp
theorem fading_smma [Archimedean K] {p : ℕ} (hp : 1 ≤ p) : Fading (smmaF p : (ℕ → K) → ℕ → ℕ → K) (p - 1) :=
  fading_exp (by have : (0 : K) < p := by exact_mod_cast hp
                 positivity) (smma_alpha hp).2 hp

/-! ### combinations -/

/-- linear combination -/
theorem Fading.lin {Φ Ψ : (ℕ → K) → ℕ → ℕ → K} {e e' E : ℕ} (h : Fading Φ e) (h' : Fading Ψ e') (he : e ≤ E) (he' : e' ≤ E)
    (c c' : K) : Fading (fun x b i => c * Φ x b i + c' * Ψ x b i) E where
  bdd := fun B => by
    obtain ⟨C, hC⟩ := h.bdd B
    obtain ⟨C', hC'⟩ := h'.bdd B
    refine ⟨|c| * C + |c'| * C', fun x b i hi hx => le_trans (abs_add_le _ _) ?_⟩
    rw [abs_mul, abs_mul]
    exact add_le_add (mul_le_mul_of_nonneg_left (hC x b i (by omega) hx) (abs_nonneg _))
      (mul_le_mul_of_nonneg_left (hC' x b i (by omega) hx) (abs_nonneg _))
  fade := by
    intro B ε hε
    have p1 : 0 < |c| + 1 := by positivity
    have p2 : 0 < |c'| + 1 := by positivity
    obtain ⟨δ, hδ, N, hN, hf⟩ := h.fade B (ε / 2 / (|c| + 1)) (by positivity)
    obtain ⟨δ', hδ', N', hN', hf'⟩ := h'.fade B (ε / 2 / (|c'| + 1)) (by positivity)
    refine ⟨min δ δ', lt_min hδ hδ', max E (max N N'), le_max_left _ _, ?_⟩
    intro x x' b b' s d i hb hb' hi hx hx' hc
    have m1 : N ≤ max E (max N N') := le_trans (le_max_left _ _) (le_max_right _ _)
    have m2 : N' ≤ max E (max N N') := le_trans (le_max_right _ _) (le_max_right _ _)
    have r1 := hf x x' b b' s d i hb hb' (by omega) hx hx' fun j h1 h2 => le_trans (hc j h1 h2) (min_le_left _ _)
    have r2 := hf' x x' b b' s d i hb hb' (by omega) hx hx' fun j h1 h2 => le_trans (hc j h1 h2) (min_le_right _ _)
    rw [le_div_iff₀ p1] at r1
    rw [le_div_iff₀ p2] at r2
    have e1 : c * Φ x b (i + d) + c' * Ψ x b (i + d) - (c * Φ x' b' i + c' * Ψ x' b' i)
        = c * (Φ x b (i + d) - Φ x' b' i) + c' * (Ψ x b (i + d) - Ψ x' b' i) := by ring
    simp only [e1]
    refine le_trans (abs_add_le _ _) ?_
    rw [abs_mul, abs_mul]
    nlinarith [abs_nonneg (Φ x b (i + d) - Φ x' b' i), abs_nonneg (Ψ x b (i + d) - Ψ x' b' i)]

/-- the data themselves -/
theorem Fading.id : Fading (fun (x : ℕ → K) _ i => x i) 0 where
  bdd := fun B => ⟨B, fun x b i hi hx => hx i (by omega) (le_refl _)⟩
  fade := fun B ε hε => ⟨ε, hε, 0, le_refl _, fun x x' b b' s d i hb hb' hi hx hx' hc => hc i (by omega) (le_refl _)⟩

/-- one after the other -/
theorem Fading.comp {Φ Ψ : (ℕ → K) → ℕ → ℕ → K} {e e' : ℕ} (h : Fading Φ e) (h' : Fading Ψ e') :
    Fading (fun x b i => Ψ (Φ x b) (b + e) i) (e + e') where
  bdd := fun B => by
    obtain ⟨C, hC⟩ := h.bdd B
    obtain ⟨C', hC'⟩ := h'.bdd C
    exact ⟨C', fun x b i hi hx => hC' _ _ _ (by omega) fun j h1 h2 => hC x b j h1 fun j' h3 h4 => hx j' h3 (by omega)⟩
  fade := by
    intro B ε hε
    obtain ⟨C, hC⟩ := h.bdd B
    obtain ⟨δ', hδ', N', hN', hf'⟩ := h'.fade C ε hε
    obtain ⟨δ, hδ, N, hN, hf⟩ := h.fade B δ' hδ'
    refine ⟨δ, hδ, N + N', by omega, ?_⟩
    intro x x' b b' s d i hb hb' hi hx hx' hc
    refine hf' (Φ x b) (Φ x' b') (b + e) (b' + e) (s + N) d i (by omega) (by omega) (by omega) ?_ ?_ ?_
    · exact fun j h1 h2 => hC x b j h1 fun j' h3 h4 => hx j' h3 (by omega)
    · exact fun j h1 h2 => hC x' b' j h1 fun j' h3 h4 => hx' j' h3 (by omega)
    · intro j h1 h2
      exact hf x x' b b' s d j hb hb' h1 (fun j' h3 h4 => hx j' h3 (by omega)) (fun j' h3 h4 => hx' j' h3 (by omega))
        fun j' h3 h4 => hc j' h3 (by omega)

theorem Fading.congr {Φ Ψ : (ℕ → K) → ℕ → ℕ → K} {e e' : ℕ} (h : Fading Φ e) (he : e = e') (hΦ : ∀ x b i, Φ x b i = Ψ x b i) :
    Fading Ψ e' := by
  have : Φ = Ψ := by funext x b i; exact hΦ x b i
  rw [← this, ← he]
  exact h

/-- repeated application -/
theorem Fading.iter {F : ℕ → (ℕ → K) → ℕ → ℕ → K} {e : ℕ → ℕ} {p : ℕ} (h : Fading (F p) (e p)) :
    ∀ k, Fading (fun x b i => Spec.iter F e p x b k i) (k * e p)
  | 0 => by simpa [Spec.iter] using Fading.id
  | k + 1 => (Fading.comp (Fading.iter h k) h).congr (by rw [Nat.succ_mul]) fun x b i => rfl

/-! ### from formulas to lines -/

theorem Fading.forgets {f : Line (Ext K) → Except Err (Line (Ext K))} {Φ : (ℕ → K) → ℕ → ℕ → K} {e : ℕ}
    (hf : ∀ (a : Line (Ext K)) (n m : ℕ) (x : ℕ → K), Holds a n m x → m + e ≤ n →
      Gives (f a) fun r => Shows r n (m + e) (Φ x (m - 1)))
    (h : Fading Φ e) : Spec.Forgets f e := by
  intro B ε hε
  obtain ⟨δ, hδ, N, hN, hΦ⟩ := h.fade B ε hε
  refine ⟨N, fun a a' n n' m m' x x' s d ha ha' hn hn' hs hs' hB hB' hx => ?_⟩
  have := ha.pos
  have := ha'.pos
  obtain ⟨r, h1, h2⟩ := hf a n m x ha hn
  obtain ⟨r', h1', h2'⟩ := hf a' n' m' x' ha' hn'
  refine ⟨r, r', h1, h1', fun i hi hin hin' => ?_⟩
  refine ⟨_, _, h2.val (i + d) (by omega) hin, h2'.val i (by omega) hin', ?_⟩
  refine hΦ x x' (m - 1) (m' - 1) s d i (by omega) (by omega) hi (fun j h3 h4 => hB j (by omega) (by omega))
    (fun j h3 h4 => hB' j (by omega) (by omega)) fun j h3 h4 => ?_
  rw [hx j h3 (by omega) (by omega), sub_self, abs_zero]
  exact hδ.le

end Bta
