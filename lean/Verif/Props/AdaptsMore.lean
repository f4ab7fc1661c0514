import Verif.Props.Adapts
import Verif.Props.Rising

/-!
# The adaptive average: beginnings are forgotten (C102), markets which only rise or fall (C141)
-/

set_option linter.unusedSectionVars false

namespace Bta
open Line Ext Ind Spec Finset

variable {K : Type} [Field K] [LinearOrder K] [IsStrictOrderedRing K]
variable {a a' : Line (Ext K)} {n n' m p i : ℕ} {x x' : ℕ → K} {fast slow : K}

theorem squared_mem {q : K} (h : 1 ≤ q) : 0 < squared q ∧ squared q ≤ 1 := by
  unfold squared
  have h0 : 0 < q + 1 := by linarith
  have h1 : 2 / (q + 1) ≤ 1 := by rw [div_le_one h0]; linarith
  exact ⟨by positivity, pow_le_one₀ (by positivity) h1⟩

/-- the part of the way is decided by the last `p + 1` prices -/
theorem kamaFactor_window {i d : ℕ} (h : ∀ j, j ≤ p → x (i + d - j) = x' (i - j)) :
    kamaFactor fast slow x p 1 (i + d) = kamaFactor fast slow x' p 1 i := by
  have hv : volatility x p 1 (i + d) = volatility x' p 1 i := by
    unfold volatility
    refine sum_congr rfl fun j hj => ?_
    have hj := mem_range.1 hj
    rw [h j (by omega), show i + d - j - 1 = i + d - (j + 1) by omega, show i - j - 1 = i - (j + 1) by omega, h (j + 1) (by omega)]
  unfold kamaFactor
  have h0 := h 0 (by omega)
  rw [Nat.sub_zero, Nat.sub_zero] at h0
  rw [hv, h0, h p (le_refl p)]

/-- **C102** kama: two histories, of whatever lengths, with the same prices from bar `s` of the one (bar `s + d` of the other) on. Once
both deliver and a period has passed, the difference is with each bar multiplied by at most `1 - c`, where `c` is the squared factor of
the slow exponential average. -/
theorem C102_kama (hf : 1 ≤ fast) (hs : fast < slow) (ha : Holds a n 1 x) (ha' : Holds a' n' 1 x') (hp : 1 ≤ p) (hn : p ≤ n) (hn' : p ≤ n')
    (last : Bool) (hm : ∀ i, p ≤ i → i < n → Moved x p i) (hm' : ∀ i, p ≤ i → i < n' → Moved x' p i) {s d : ℕ}
    (heq : ∀ j, s ≤ j → j < n' → j + d < n → x (j + d) = x' j) :
    ∃ r r', Ind.kama (fin fast) (fin slow) 1 (if last then .last else .avg) p a = .ok r ∧
      Ind.kama (fin fast) (fin slow) 1 (if last then .last else .avg) p a' = .ok r' ∧
      ∀ k, s + p + k + d < n → s + p + k < n' → ∃ v v' u u' : K,
        r.series[s + p + d]? = some (fin v) ∧ r'.series[s + p]? = some (fin v') ∧
        r.series[s + p + k + d]? = some (fin u) ∧ r'.series[s + p + k]? = some (fin u') ∧
        |u - u'| ≤ (1 - squared slow) ^ k * |v - v'| := by
  have hv : ∀ i, p + 1 ≤ i + 1 → i < n → volatility x p 1 i ≠ 0 := fun i h1 h2 => (volatility_pos (hm i (by omega) h2)).ne'
  have hv' : ∀ i, p + 1 ≤ i + 1 → i < n' → volatility x' p 1 i ≠ 0 := fun i h1 h2 => (volatility_pos (hm' i (by omega) h2)).ne'
  obtain ⟨r, e, hr⟩ := C19_kama_partial (fast := fast) (slow := slow) (by linarith) (by linarith) ha hp (le_refl 1) (by omega) last hv
  obtain ⟨r', e', hr'⟩ := C19_kama_partial (fast := fast) (slow := slow) (by linarith) (by linarith) ha' hp (le_refl 1) (by omega) last hv'
  refine ⟨r, r', e, e', fun k h1 h2 => ⟨_, _, _, _, hr.val _ (by omega) (by omega), hr'.val _ (by omega) (by omega), hr.val _ (by omega) h1,
    hr'.val _ (by omega) h2, ?_⟩⟩
  beta_reduce
  induction k with
  | zero => simp
  | succ k ih =>
    have e := ih (by omega) (by omega)
    rw [show s + p + (k + 1) + d - (p + 1 - 2) = (s + p + k + d - (p + 1 - 2)) + 1 by omega,
      show s + p + (k + 1) - (p + 1 - 2) = (s + p + k - (p + 1 - 2)) + 1 by omega, adaptive, adaptive,
      show p + 1 - 2 + (s + p + k + d - (p + 1 - 2)) + 1 = s + p + (k + 1) + d by omega,
      show p + 1 - 2 + (s + p + k - (p + 1 - 2)) + 1 = s + p + (k + 1) by omega,
      heq (s + p + (k + 1)) (by omega) (by omega) (by omega),
      kamaFactor_window (x' := x') (fun j hj => by
        rw [show s + p + (k + 1) + d - j = s + p + (k + 1) - j + d by omega]
        exact heq _ (by omega) (by omega) (by omega))]
    obtain ⟨c1, c2, -, -⟩ := kamaFactor_adapts (x := x') hf hs (by omega) (hm' (s + p + (k + 1)) (by omega) (by omega))
    have c3 := (squared_mem hf).2
    generalize kamaFactor fast slow x' p 1 (s + p + (k + 1)) = c at *
    generalize adaptive (kamaFactor fast slow x p 1) x _ _ (s + p + k + d - (p + 1 - 2)) = u at *
    generalize adaptive (kamaFactor fast slow x' p 1) x' _ _ (s + p + k - (p + 1 - 2)) = u' at *
    rw [show u + c * (x' (s + p + (k + 1)) - u) - (u' + c * (x' (s + p + (k + 1)) - u')) = (1 - c) * (u - u') by ring, abs_mul,
      abs_of_nonneg (by linarith : 0 ≤ 1 - c), pow_succ, mul_comm ((1 - squared slow) ^ k), mul_assoc]
    exact mul_le_mul (by linarith) e (abs_nonneg _) (by linarith)

theorem adaptive_rises {c : ℕ → K} {s : ℕ} {v : K} (hv : v ≤ x s) : ∀ j, (∀ k, k < j → 0 ≤ c (s + k + 1) ∧ c (s + k + 1) ≤ 1 ∧ x (s + k) ≤ x (s + k + 1)) →
    adaptive c x s v j ≤ x (s + j) ∧ (1 ≤ j → adaptive c x s v (j - 1) ≤ adaptive c x s v j) := by
  intro j
  induction j with
  | zero => exact fun _ => ⟨hv, fun h => by omega⟩
  | succ j ih =>
    intro h
    obtain ⟨h1, -⟩ := ih fun k hk => h k (by omega)
    obtain ⟨c0, c1, hx⟩ := h j (by omega)
    rw [Nat.add_sub_cancel, adaptive, show s + (j + 1) = s + j + 1 by omega]
    have h2 : 0 ≤ x (s + j + 1) - adaptive c x s v j := by linarith
    have h3 := mul_nonneg c0 h2
    have h4 := mul_le_mul_of_nonneg_right c1 h2
    exact ⟨by linarith, fun _ => by linarith⟩

/-- **C141** kama in a market which never falls (but moves in each period): it never falls and is never above the price. -/
theorem C141_kama (hf : 1 ≤ fast) (hs : fast < slow) (ha : Holds a n 1 x) (hp : 1 ≤ p) (hn : p ≤ n) (last : Bool)
    (hm : ∀ i, p ≤ i → i < n → Moved x p i) (hx : Rises x 1 n) :
    Gives (Ind.kama (fin fast) (fin slow) 1 (if last then .last else .avg) p a) fun r => ∃ g, Shows r n (p + 1) g ∧ Rises g (p + 1) n ∧
      ∀ i, p + 1 ≤ i + 1 → i < n → g i ≤ x i := by
  refine (C19_kama_partial (fast := fast) (slow := slow) (by linarith) (by linarith) ha hp (le_refl 1) (by omega) last fun i h1 h2 =>
    (volatility_pos (hm i (by omega) h2)).ne').imp fun r hr => ?_
  have up : ∀ t j, j + t < n → x j ≤ x (j + t) := fun t => by
    induction t with
    | zero => exact fun j _ => le_refl _
    | succ t ih => exact fun j hj => (ih j (by omega)).trans (hx (j + t) (by omega) (by omega))
  have hseed : kamaSeed last x p (p + 1 - 2) ≤ x (p + 1 - 2) := by
    unfold kamaSeed
    cases last
    · simp only [Bool.false_eq_true, if_false]
      exact (smaF_averages p hp x 0 (p + 1 - 2) (x 0) (x (p + 1 - 2)) (by unfold ext1; omega) fun j _ hj =>
        ⟨by simpa using up j 0 (by omega), by
          have := up (p + 1 - 2 - j) j (by omega)
          rwa [show j + (p + 1 - 2 - j) = p + 1 - 2 by omega] at this⟩).2
    · simp only [if_true]; exact le_refl _
  have key : ∀ i, p ≤ i → i < n → _ := fun i h1 h2 => adaptive_rises (x := x) (c := kamaFactor fast slow x p 1) hseed (i - (p + 1 - 2)) fun k hk => by
    obtain ⟨c1, c2, -, -⟩ := kamaFactor_adapts (i := p + 1 - 2 + k + 1) hf hs (by omega) (hm _ (by omega) (by omega))
    exact ⟨(squared_mem (by linarith)).1.le.trans c1, c2.trans (squared_mem hf).2, hx _ (by omega) (by omega)⟩
  refine ⟨_, hr, fun i h1 h2 => ?_, fun i h1 h2 => ?_⟩
  · have := (key (i + 1) (by omega) (by omega)).2 (by omega)
    rwa [show i + 1 - (p + 1 - 2) - 1 = i - (p + 1 - 2) by omega] at this
  · have := (key i (by omega) h2).1
    rwa [show p + 1 - 2 + (i - (p + 1 - 2)) = i by omega] at this

theorem adaptive_neg (c x : ℕ → K) (s : ℕ) (v : K) : ∀ j, adaptive c (fun i => -x i) s (-v) j = -adaptive c x s v j := by
  intro j
  induction j with
  | zero => rfl
  | succ j ih => rw [adaptive, adaptive, ih]; ring

/-- **C141** and in a market which never rises it never rises and is never below the price. -/
theorem C141_kama_down (hf : 1 ≤ fast) (hs : fast < slow) (ha : Holds a n 1 x) (hp : 1 ≤ p) (hn : p ≤ n) (last : Bool)
    (hm : ∀ i, p ≤ i → i < n → Moved x p i) (hx : Falls x 1 n) :
    Gives (Ind.kama (fin fast) (fin slow) 1 (if last then .last else .avg) p a) fun r => ∃ g, Shows r n (p + 1) g ∧ Falls g (p + 1) n ∧
      ∀ i, p + 1 ≤ i + 1 → i < n → x i ≤ g i := by
  refine (C19_kama_partial (fast := fast) (slow := slow) (by linarith) (by linarith) ha hp (le_refl 1) (by omega) last fun i h1 h2 =>
    (volatility_pos (hm i (by omega) h2)).ne').imp fun r hr => ?_
  have down : ∀ t j, j + t < n → x (j + t) ≤ x j := fun t => by
    induction t with
    | zero => exact fun j _ => le_refl _
    | succ t ih => exact fun j hj => (hx (j + t) (by omega) (by omega)).trans (ih j (by omega))
  have hseed : x (p + 1 - 2) ≤ kamaSeed last x p (p + 1 - 2) := by
    unfold kamaSeed
    cases last
    · simp only [Bool.false_eq_true, if_false]
      exact (smaF_averages p hp x 0 (p + 1 - 2) (x (p + 1 - 2)) (x 0) (by unfold ext1; omega) fun j _ hj =>
        ⟨by
          have := down (p + 1 - 2 - j) j (by omega)
          rwa [show j + (p + 1 - 2 - j) = p + 1 - 2 by omega] at this, by simpa using down j 0 (by omega)⟩).1
    · simp only [if_true]; exact le_refl _
  have key : ∀ i, p ≤ i → i < n → _ := fun i h1 h2 => adaptive_rises (x := fun i => -x i) (c := kamaFactor fast slow x p 1) (s := p + 1 - 2)
      (neg_le_neg hseed) (i - (p + 1 - 2)) fun k hk => by
    obtain ⟨c1, c2, -, -⟩ := kamaFactor_adapts (i := p + 1 - 2 + k + 1) hf hs (by omega) (hm _ (by omega) (by omega))
    exact ⟨(squared_mem (by linarith)).1.le.trans c1, c2.trans (squared_mem hf).2, neg_le_neg (hx _ (by omega) (by omega))⟩
  refine ⟨_, hr, fun i h1 h2 => ?_, fun i h1 h2 => ?_⟩
  · have := (key (i + 1) (by omega) (by omega)).2 (by omega)
    rw [show i + 1 - (p + 1 - 2) - 1 = i - (p + 1 - 2) by omega, adaptive_neg, adaptive_neg] at this
    exact neg_le_neg_iff.1 this
  · have := (key i (by omega) h2).1
    rw [show p + 1 - 2 + (i - (p + 1 - 2)) = i by omega, adaptive_neg] at this
    exact neg_le_neg_iff.1 this

/-- C141, C102, a case: prices 0, 1, 2, ... rise and move in each period -/
example : Rises (fun i : ℕ => (i : ℚ)) 1 20 ∧ ∀ i, 10 ≤ i → i < 20 → Moved (fun i : ℕ => (i : ℚ)) 10 i :=
  ⟨fun i _ _ => by push_cast; linarith, fun i h1 _ => ⟨0, by norm_num, by
    rw [Nat.sub_zero]
    show (i : ℚ) ≠ ((i - 1 : ℕ) : ℚ)
    exact_mod_cast (by omega : i ≠ i - 1)⟩⟩

end Bta
