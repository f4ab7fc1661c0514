import Verif.Props.Accuracy
import Verif.Props.Spread
import Verif.Props.Price
import Verif.Lemmas.Fading

/-!
# Errors do not add up, continued (C116)

The average true range, the price oscillator, how fast two histories become alike in doubles, and how fast the errors of `obv` may grow.
-/

set_option linter.unusedSectionVars false
set_option linter.unusedVariables false

namespace Spec

/-- on balance volume: the volumes from bar `b` to bar `i`, with the sign of the change of the close from `q` bars before -/
def onBalance (C V : ℕ → ℚ) (q b i : ℕ) : ℚ :=
  ∑ j ∈ Finset.Icc b i, (if C j < C (j - q) then -V j else if C (j - q) < C j then V j else 0)

end Spec

namespace Bta
open Ext Line Spec

attribute [local irreducible] pow2

theorem Doubles.exact {l : Line Dbl} {n m : ℕ} {x : ℕ → ℚ} (hl : Doubles l n m x) : RepW l n m fun i => dbl (x i) := by
  obtain ⟨y, hy, hyx⟩ := Approx.rep hl
  exact ⟨hy.len, hy.mp, hy.pos, fun i h1 h2 => by
    rw [hy.val i h1 h2, sub_eq_zero.mp (abs_eq_zero.mp (le_antisymm (hyx i h1 h2) (abs_nonneg _)))]⟩

theorem safe_pos {B : ℚ} (hB : SafeSize B) : 0 < B := lt_of_lt_of_le (by positivity) hB.1

theorem safe_rng {B : ℚ} (hB : SafeSize B) : Rng B := by
  have := safeSize_pow (k := 1) hB (by norm_num) (by norm_num); rwa [one_mul] at this

theorem rng_le {B : ℚ} (hB : Rng B) : B ≤ pow2 1023 := hB.2.trans (pow2_mono (by norm_num))

section range
variable {h l c : Line Dbl} {n m q p : ℕ} {H L C : ℕ → ℚ} {B : ℚ}

/-- true range: one rounding -/
theorem truerange_acc (hq : 1 ≤ q) (hh : Doubles h n m H) (hl : Doubles l n m L) (hc : Doubles c n m C)
    (bar : ∀ i, m ≤ i + 1 → i < n → L i ≤ H i) (hH : UpTo B H (m - 1) n) (hL : UpTo B L (m - 1) n) (hC : UpTo B C (m - 1) n)
    (hB : SafeSize B) :
    Approx (Ind.truerange q h l c) n (m + q) (trueRange H L C q) (2 * B * u64) ∧ UpTo (2 * B) (trueRange H L C q) (m + q - 1) n := by
  have hpos := hh.pos
  have hr := rep_truerange hq (Doubles.exact hh) (Doubles.exact hl) (Doubles.exact hc)
  have R2 := safeSize_pow (k := 2) hB (by norm_num) (by norm_num)
  have key : ∀ i, m + q ≤ i + 1 → i < n → trueRange H L C q i = max (C (i - q)) (H i) - min (C (i - q)) (L i) ∧
      |trueRange H L C q i| ≤ 2 * B := by
    intro i h1 h2
    have e : trueRange H L C q i = max (C (i - q)) (H i) - min (C (i - q)) (L i) := (trueRange_eq (bar i (by omega) h2)).symm
    refine ⟨e, ?_⟩
    have a1 := abs_le.mp (hH i (by omega) h2)
    have a2 := abs_le.mp (hL i (by omega) h2)
    have a3 := abs_le.mp (hC (i - q) (by omega) (by omega))
    rw [abs_of_nonneg (trueRange_nonneg H L C q i), e]
    have b1 : max (C (i - q)) (H i) ≤ B := max_le a3.2 a1.2
    have b2 : -B ≤ min (C (i - q)) (L i) := le_min a3.1 a2.1
    linarith
  refine ⟨⟨hr.len, hr.mp.trans (by rw [show max (max (m + q) m) (max (m + q) m) = m + q from by omega]), by omega, fun i h1 h2 => ?_⟩,
    fun i h1 h2 => (key i (by omega) h2).2⟩
  obtain ⟨e, hb⟩ := key i h1 h2
  obtain ⟨y, hy, hye⟩ := fl64_near hb R2.1 (rng_le R2)
  refine ⟨y, ?_, hye⟩
  rw [hr.val i (by omega) h2, tr_value (R := binary64) (H i) (L i) (C (i - q)) rfl rfl rfl, ← e]
  exact congrArg some hy

/-- **C116** (atr). The average true range of bars of doubles of size at most `B`, from the highs, lows and closes on, is within
`130 p 2^-53 B` of the exact one, however many bars there are. -/
theorem C116_atr (hp : 1 ≤ p) (hp2 : p ≤ 2 ^ 20) (hq : 1 ≤ q) (hh : Doubles h n m H) (hl : Doubles l n m L) (hc : Doubles c n m C)
    (bar : ∀ i, m ≤ i + 1 → i < n → L i ≤ H i) (hH : UpTo B H (m - 1) n) (hL : UpTo B L (m - 1) n) (hC : UpTo B C (m - 1) n)
    (hB : SafeSize B) (hn : m + q + p - 1 ≤ n) :
    Gives (Ind.atr Ind.smma q p h l c) fun r =>
      Approx r n (m + q + p - 1) (fun i => Spec.smma (trueRange H L C q) (m + q - 1) p i) (130 * p * B / 2 ^ 53) := by
  obtain ⟨h1, h2⟩ := truerange_acc hq hh hl hc bar hH hL hC hB
  have hBp := safe_pos hB
  have hu := u64_pos
  have hpB : B * u64 ≤ p * B * u64 := by
    have : (1 : ℚ) ≤ p := by exact_mod_cast hp
    have := mul_le_mul_of_nonneg_right this (mul_pos hBp u64_pos).le
    linarith
  have hE : 2 * B * u64 ≤ 2 * B := by
    have := mul_le_mul_of_nonneg_left (u64_le.trans (by norm_num : (1 / 1000000 : ℚ) ≤ 1)) (by linarith : (0 : ℚ) ≤ 2 * B)
    linarith
  have R4 := safeSize_pow (k := 4) hB (by norm_num) (by norm_num)
  unfold Ind.atr
  refine ((smma_acc hp hp2).approx h1 h2 hE (by rw [show 2 * (2 * B) = 4 * B from by ring]; exact R4) hn).imp fun r hr => ?_
  refine hr.mono ?_
  have h0 := mul_pos hBp hu
  rw [u64_frac]
  linarith

end range

section osc
variable {a : Line Dbl} {n m : ℕ} {x : ℕ → ℚ} {B : ℚ}

/-- **C116** (apo). The difference of a fast and a slow average. -/
theorem C116_apo {pfast pslow : ℕ} (h1 : 1 ≤ pfast) (h2 : pfast ≤ pslow) (h4 : pslow ≤ 2 ^ 20)
    (ha : Doubles a n m x) (hx : UpTo B x (m - 1) n) (hB : SafeSize B) (hn : m + pslow - 1 ≤ n) :
    Gives (Ind.apo Ind.ema pfast pslow a) fun r =>
      Approx r n (m + pslow - 1) (fun i => Spec.ema x (m - 1) pfast i - Spec.ema x (m - 1) pslow i) (70 * pslow * B / 2 ^ 53) := by
  have hpos := ha.pos
  have hF := ema_acc h1 (h2.trans h4)
  have hG := ema_acc (h1.trans h2) h4
  have R1 := safe_rng hB
  have hBp := safe_pos hB
  have R4 := safeSize_pow (k := 4) hB (by norm_num) (by norm_num)
  have hs := small_step (B := B) h4 hBp
  have hBu0 := mul_pos hBp u64_pos
  have hpB : B * u64 ≤ pslow * B * u64 := by
    have : (1 : ℚ) ≤ pslow := by exact_mod_cast h1.trans h2
    have := mul_le_mul_of_nonneg_right this hBu0.le
    linarith
  have hpf : pfast * B * u64 ≤ pslow * B * u64 := by
    have : (pfast : ℚ) ≤ pslow := by exact_mod_cast h2
    exact mul_le_mul_of_nonneg_right (mul_le_mul_of_nonneg_right this hBp.le) u64_pos.le
  have hpo : Gives (Ind.posc false Ind.ema pfast pslow a) fun r =>
      Approx r.1 n (m + pfast - 1) (emaF pfast x (m - 1)) (30 * pfast * B / 2 ^ 53) ∧
      Approx r.2 n (m + pslow - 1) (emaF pslow x (m - 1)) (30 * pslow * B / 2 ^ 53) :=
    Gives.bind (hF.acc ha hx R1 (by omega)) fun r1 e1 => Gives.bind (hG.acc ha hx R1 (by omega)) fun r2 e2 => Gives.pure ⟨e1, e2⟩
  unfold Ind.apo
  refine Gives.bind hpo fun r e => Gives.pure ?_
  obtain ⟨e1, e2⟩ := e
  rw [u64_frac] at e1 e2 ⊢
  exact ((e1.sub e2 (C := B) (C' := B) (M := 4 * B) ((hF.size hx).mono (by omega) le_rfl) ((hG.size hx).mono (by omega) le_rfl)
    (by linarith) R4.1 (rng_le R4)).mono (by linarith)).congr (by omega) fun _ _ _ => rfl

end osc

/-! ### two histories -/

/-- **C116** (restart). Two histories of doubles of size at most `B` which agree from some bar on (bar `j + d` of the first is bar `j` of the
second for `j > s`): `k` bars later the two averages, as computed, differ by at most `2 B (1 - 2/(p+1))^k` plus `60 p 2^-53 B`. -/
theorem C116_restart {a a' : Line Dbl} {n n' m m' p s d k : ℕ} {x x' : ℕ → ℚ} {B : ℚ} (hp : 1 ≤ p) (hp2 : p ≤ 2 ^ 20)
    (ha : Doubles a n m x) (ha' : Doubles a' n' m' x') (hx : UpTo B x (m - 1) n) (hx' : UpTo B x' (m' - 1) n') (hB : SafeSize B)
    (hs : m + p ≤ s + d + 2) (hs' : m' + p ≤ s + 2) (hk : s + k + d < n) (hk' : s + k < n')
    (hsame : ∀ j, s < j → j ≤ s + k → x (j + d) = x' j) :
    Gives (Ind.ema p a) fun r => Gives (Ind.ema p a') fun r' => ∃ v v', r.series[s + k + d]? = some (dbl v) ∧ r'.series[s + k]? = some (dbl v') ∧
      |v - v'| ≤ 2 * B * (1 - 2 / ((p : ℚ) + 1)) ^ k + 60 * p * B / 2 ^ 53 := by
  have hpos := ha.pos
  have hpos' := ha'.pos
  obtain ⟨r, hr, h1⟩ := C116_ema hp hp2 ha hx hB (by omega)
  obtain ⟨r', hr', h1'⟩ := C116_ema hp hp2 ha' hx' hB (by omega)
  refine ⟨r, hr, r', hr', ?_⟩
  obtain ⟨v, hv, hve⟩ := h1.val (s + k + d) (by omega) hk
  obtain ⟨v', hv', hve'⟩ := h1'.val (s + k) (by omega) hk'
  refine ⟨v, v', hv, hv', ?_⟩
  have hp0 : (1 : ℚ) ≤ p := by exact_mod_cast hp
  have ha0 : 0 ≤ 2 / ((p : ℚ) + 1) := by positivity
  have ha1 : 2 / ((p : ℚ) + 1) ≤ 1 := by rw [div_le_iff₀ (by linarith)]; linarith
  have hd := expAvg_diff (2 / ((p : ℚ) + 1)) (x := x) (x' := x') (b := m - 1) (b' := m' - 1) (p := p) (p' := p) (s := s) (d := d)
    (by omega) (by omega) k hsame
  have g1 := expAvg_upTo ha0 ha1 hp hx (s + d) (by omega) (by omega)
  have g2 := expAvg_upTo ha0 ha1 hp hx' s (by omega) (by omega)
  have hpw : 0 ≤ (1 - 2 / ((p : ℚ) + 1)) ^ k := pow_nonneg (by linarith) _
  have g3 : |Spec.expAvg (2 / ((p : ℚ) + 1)) x (m - 1) p (s + k + d) - Spec.expAvg (2 / ((p : ℚ) + 1)) x' (m' - 1) p (s + k)|
      ≤ 2 * B * (1 - 2 / ((p : ℚ) + 1)) ^ k := by
    rw [hd, abs_mul, abs_of_nonneg hpw, mul_comm (2 * B)]
    refine mul_le_mul_of_nonneg_left ?_ hpw
    rw [abs_le] at g1 g2 ⊢
    constructor <;> linarith
  change |v - Spec.expAvg (2 / ((p : ℚ) + 1)) x (m - 1) p (s + k + d)| ≤ _ at hve
  change |v' - Spec.expAvg (2 / ((p : ℚ) + 1)) x' (m' - 1) p (s + k)| ≤ _ at hve'
  rw [u64_frac] at hve hve' ⊢
  rw [abs_le] at hve hve' g3 ⊢
  constructor <;> linarith

/-! ### running sums: the errors grow no faster than the square of the number of bars -/

/-- `|s_k - S_k| ≤ 3 k² B u` -/
theorem run_step {B s S t T : ℚ} {k : ℕ} (hB : Rng B) (hk : k < 2 ^ 30) (hS : |S| ≤ k * B) (hT : |T| ≤ B) (ht : |t - T| ≤ B * u64)
    (hs : |s - S| ≤ 3 * k ^ 2 * B * u64) :
    ∃ z, (dbl s + dbl t : Dbl) = dbl z ∧ |z - (S + T)| ≤ 3 * ((k + 1 : ℕ) : ℚ) ^ 2 * B * u64 := by
  have hBp : 0 < B := lt_of_lt_of_le (pow2_pos _) hB.1
  have hu := u64_pos
  have hk' : (k : ℚ) ≤ 2 ^ 30 := by exact_mod_cast hk.le
  have hk0 : (0 : ℚ) ≤ k := by positivity
  have hku : 3 * (k : ℚ) * u64 ≤ 1 := by
    calc 3 * (k : ℚ) * u64 ≤ 3 * 2 ^ 30 * u64 := mul_le_mul_of_nonneg_right (by linarith) hu.le
      _ ≤ 1 := by unfold u64; norm_num
  have hq : 3 * (k : ℚ) ^ 2 * B * u64 ≤ k * B := by
    calc 3 * (k : ℚ) ^ 2 * B * u64 = (k * B) * (3 * k * u64) := by ring
      _ ≤ (k * B) * 1 := mul_le_mul_of_nonneg_left hku (by positivity)
      _ = k * B := mul_one _
  have hBu : B * u64 ≤ B := by
    have := mul_le_mul_of_nonneg_left (u64_le.trans (by norm_num : (1 / 1000000 : ℚ) ≤ 1)) hBp.le
    linarith
  have h1 : |s + t| ≤ 2 * (k + 1) * B := by
    rw [abs_le] at hS hT ht hs ⊢
    constructor <;> linarith
  have hM0 : pow2 (-1022) ≤ 2 * ((k : ℚ) + 1) * B := hB.1.trans (by nlinarith)
  have hM1 : 2 * ((k : ℚ) + 1) * B ≤ pow2 1023 := by
    rw [pow2_1023]
    have h2 : 2 * ((k : ℚ) + 1) ≤ 2 ^ 33 := by linarith [show (2 : ℚ) * (2 ^ 30 + 1) ≤ 2 ^ 33 from by norm_num]
    calc 2 * ((k : ℚ) + 1) * B ≤ 2 ^ 33 * B := mul_le_mul_of_nonneg_right h2 hBp.le
      _ ≤ 2 ^ 33 * pow2 990 := mul_le_mul_of_nonneg_left hB.2 (by norm_num)
  obtain ⟨z, hz, hze⟩ := dbl_add h1 hM0 hM1
  refine ⟨z, hz, ?_⟩
  have e : 3 * ((k + 1 : ℕ) : ℚ) ^ 2 * B * u64 = 3 * k ^ 2 * B * u64 + B * u64 + 2 * (k + 1) * B * u64 + 4 * (k * (B * u64)) := by
    push_cast; ring
  rw [e]
  have h4 : 0 ≤ 4 * (k * (B * u64)) := by positivity
  rw [abs_le] at hze hs ht ⊢
  constructor <;> linarith

section obv
variable {c v : Line Dbl} {n m q : ℕ} {C V : ℕ → ℚ} {B : ℚ}

theorem signV_neg {z : Dbl} (h : lt z (lit 0) = true) : (signV z : Dbl) = lit (-1) := by
  unfold signV; rw [h]; rfl
theorem signV_pos {z : Dbl} (h0 : lt z (lit 0) = false) (h : lt (lit 0) z = true) : (signV z : Dbl) = lit 1 := by
  unfold signV; rw [h0, h]; rfl

/-- the sign of a change is not affected by the rounding -/
theorem sign_dbl {x y : ℚ} (hx : fl64 x = .fin x) (hy : fl64 y = .fin y) :
    (signV (dbl x - dbl y : Dbl) : Dbl) = dbl (if x < y then -1 else if y < x then 1 else 0) := by
  have e : (dbl x - dbl y : Dbl) = fl64 (x - y) := by rw [sub_eq_add_neg]; rfl
  have l1 : (lit 1 : Dbl) = dbl 1 := dbl_lit (by have := fl64_nat 1 (by norm_num); simpa using this)
  have l2 : (lit (-1) : Dbl) = dbl (-1) := dbl_lit (by decide +kernel)
  have l0 : (lit 0 : Dbl) = dbl 0 := dbl_lit (by decide +kernel)
  rw [e]
  rcases lt_trichotomy x y with h | h | h
  · have h1 := fl_neg' (R := binary64) (binary64_gradual x y hx hy h.ne) (by linarith : x - y < 0)
    rw [if_pos h, ← l2]
    refine signV_neg ?_
    rw [l0]; exact h1
  · subst h
    rw [if_neg (lt_irrefl _), if_neg (lt_irrefl _), sub_self]
    decide +kernel
  · have h1 := fl_pos (R := binary64) (binary64_gradual x y hx hy h.ne') (by linarith : 0 < x - y)
    rw [if_neg h.not_gt, if_pos h, ← l1]
    refine signV_pos ?_ ?_ <;> rw [l0]
    · exact (lt_asymm' h1).1
    · exact h1

/-- **C116** (obv). For at most `2^30` bars the error at bar `i` is at most `3 (number of summands)^2 2^-53 B`. -/
theorem C116_obv (hq : 1 ≤ q) (hc : Doubles c n m C) (hv : Doubles v n m V) (hV : UpTo B V (m - 1) n) (hB : SafeSize B) (hn : n ≤ 2 ^ 30)
    (hst : ∀ i, m ≤ i + 1 → i < n → fl64 (C i) = .fin (C i)) (i : ℕ) (hi : m + q ≤ i + 1) (hin : i < n) :
    ∃ y, (Ind.obv false q c v).series[i]? = some (dbl y) ∧
      |y - onBalance C V q (m + q - 1) i| ≤ 3 * ((i + 2 - (m + q) : ℕ) : ℚ) ^ 2 * B / 2 ^ 53 := by
  have hpos := hc.pos
  have R1 := safe_rng hB
  have hBp := safe_pos hB
  have hu := u64_pos
  have hd := rep_diff (s := q) (Doubles.exact hc)
  have hm := rep_mul (Doubles.exact hv) (rep_mapOp (f := signV) hd.toRepW).toRepW
  -- one summand
  obtain ⟨T, hTd⟩ : ∃ T : ℕ → ℚ, T = fun j => if C j < C (j - q) then -V j else if C (j - q) < C j then V j else 0 := ⟨_, rfl⟩
  have hT : ∀ j, m + q ≤ j + 1 → j < n → |T j| ≤ B ∧ ∃ t, (dbl (V j) * signV (dbl (C j) - dbl (C (j - q))) : Dbl) = dbl t ∧ |t - T j| ≤ B * u64 := by
    intro j h1 h2
    have h3 := hV j (by omega) h2
    have h5 : T j = V j * (if C j < C (j - q) then -1 else if C (j - q) < C j then 1 else 0) := by
      rw [hTd]
      dsimp only
      split_ifs <;> ring
    have h4 : |T j| ≤ B := by
      rw [hTd]
      dsimp only
      split
      · rwa [abs_neg]
      · split
        · exact h3
        · simpa using hBp.le
    refine ⟨h4, ?_⟩
    rw [sign_dbl (hst j (by omega) h2) (hst (j - q) (by omega) (by omega))]
    obtain ⟨t, ht, hte⟩ := dbl_mul (x := V j) (y := if C j < C (j - q) then -1 else if C (j - q) < C j then 1 else 0) (M := B)
      (by rw [← h5]; exact h4) R1.1 (rng_le R1)
    exact ⟨t, ht, by rw [h5]; exact hte⟩
  have hT2 := fun j h1 h2 => (hT j h1 h2).2
  choose! t ht hte using hT2
  have hm' : RepW _ n (m + q) fun j => dbl (t j) := (hm.congr (m' := m + q) (by omega) fun j h1 h2 => by
    show (dbl (V j) * signV (dbl (C j) - dbl (C (j - q))) : Dbl) = dbl (t j)
    rw [ht j (by omega) h2]).toRepW
  -- the run
  let A : ℕ → Dbl := fun j => Nat.rec (lit 0 + dbl (t (m + q - 1))) (fun k r => r + dbl (t (m + q - 1 + k + 1))) (j - (m + q - 1))
  have hA0 : A (m + q - 1) = lit 0 + dbl (t (m + q - 1)) := by simp [A]
  have hAs : ∀ j, m + q - 1 ≤ j → A (j + 1) = A j + dbl (t (j + 1)) := by
    intro j hj
    simp only [A]
    rw [show j + 1 - (m + q - 1) = (j - (m + q - 1)) + 1 from by omega]
    show _ + dbl (t (m + q - 1 + (j - (m + q - 1)) + 1)) = _
    rw [show m + q - 1 + (j - (m + q - 1)) + 1 = j + 1 from by omega]
  have hrun := rep_cumsum_run (A := A) hm' (fun _ => rfl) hAs hA0
  have hob : ∀ j, onBalance C V q (m + q - 1) j = ∑ e ∈ Finset.Icc (m + q - 1) j, T e := fun _ => by rw [hTd]; rfl
  have main : ∀ k, m + q - 1 + k < n → ∃ y, A (m + q - 1 + k) = dbl y ∧
      |y - onBalance C V q (m + q - 1) (m + q - 1 + k)| ≤ 3 * ((k + 1 : ℕ) : ℚ) ^ 2 * B * u64 ∧
      |onBalance C V q (m + q - 1) (m + q - 1 + k)| ≤ ((k + 1 : ℕ) : ℚ) * B := by
    intro k
    induction k with
    | zero =>
      intro hk
      obtain ⟨z, hz, hze⟩ := run_step (B := B) (s := 0) (S := 0) (t := t (m + q - 1)) (T := T (m + q - 1)) (k := 0) R1 (by norm_num)
        (by simp) (hT _ (by omega) (by omega)).1 (hte _ (by omega) (by omega)) (by simp)
      refine ⟨z, ?_, ?_, ?_⟩
      · rw [Nat.add_zero, hA0, show (lit 0 : Dbl) = dbl 0 from dbl_lit (by decide +kernel), hz]
      · rw [hob, Nat.add_zero, Finset.Icc_self, Finset.sum_singleton]
        rwa [zero_add] at hze
      · rw [hob, Nat.add_zero, Finset.Icc_self, Finset.sum_singleton]
        push_cast
        linarith [(hT (m + q - 1) (by omega) (by omega)).1]
    | succ k ih =>
      intro hk
      obtain ⟨y, hy, hye, hyb⟩ := ih (by omega)
      have h1 := hT (m + q - 1 + k + 1) (by omega) (by omega)
      obtain ⟨z, hz, hze⟩ := run_step (B := B) (s := y) (t := t (m + q - 1 + k + 1)) (k := k + 1) R1 (by omega)
        hyb h1.1 (hte _ (by omega) (by omega)) hye
      have hs : onBalance C V q (m + q - 1) (m + q - 1 + (k + 1)) = onBalance C V q (m + q - 1) (m + q - 1 + k) + T (m + q - 1 + k + 1) := by
        rw [hob, hob, show m + q - 1 + (k + 1) = (m + q - 1 + k) + 1 from by omega, Finset.sum_Icc_succ_top (by omega)]
      refine ⟨z, ?_, ?_, ?_⟩
      · rw [show m + q - 1 + (k + 1) = (m + q - 1 + k) + 1 from by omega, hAs _ (by omega), hy, hz]
      · rw [hs]; exact hze
      · rw [hs]
        have := abs_add_le (onBalance C V q (m + q - 1) (m + q - 1 + k)) (T (m + q - 1 + k + 1))
        push_cast at hyb ⊢
        linarith [h1.1]
  obtain ⟨y, hy, hye, -⟩ := main (i - (m + q - 1)) (by omega)
  rw [show m + q - 1 + (i - (m + q - 1)) = i from by omega] at hy hye
  refine ⟨y, ?_, ?_⟩
  · rw [← hy]; exact hrun.val i (by omega) hin
  · rw [u64_frac, show i + 2 - (m + q) = i - (m + q - 1) + 1 from by omega]; exact hye

end obv

/-! ### cases -/

/-- numbers as a line of doubles -/
theorem doubles_of (xs : List ℚ) (h : 0 < xs.length) : Doubles (⟨xs.map dbl, 1⟩ : Line Dbl) xs.length 1 fun i => xs.getD i 0 :=
  ⟨by simp, rfl, le_refl _, fun i _ hi => ⟨xs.getD i 0, by simp [hi], by simp⟩⟩

theorem safe_8 : SafeSize 8 := by
  constructor
  · rw [zpow_neg, zpow_ofNat]
    exact (inv_le_one_of_one_le₀ (one_le_pow₀ (by norm_num))).trans (by norm_num)
  · rw [zpow_ofNat]
    calc (8 : ℚ) = 2 ^ 3 := by norm_num
      _ ≤ 2 ^ 980 := pow_le_pow_right₀ (by norm_num) (by norm_num)

/-- C116, atr: bars (the second with a gap) which meet the hypotheses, and the values at the last bar -/
example : (∃ r, Ind.atr Ind.smma 1 2 ⟨[3, 7, 8, 6].map dbl, 1⟩ ⟨[1, 5, 6, 3].map dbl, 1⟩ ⟨[2, 6, 7, 3].map dbl, 1⟩ = .ok r ∧
      Approx r 4 3 (fun i => Spec.smma (trueRange (fun i => [3, 7, 8, 6].getD i 0) (fun i => [1, 5, 6, 3].getD i 0) (fun i => [2, 6, 7, 3].getD i 0) 1)
        1 2 i) (130 * (2 : ℕ) * 8 / 2 ^ 53)) ∧
    Spec.smma (trueRange (fun i => [3, 7, 8, 6].getD i 0) (fun i => [1, 5, 6, 3].getD i 0) (fun i => [2, 6, 7, 3].getD i 0) 1) 1 2 3 = (15 / 4 : ℚ) := by
  refine ⟨C116_atr (B := 8) (q := 1) (p := 2) (by norm_num) (by norm_num) le_rfl (doubles_of [3, 7, 8, 6] (by simp))
    (doubles_of [1, 5, 6, 3] (by simp)) (doubles_of [2, 6, 7, 3] (by simp)) ?_ ?_ ?_ ?_ safe_8 (by simp), ?_⟩
  · intro i _ h; interval_cases i <;> norm_num
  · intro i _ h; interval_cases i <;> norm_num
  · intro i _ h; interval_cases i <;> norm_num
  · intro i _ h; interval_cases i <;> norm_num
  · decide +kernel

/-- C116, obv: closes up, down and unchanged -/
example : (∃ y, (Ind.obv false 1 ⟨[3, 7, 6, 6].map dbl, 1⟩ ⟨[1, 5, 2, 3].map dbl, 1⟩).series[3]? = some (dbl y) ∧
      |y - onBalance (fun i => [3, 7, 6, 6].getD i 0) (fun i => [1, 5, 2, 3].getD i 0) 1 1 3| ≤ 3 * (3 : ℕ) ^ 2 * 8 / 2 ^ 53) ∧
    onBalance (fun i => [3, 7, 6, 6].getD i 0) (fun i => [1, 5, 2, 3].getD i 0) 1 1 3 = 3 := by
  refine ⟨C116_obv (B := 8) (q := 1) le_rfl (doubles_of [3, 7, 6, 6] (by simp)) (doubles_of [1, 5, 2, 3] (by simp)) ?_ safe_8 (by simp) ?_ 3
    (by simp) (by simp), by decide +kernel⟩
  · intro i _ h; simp only [List.length_cons, List.length_nil] at h; interval_cases i <;> norm_num
  · intro i _ h
    simp only [List.length_cons, List.length_nil] at h
    interval_cases i <;> decide +kernel

/-- C116, restart: the history 5, 1, 2, 4, 3 and the shorter one 8, 7, 4, 3 which agree in the last two bars -/
example : Gives (Ind.ema 2 (⟨[5, 1, 2, 4, 3].map dbl, 1⟩ : Line Dbl)) fun r => Gives (Ind.ema 2 (⟨[8, 7, 4, 3].map dbl, 1⟩ : Line Dbl)) fun r' =>
    ∃ v v', r.series[1 + 2 + 1]? = some (dbl v) ∧ r'.series[1 + 2]? = some (dbl v') ∧
      |v - v'| ≤ 2 * 8 * (1 - 2 / (((2 : ℕ) : ℚ) + 1)) ^ 2 + 60 * (2 : ℕ) * 8 / 2 ^ 53 := by
  refine C116_restart (B := 8) (s := 1) (d := 1) (k := 2) (by norm_num) (by norm_num) (doubles_of [5, 1, 2, 4, 3] (by simp))
    (doubles_of [8, 7, 4, 3] (by simp)) ?_ ?_ safe_8 (by norm_num) (by norm_num) (by simp) (by simp) ?_
  · intro i _ h; simp only [List.length_cons, List.length_nil] at h; interval_cases i <;> norm_num
  · intro i _ h; simp only [List.length_cons, List.length_nil] at h; interval_cases i <;> norm_num
  · intro j h1 h2; interval_cases j <;> rfl

end Bta
