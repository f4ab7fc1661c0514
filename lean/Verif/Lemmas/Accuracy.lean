import Verif.Props.Ieee
import Verif.Lemmas.Flt
import Verif.Lemmas.Ewm
import Mathlib.Tactic.FieldSimp

/-!
# Errors of results in double precision

One operation on numbers of moderate size is off by at most `2^-53` of the size of its result.
-/

set_option linter.unusedSectionVars false
set_option linter.unusedVariables false

namespace Bta
open Ext

/-- half the relative distance of two neighbouring doubles -/
def u64 : ℚ := 1 / 2 ^ 53

theorem roundPos_near {x M : ℚ} (hx : 0 < x) (h : x ≤ M) (h0 : pow2 (-1022) ≤ M) : |roundPos x - x| ≤ M * u64 := by
  have hP := pow2_pos (ulpExp x)
  have h1 : |roundPos x - x| ≤ 1 / 2 * pow2 (ulpExp x) := by
    have h2 := roundEven_near (x / pow2 (ulpExp x))
    have h3 : roundPos x - x = (roundEven (x / pow2 (ulpExp x)) - x / pow2 (ulpExp x)) * pow2 (ulpExp x) := by
      unfold roundPos; rw [sub_mul, div_mul_cancel₀ _ hP.ne']
    rw [h3, abs_mul, abs_of_pos hP]
    exact mul_le_mul_of_nonneg_right h2 hP.le
  refine h1.trans ?_
  by_cases hu : ulpExp x = -1074
  · rw [hu]
    have : pow2 (-1074) = pow2 (-1022) * (1 / 2 ^ 52) := by
      rw [show (-1074 : ℤ) = -1022 + -52 from rfl, pow2_add, show pow2 (-52) = 1 / 2 ^ 52 from by decide +kernel]
    rw [this]
    unfold u64
    have : (1 : ℚ) / 2 ^ 53 = 1 / 2 * (1 / 2 ^ 52) := by norm_num
    rw [this]
    nlinarith [show (0 : ℚ) < 1 / 2 ^ 52 by positivity]
  · have h2 := le_scaled hx hu
    rw [le_div_iff₀ hP] at h2
    have : (1 : ℚ) / 2 ^ 53 = 1 / 2 * (1 / 2 ^ 52) := by norm_num
    unfold u64
    rw [this]
    have h3 : pow2 (ulpExp x) ≤ M * (1 / 2 ^ 52) := by
      rw [mul_one_div, le_div_iff₀ (by positivity)]; linarith
    linarith

/-- one rounded operation whose exact result is at most `M` -/
theorem fl64_near {x M : ℚ} (h : |x| ≤ M) (h0 : pow2 (-1022) ≤ M) (h1 : M ≤ pow2 1023) :
    ∃ y, fl64 x = .fin y ∧ |y - x| ≤ M * u64 := by
  have hpos : ∀ z : ℚ, 0 < z → z ≤ M → fl64 z = .fin (roundPos z) ∧ |roundPos z - z| ≤ M * u64 := by
    intro z hz hzM
    have h2 := roundPos_near hz hzM h0
    refine ⟨?_, h2⟩
    rw [fl64_pos hz]
    unfold overflow
    rw [if_pos]
    have h3 := (abs_le.mp h2).2
    have hM : 0 < M := lt_of_lt_of_le (pow2_pos _) h0
    have h4 : M * u64 ≤ M / 2 := by
      rw [div_eq_mul_inv]; refine mul_le_mul_of_nonneg_left ?_ hM.le; unfold u64; norm_num
    have h5 : pow2 1024 = 2 * pow2 1023 := by
      rw [show (1024 : ℤ) = 1 + 1023 from rfl, pow2_add, show pow2 1 = 2 from by decide +kernel]
    rw [h5]
    linarith
  rcases lt_trichotomy x 0 with hx | hx | hx
  · obtain ⟨e, h2⟩ := hpos (-x) (by linarith) ((neg_le_abs x).trans h)
    refine ⟨-roundPos (-x), ?_, ?_⟩
    · have := fl64_neg (-x)
      rw [neg_neg, e] at this
      exact this
    · rw [← abs_neg]
      have e3 : -(-roundPos (-x) - x) = roundPos (-x) - -x := by ring
      rw [e3]; exact h2
  · subst hx
    refine ⟨0, by unfold fl64; simp, ?_⟩
    have hM : 0 < M := lt_of_lt_of_le (pow2_pos _) h0
    simp only [sub_zero, abs_zero]; exact mul_nonneg hM.le (by unfold u64; positivity)
  · obtain ⟨e, h2⟩ := hpos x hx ((le_abs_self x).trans h)
    exact ⟨_, e, h2⟩

theorem fl64_half (k : ℕ) (hk : k ≤ 2 ^ 26) : fl64 ((k : ℚ) / 2) = .fin ((k : ℚ) / 2) := by
  rcases Nat.eq_zero_or_pos k with rfl | h0
  · unfold fl64; simp
  · have hp : (0 : ℚ) < (k : ℚ) / 2 := by
      have : (0 : ℚ) < k := by exact_mod_cast h0
      linarith
    have hk' : (k : ℚ) ≤ 67108864 := by exact_mod_cast hk
    have hle : (k : ℚ) / 2 ≤ pow2 25 := by
      rw [show pow2 25 = 33554432 from by decide +kernel]; linarith
    have h2 : expo ((k : ℚ) / 2) < 26 := pow2_lt (lt_of_le_of_lt ((expo_spec hp).1.trans hle) (by decide +kernel))
    rw [fl64_pos hp, roundPos_exact (k : ℤ) (z := -1) (by unfold ulpExp; omega)
      (by rw [show pow2 (-1) = 1 / 2 from by decide +kernel]; push_cast; ring)]
    unfold overflow
    rw [if_pos (lt_of_le_of_lt hle (by decide +kernel))]

/-! ### the operations -/

/-- doubles -/
abbrev Dbl := Flt binary64

/-- the finite double `x` -/
abbrev dbl (x : ℚ) : Dbl := (Ext.fin x : Ext ℚ)

section ops
variable {x y M : ℚ}

theorem dbl_add (h : |x + y| ≤ M) (h0 : pow2 (-1022) ≤ M) (h1 : M ≤ pow2 1023) :
    ∃ z, (dbl x + dbl y : Dbl) = dbl z ∧ |z - (x + y)| ≤ M * u64 := fl64_near h h0 h1

theorem dbl_sub (h : |x - y| ≤ M) (h0 : pow2 (-1022) ≤ M) (h1 : M ≤ pow2 1023) :
    ∃ z, (dbl x - dbl y : Dbl) = dbl z ∧ |z - (x - y)| ≤ M * u64 := by
  have h' : |x + -y| ≤ M := le_of_eq_of_le (congrArg abs (sub_eq_add_neg x y).symm) h
  have := fl64_near h' h0 h1
  obtain ⟨z, e, hz⟩ := this
  exact ⟨z, e, by rwa [← sub_eq_add_neg x y] at hz⟩

theorem dbl_mul (h : |x * y| ≤ M) (h0 : pow2 (-1022) ≤ M) (h1 : M ≤ pow2 1023) :
    ∃ z, (dbl x * dbl y : Dbl) = dbl z ∧ |z - x * y| ≤ M * u64 := fl64_near h h0 h1

theorem dbl_div (hy : y ≠ 0) (h : |x / y| ≤ M) (h0 : pow2 (-1022) ≤ M) (h1 : M ≤ pow2 1023) :
    ∃ z, (dbl x / dbl y : Dbl) = dbl z ∧ |z - x / y| ≤ M * u64 := by
  obtain ⟨z, e, hz⟩ := fl64_near h h0 h1
  refine ⟨z, ?_, hz⟩
  show binary64.round (Ext.div (Ext.fin x) (Ext.fin y)) = _
  have : Ext.div (Ext.fin x) (Ext.fin y) = Ext.fin (x / y) := Ext.fin_div x hy
  rw [this]
  exact e

theorem dbl_lit {q : ℚ} (h : fl64 q = .fin q) : (lit q : Dbl) = dbl q := h

end ops

theorem u64_pos : (0 : ℚ) < u64 := by unfold u64; positivity
theorem u64_le : u64 ≤ 1 / 1000000 := by unfold u64; norm_num

theorem pow2_one_bound : pow2 (-1022) ≤ 1 ∧ (2 : ℚ) ≤ pow2 1023 := by constructor <;> decide +kernel

attribute [local irreducible] pow2

/-- one step of the smoothing kernel. `al` is the exact factor, `a` the one in use, `M` a bound of both values -/
theorem ewm_step {al a v c M : ℚ} (hal0 : 0 < al) (hal1 : al ≤ 1) (ha : |a - al| ≤ al * u64) (ha1 : a ≤ 1)
    (hv : |v| ≤ M) (hc : |c| ≤ M) (h0 : pow2 (-1022) ≤ M) (h1 : 4 * M ≤ pow2 1023) :
    ∃ z, (if eqv (dbl v) (dbl c) then dbl v
        else ((lit 1 : Dbl) * ((lit 1 : Dbl) - dbl a) * dbl v + dbl a * dbl c) / ((lit 1 : Dbl) * ((lit 1 : Dbl) - dbl a) + dbl a)) = dbl z ∧
      |z - (v + al * (c - v))| ≤ 13 * M * u64 := by
  have hM : 0 < M := lt_of_lt_of_le (pow2_pos _) h0
  have hu := u64_pos
  have hu1 := u64_le
  have hMu : 0 < M * u64 := mul_pos hM hu
  by_cases he : v = c
  · subst he
    refine ⟨v, if_pos (by show decide (v = v) = true; simp), ?_⟩
    rw [sub_self, mul_zero, add_zero, sub_self, abs_zero]; linarith
  rw [if_neg (by show ¬ decide (v = c) = true; simpa using he)]
  have hl1 : (lit 1 : Dbl) = dbl 1 := dbl_lit (by have := fl64_nat 1 (by norm_num); simpa using this)
  have ha' := abs_le.mp ha
  have hu2 : al * u64 ≤ u64 := by nlinarith
  have halu : al * u64 < al := by nlinarith
  have ha0 : 0 < a := by linarith
  -- the weight
  obtain ⟨w, hw, hwe⟩ := dbl_sub (x := 1) (y := a) (M := 1) (by rw [abs_le]; constructor <;> linarith) pow2_one_bound.1
    (by linarith [pow2_one_bound.2])
  have hw01 : 0 ≤ w ∧ w ≤ 1 := by
    have hfl : fl64 (1 + -a) = .fin w := hw
    constructor
    · have := fl64_nonneg (x := 1 + -a) (by linarith)
      rw [hfl] at this; exact Ext.le_fin'.mp this
    · have := fl64_mono (1 + -a) ((1 : ℕ) : ℚ) (by simp; linarith)
      rw [hfl, fl64_nat 1 (by norm_num)] at this; simpa using Ext.le_fin'.mp this
  have hw1 : (dbl 1 * dbl w : Dbl) = dbl w := by
    show fl64 (1 * w) = .fin w
    rw [one_mul]
    exact fl64_idem (x := 1 + -a) hw
  rw [hl1, hw, hw1]
  have hwe' := abs_le.mp hwe
  rw [one_mul] at hwe'
  -- its sum with the factor
  obtain ⟨s, hs, hse⟩ := dbl_add (x := w) (y := a) (M := 2) (by rw [abs_le]; constructor <;> linarith)
    (by linarith [pow2_one_bound.1]) pow2_one_bound.2
  have hse' := abs_le.mp hse
  have hs1 : |s - 1| ≤ 3 * u64 := by rw [abs_le]; constructor <;> linarith
  have hs1' := abs_le.mp hs1
  have hs0 : 0 < s := by linarith
  -- the products
  have hM1 : M ≤ pow2 1023 := by linarith
  have hM2 : 2 * M ≤ pow2 1023 := by linarith
  have hM0 : pow2 (-1022) ≤ 2 * M := by linarith
  have hwv : |w * v| ≤ w * M := by rw [abs_mul, abs_of_nonneg hw01.1]; exact mul_le_mul_of_nonneg_left hv hw01.1
  have hac : |a * c| ≤ a * M := by rw [abs_mul, abs_of_pos ha0]; exact mul_le_mul_of_nonneg_left hc ha0.le
  obtain ⟨P, hP, hPe⟩ := dbl_mul (x := w) (y := v) (M := M) (hwv.trans (by nlinarith)) h0 hM1
  obtain ⟨Q, hQ, hQe⟩ := dbl_mul (x := a) (y := c) (M := M) (hac.trans (by nlinarith)) h0 hM1
  have hPe' := abs_le.mp hPe
  have hQe' := abs_le.mp hQe
  have hwv' := abs_le.mp hwv
  have hac' := abs_le.mp hac
  have hwaM : w * M + a * M ≤ M + M * u64 := by nlinarith
  have hMu1 : M * u64 ≤ M / 1000000 := by
    rw [div_eq_mul_one_div]; exact mul_le_mul_of_nonneg_left hu1 hM.le
  obtain ⟨S, hS, hSe⟩ := dbl_add (x := P) (y := Q) (M := 2 * M) (by rw [abs_le]; constructor <;> linarith) hM0 hM2
  have hSe' := abs_le.mp hSe
  -- S against the exact mean with these weights
  have hS4 : |S - (w * v + a * c)| ≤ 4 * (M * u64) := by rw [abs_le]; constructor <;> linarith
  have hS4' := abs_le.mp hS4
  have hSM : |S| ≤ M + 5 * (M * u64) := by rw [abs_le]; constructor <;> linarith
  have hSM' : |S| ≤ 1.1 * M := hSM.trans (by linarith)
  -- the quotient
  have hinv : |S / s - S| ≤ 4 * (M * u64) := by
    have : S / s - S = S * (1 - s) / s := by field_simp
    rw [this, abs_div, abs_mul, abs_of_pos hs0, div_le_iff₀ hs0, abs_sub_comm 1 s]
    calc |S| * |s - 1| ≤ (1.1 * M) * (3 * u64) := mul_le_mul hSM' hs1 (abs_nonneg _) (by linarith)
      _ = 3.3 * (M * u64) := by ring
      _ ≤ 4 * (M * u64) * s := by nlinarith
  have hq : |S / s| ≤ 2 * M := by
    have h3 := abs_sub_abs_le_abs_sub (S / s) S
    linarith
  obtain ⟨D, hD, hDe⟩ := dbl_div (x := S) (y := s) (M := 2 * M) hs0.ne' hq hM0 hM2
  have hval : ((dbl w * dbl v + dbl a * dbl c) / (dbl w + dbl a) : Dbl) = dbl D := by rw [hP, hQ, hS, hs, hD]
  refine ⟨D, hval, ?_⟩
  have hDe' := abs_le.mp hDe
  have hinv' := abs_le.mp hinv
  have hD10 : |D - (w * v + a * c)| ≤ 10 * (M * u64) := by rw [abs_le]; constructor <;> linarith
  have h3 : |(w * v + a * c) - (v + al * (c - v))| ≤ 3 * (M * u64) := by
    have e : (w * v + a * c) - (v + al * (c - v)) = (w - (1 - a)) * v + (a - al) * (c - v) := by ring
    rw [e]
    have hcv : |c - v| ≤ 2 * M := by
      have := abs_sub c v; linarith
    have t1 : |(w - (1 - a)) * v| ≤ u64 * M := by
      rw [abs_mul]
      refine mul_le_mul ?_ hv (abs_nonneg _) hu.le
      rw [abs_le]; constructor <;> linarith
    have t2 : |(a - al) * (c - v)| ≤ u64 * (2 * M) := by
      rw [abs_mul]
      exact mul_le_mul (ha.trans hu2) hcv (abs_nonneg _) hu.le
    have := abs_add_le ((w - (1 - a)) * v) ((a - al) * (c - v))
    linarith
  have h4 := abs_sub_le D (w * v + a * c) (v + al * (c - v))
  linarith

/-! ### the recursion -/

theorem expRec_bound {al B v0 : ℚ} {x : ℕ → ℚ} {s n : ℕ} (h0 : 0 ≤ al) (h1 : al ≤ 1) (hv : |v0| ≤ B)
    (hx : ∀ i, s < i → i < n → |x i| ≤ B) : ∀ j, s + j < n → |Spec.expRec al x s v0 j| ≤ B := by
  intro j
  induction j with
  | zero => intro _; exact hv
  | succ j ih =>
    intro hj
    have hi := ih (by omega)
    have hc := hx (s + j + 1) (by omega) (by omega)
    simp only [Spec.expRec]
    rw [abs_le] at hi hc ⊢
    constructor <;> nlinarith

theorem ewmGo_dbl {al a B E v0 : ℚ} {x : ℕ → ℚ} {s n : ℕ} (hal0 : 0 < al) (hal1 : al ≤ 1) (ha : |a - al| ≤ al * u64) (ha1 : a ≤ 1)
    (hv0 : |v0| ≤ B) (hx : ∀ i, s < i → i < n → |x i| ≤ B) (hB0 : pow2 (-1022) ≤ B) (hB1 : 8 * B ≤ pow2 1023)
    (hE : 26 * B * u64 ≤ al * E) (hEB : E ≤ B) :
    ∀ (r j : ℕ), n - (s + j + 1) = r → ∀ v, |v - Spec.expRec al x s v0 j| ≤ E → s + j < n →
      ∃ e : ℕ → ℚ, ewmGo (dbl a) (dbl v) (lit 1) (tail n (s + j + 1) fun i => dbl (x i)) = tail n (s + j + 1) (fun i => dbl (e i)) ∧
        ∀ i, s + j + 1 ≤ i → i < n → |e i - Spec.expRec al x s v0 (i - s)| ≤ E := by
  intro r
  induction r with
  | zero =>
    intro j hr v _ hj
    have h0 : ∀ g : ℕ → Dbl, tail n (s + j + 1) g = [] := fun g => tail_nil g (by omega)
    refine ⟨fun _ => 0, by rw [h0, h0]; rfl, fun i h1 h2 => by omega⟩
  | succ r ih =>
    intro j hr v hv hj
    have hB : 0 < B := lt_of_lt_of_le (pow2_pos _) hB0
    have hb := expRec_bound (n := n) hal0.le hal1 hv0 hx j hj
    have hvM : |v| ≤ 2 * B := by
      have := abs_sub_abs_le_abs_sub v (Spec.expRec al x s v0 j); linarith
    have hc := hx (s + j + 1) (by omega) (by omega)
    obtain ⟨z, hz, hze⟩ := ewm_step (al := al) (a := a) (v := v) (c := x (s + j + 1)) (M := 2 * B) hal0 hal1 ha ha1 hvM
      (by linarith) (by linarith) (by linarith)
    have hz2 : |z - Spec.expRec al x s v0 (j + 1)| ≤ E := by
      simp only [Spec.expRec]
      set e := Spec.expRec al x s v0 j
      set c := x (s + j + 1)
      have e1 : v + al * (c - v) - (e + al * (c - e)) = (1 - al) * (v - e) := by ring
      have t1 : |v + al * (c - v) - (e + al * (c - e))| ≤ (1 - al) * E := by
        rw [e1, abs_mul, abs_of_nonneg (by linarith)]
        exact mul_le_mul_of_nonneg_left hv (by linarith)
      have := abs_sub_le z (v + al * (c - v)) (e + al * (c - e))
      nlinarith
    obtain ⟨e, he, hee⟩ := ih (j + 1) (by omega) z hz2 (by omega)
    refine ⟨fun i => if i = s + j + 1 then z else e i, ?_, ?_⟩
    · rw [tail_cons (n := n) (k := s + j + 1) _ (by omega), tail_cons (n := n) (k := s + j + 1) (fun i => dbl (if i = s + j + 1 then z else e i))
        (by omega)]
      rw [ewmGo]
      rw [if_neg (by show ¬ (false = true); simp), if_neg (by show ¬ (false = true); simp)]
      simp only [hz, if_true]
      congr 1
      rw [show s + j + 1 + 1 = s + (j + 1) + 1 from rfl, he]
      refine tail_congr ?_
      intro i h1 h2
      rw [if_neg (by omega)]
    · intro i h1 h2
      by_cases hi : i = s + j + 1
      · subst hi
        simp only [if_true]
        rw [show s + j + 1 - s = j + 1 from by omega]; exact hz2
      · simp only [if_neg hi]
        exact hee i (by omega) h2

theorem prepL_dbl (l : List ℚ) : prepL (l.map dbl) = l.map dbl := by
  simp only [prepL, List.map_map]
  apply List.map_congr_left
  intro x _
  rfl

theorem ewmL_dbl {al a B E v0 v : ℚ} {x : ℕ → ℚ} {s n : ℕ} (hal0 : 0 < al) (hal1 : al ≤ 1) (ha : |a - al| ≤ al * u64) (ha1 : a ≤ 1)
    (hv0 : |v0| ≤ B) (hx : ∀ i, s < i → i < n → |x i| ≤ B) (hB0 : pow2 (-1022) ≤ B) (hB1 : 8 * B ≤ pow2 1023)
    (hE : 26 * B * u64 ≤ al * E) (hEB : E ≤ B) (hv : |v - v0| ≤ E) (hs : s < n) :
    ∃ e : ℕ → ℚ, ewmL (dbl a) (dbl v :: tail n (s + 1) fun i => dbl (x i)) = tail n s (fun i => dbl (e i)) ∧
      ∀ i, s ≤ i → i < n → |e i - Spec.expRec al x s v0 (i - s)| ≤ E := by
  obtain ⟨e, he, hee⟩ := ewmGo_dbl hal0 hal1 ha ha1 hv0 hx hB0 hB1 hE hEB (n - (s + 0 + 1)) 0 rfl v hv (by omega)
  have hprep : prepL (dbl v :: tail n (s + 1) fun i => dbl (x i)) = dbl v :: tail n (s + 1) fun i => dbl (x i) := by
    have h := prepL_dbl (v :: tail n (s + 1) x)
    rw [List.map_cons, map_tail] at h
    exact h
  refine ⟨fun i => if i = s then v else e i, ?_, ?_⟩
  · unfold ewmL
    rw [hprep]
    simp only []
    rw [tail_cons (n := n) (k := s) _ hs]
    simp only [if_true]
    congr 1
    rw [show s + 1 = s + 0 + 1 from rfl, he]
    refine tail_congr ?_
    intro i h1 h2
    rw [if_neg (by omega)]
  · intro i h1 h2
    by_cases hi : i = s
    · subst hi; simp only [if_true, Nat.sub_self, Spec.expRec]; exact hv
    · simp only [if_neg hi]
      exact hee i (by omega) h2

/-! ### the first value -/

theorem foldl_dbl {B : ℚ} {p : ℕ} (hB : 0 < B) (hG0 : pow2 (-1022) ≤ 2 * p * B) (hG1 : 2 * p * B ≤ pow2 1023) (hpu : 2 * (p : ℚ) * u64 ≤ 1) :
    ∀ (l : List ℚ) (k : ℕ) (s S : ℚ), k + l.length ≤ p → (∀ q ∈ l, |q| ≤ B) → |S| ≤ k * B → |s - S| ≤ k * (2 * p * B * u64) →
      ∃ t, List.foldl (· + ·) (dbl s) (l.map dbl) = dbl t ∧ |t - (S + l.sum)| ≤ (k + l.length : ℕ) * (2 * p * B * u64) := by
  intro l
  induction l with
  | nil => intro k s S _ _ _ h; exact ⟨s, rfl, by simpa using h⟩
  | cons q l ih =>
    intro k s S hk hq hS hs
    have hq0 := hq q (by simp)
    have hk' : ((k : ℚ) + 1) ≤ p := by
      have : k + 1 ≤ p := by simp only [List.length_cons] at hk; omega
      exact_mod_cast this
    have hk0 : (0 : ℚ) ≤ k := by positivity
    have hu := u64_pos
    have hpB : 0 < 2 * (p : ℚ) * B := by have : (0 : ℚ) < p := by linarith
                                         positivity
    have hD : (k : ℚ) * (2 * p * B * u64) ≤ p * B := by
      calc (k : ℚ) * (2 * p * B * u64) = (k * B) * (2 * p * u64) := by ring
        _ ≤ (k * B) * 1 := mul_le_mul_of_nonneg_left hpu (by positivity)
        _ ≤ p * B := by nlinarith
    have hSq : |S + q| ≤ (k + 1 : ℕ) * B := by
      have := abs_add_le S q; push_cast; linarith
    have hsq : |s + q| ≤ 2 * p * B := by
      have h1 := abs_add_le (s - S) (S + q)
      rw [show s - S + (S + q) = s + q from by ring] at h1
      have h2 : ((k + 1 : ℕ) : ℚ) * B ≤ p * B := by push_cast; exact mul_le_mul_of_nonneg_right hk' hB.le
      linarith
    obtain ⟨t, ht, hte⟩ := dbl_add (x := s) (y := q) (M := 2 * p * B) hsq hG0 hG1
    have ht2 : |t - (S + q)| ≤ (k + 1 : ℕ) * (2 * p * B * u64) := by
      have h1 := abs_sub_le t (s + q) (S + q)
      rw [show s + q - (S + q) = s - S from by ring] at h1
      push_cast; linarith
    obtain ⟨r, hr, hre⟩ := ih (k + 1) t (S + q) (by simp only [List.length_cons] at hk; omega) (fun q' h => hq q' (by simp [h])) hSq ht2
    refine ⟨r, ?_, ?_⟩
    · simp only [List.map_cons, List.foldl_cons]
      rw [ht]; exact hr
    · rw [List.sum_cons, ← add_assoc, List.length_cons, show k + (l.length + 1) = k + 1 + l.length from by omega]
      exact hre

theorem list_sum_abs {B : ℚ} : ∀ l : List ℚ, (∀ q ∈ l, |q| ≤ B) → |l.sum| ≤ l.length * B := by
  intro l
  induction l with
  | nil => intro _; simp
  | cons q l ih =>
    intro h
    have h1 := ih fun q' hq' => h q' (by simp [hq'])
    have h2 := h q (by simp)
    have := abs_add_le q l.sum
    rw [List.sum_cons, List.length_cons]; push_cast; linarith

theorem meanSkipNa_dbl {B : ℚ} (hB0 : pow2 (-1022) ≤ B) (l : List ℚ) (hl : l ≠ []) (hp : l.length ≤ 2 ^ 20) (hB1 : 2 * 2 ^ 20 * B ≤ pow2 1023)
    (hq : ∀ q ∈ l, |q| ≤ B) : ∃ t, meanSkipNa (l.map dbl) = dbl t ∧ |t - l.sum / l.length| ≤ 4 * l.length * B * u64 := by
  have hB : 0 < B := lt_of_lt_of_le (pow2_pos _) hB0
  have hu := u64_pos
  have hl1 : 1 ≤ l.length := List.length_pos_iff.mpr hl
  set p := l.length with hpdef
  have hp1 : (1 : ℚ) ≤ p := by exact_mod_cast hl1
  have hp2 : (p : ℚ) ≤ 2 ^ 20 := by exact_mod_cast hp
  have hfil : (l.map dbl).filter (fun x => !isNaN x) = l.map dbl := by
    rw [List.filter_eq_self]
    intro a ha
    obtain ⟨x, _, rfl⟩ := List.mem_map.mp ha
    rfl
  have hpu : 2 * (p : ℚ) * u64 ≤ 1 := by
    calc 2 * (p : ℚ) * u64 ≤ 2 * 2 ^ 20 * u64 := mul_le_mul_of_nonneg_right (by linarith) hu.le
      _ ≤ 1 := by unfold u64; norm_num
  have hG0 : pow2 (-1022) ≤ 2 * p * B := hB0.trans (by nlinarith)
  have hG1 : 2 * p * B ≤ pow2 1023 := le_trans (mul_le_mul_of_nonneg_right (by linarith) hB.le) hB1
  obtain ⟨t, ht, hte⟩ := foldl_dbl (p := p) hB hG0 hG1 hpu l 0 0 0 (by omega) hq (by simp) (by simp)
  rw [zero_add, zero_add, ← hpdef] at hte
  have hsum : sumV (l.map dbl) = dbl t := by
    unfold sumV
    rw [show (lit 0 : Dbl) = dbl 0 from dbl_lit (by unfold fl64; simp)]
    exact ht
  have hp0 : (0 : ℚ) < p := by linarith
  have h1 : |t / p - l.sum / p| ≤ 2 * p * B * u64 := by
    rw [← sub_div, abs_div, abs_of_pos hp0, div_le_iff₀ hp0]
    linarith
  have h2 : |l.sum / p| ≤ B := by
    rw [abs_div, abs_of_pos hp0, div_le_iff₀ hp0, mul_comm]; exact list_sum_abs l hq
  have h3 : |t / p| ≤ 2 * B := by
    have := abs_sub_abs_le_abs_sub (t / p) (l.sum / p)
    have h5 : 2 * p * B * u64 = B * (2 * p * u64) := by ring
    have : B * (2 * p * u64) ≤ B * 1 := mul_le_mul_of_nonneg_left hpu hB.le
    linarith
  obtain ⟨r, hr, hre⟩ := dbl_div (x := t) (y := (p : ℚ)) (M := 2 * B) hp0.ne' h3 (by linarith) (by nlinarith)
  refine ⟨r, ?_, ?_⟩
  · unfold meanSkipNa
    simp only [hfil]
    rw [if_neg (by rw [List.isEmpty_iff]; simpa using hl), hsum, List.length_map, ← hpdef,
      show (lit (p : ℚ) : Dbl) = dbl p from dbl_lit (fl64_nat p (hp.trans (by norm_num)))]
    exact hr
  · have := abs_sub_le r (t / p) (l.sum / p)
    have h6 : 2 * B * u64 ≤ 2 * p * B * u64 := by
      refine mul_le_mul_of_nonneg_right ?_ hu.le
      nlinarith
    linarith

end Bta
