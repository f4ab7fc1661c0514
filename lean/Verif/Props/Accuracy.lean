import Verif.Lemmas.Accuracy
import Verif.Lemmas.Calc
import Verif.Ind.Core
import Verif.Lemmas.Mas

/-!
# Errors do not add up (C116)

Each average is computed from the previous one, so the value of today depends on the roundings of all days before.  For data up to `B`
the exponential averages and the lines made from them nevertheless stay within a fixed multiple of `2^-53 * B` of the exact values, however
long the history is.  The running sums (`obv`, `ad`) do not.
-/

set_option linter.unusedSectionVars false
set_option linter.unusedVariables false

namespace Spec

/-- sizes for which neither overflow nor the subnormal numbers play a role -/
def SafeSize (B : ℚ) : Prop := (2 : ℚ) ^ (-1022 : ℤ) ≤ B ∧ B ≤ (2 : ℚ) ^ (980 : ℤ)

/-- data from bar `b` (0-based) up to bar `n` (exclusive) of size at most `B` -/
def UpTo (B : ℚ) (x : ℕ → ℚ) (b n : ℕ) : Prop := ∀ i, b ≤ i → i < n → |x i| ≤ B

end Spec

namespace Bta
open Ext Line Spec

/-- A line of doubles: `n` bars, minimum period `m`, and from there on finite values which differ from `x` by at most `E`. -/
structure Approx (l : Line Dbl) (n m : ℕ) (x : ℕ → ℚ) (E : ℚ) : Prop where
  len : l.series.length = n
  mp : l.minperiod = (m : ℤ)
  pos : 1 ≤ m
  val : ∀ i, m ≤ i + 1 → i < n → ∃ y, l.series[i]? = some (dbl y) ∧ |y - x i| ≤ E

/-- a line of doubles with just these values -/
abbrev Doubles (l : Line Dbl) (n m : ℕ) (x : ℕ → ℚ) : Prop := Approx l n m x 0

theorem Approx.of_rep {l : Line Dbl} {n m : ℕ} {x y : ℕ → ℚ} {E : ℚ} (h : RepW l n m fun i => dbl (y i))
    (hE : ∀ i, m ≤ i + 1 → i < n → |y i - x i| ≤ E) : Approx l n m x E :=
  ⟨h.len, h.mp, h.pos, fun i h1 h2 => ⟨y i, h.val i h1 h2, hE i h1 h2⟩⟩

theorem Approx.rep {l : Line Dbl} {n m : ℕ} {x : ℕ → ℚ} {E : ℚ} (h : Approx l n m x E) :
    ∃ y : ℕ → ℚ, (RepW l n m fun i => dbl (y i)) ∧ ∀ i, m ≤ i + 1 → i < n → |y i - x i| ≤ E := by
  choose! y h1 h2 using h.val
  exact ⟨y, ⟨h.len, h.mp, h.pos, fun i a b => h1 i a b⟩, h2⟩

theorem Approx.mono {l : Line Dbl} {n m : ℕ} {x : ℕ → ℚ} {E E' : ℚ} (h : Approx l n m x E) (hE : E ≤ E') : Approx l n m x E' :=
  ⟨h.len, h.mp, h.pos, fun i a b => (h.val i a b).imp fun _ ⟨h1, h2⟩ => ⟨h1, h2.trans hE⟩⟩

theorem Approx.congr {l : Line Dbl} {n m m' : ℕ} {x x' : ℕ → ℚ} {E : ℚ} (h : Approx l n m x E) (hm : m = m')
    (hx : ∀ i, m ≤ i + 1 → i < n → x i = x' i) : Approx l n m' x' E := by
  subst hm
  exact ⟨h.len, h.mp, h.pos, fun i a b => by rw [← hx i a b]; exact h.val i a b⟩

/-! ### sizes of exact averages -/

theorem winMean_near {x y : ℕ → ℚ} {p i b n : ℕ} {E : ℚ} (hp : 1 ≤ p) (hb : b + p ≤ i + 1) (hn : i < n)
    (h : ∀ j, b ≤ j → j < n → |x j - y j| ≤ E) : |winMean x p i - winMean y p i| ≤ E := by
  unfold winMean winSum
  have hp0 : (0 : ℚ) < p := by exact_mod_cast hp
  rw [← sub_div, abs_div, abs_of_pos hp0, div_le_iff₀ hp0, ← Finset.sum_sub_distrib]
  refine (Finset.abs_sum_le_sum_abs _ _).trans ?_
  calc ∑ j ∈ Finset.range p, |x (i - j) - y (i - j)| ≤ ∑ _j ∈ Finset.range p, E := by
        refine Finset.sum_le_sum fun j hj => h _ ?_ ?_ <;> have := Finset.mem_range.mp hj <;> omega
    _ = E * p := by rw [Finset.sum_const, Finset.card_range, nsmul_eq_mul, mul_comm]

theorem expRec_near {al E v w : ℚ} {x y : ℕ → ℚ} {s n : ℕ} (h0 : 0 ≤ al) (h1 : al ≤ 1) (hv : |v - w| ≤ E)
    (h : ∀ i, s < i → i < n → |x i - y i| ≤ E) : ∀ j, s + j < n → |expRec al x s v j - expRec al y s w j| ≤ E := by
  intro j
  induction j with
  | zero => intro _; exact hv
  | succ j ih =>
    intro hj
    have hi := ih (by omega)
    have hc := h (s + j + 1) (by omega) (by omega)
    simp only [expRec]
    rw [abs_le] at hi hc ⊢
    constructor <;> nlinarith

theorem expAvg_near {al E : ℚ} {x y : ℕ → ℚ} {b p n i : ℕ} (h0 : 0 ≤ al) (h1 : al ≤ 1) (hp : 1 ≤ p) (hi : b + p ≤ i + 1) (hn : i < n)
    (h : ∀ j, b ≤ j → j < n → |x j - y j| ≤ E) : |expAvg al x b p i - expAvg al y b p i| ≤ E := by
  unfold expAvg
  refine expRec_near (n := n) h0 h1 (winMean_near hp (b := b) (n := n) (by omega) (by omega) h) (fun j hj hn => h j (by omega) hn) _ (by omega)

theorem expAvg_null (al : ℚ) (b p i : ℕ) : expAvg al (fun _ => 0) b p i = 0 := by
  unfold expAvg
  have : winMean (fun _ : ℕ => (0 : ℚ)) p (b + p - 1) = 0 := by unfold winMean winSum; simp
  rw [this]
  generalize i - (b + p - 1) = j
  induction j with
  | zero => rfl
  | succ j ih => simp [expRec, ih]

theorem expAvg_upTo {al B : ℚ} {x : ℕ → ℚ} {b p n : ℕ} (h0 : 0 ≤ al) (h1 : al ≤ 1) (hp : 1 ≤ p) (hx : UpTo B x b n) :
    UpTo B (fun i => expAvg al x b p i) (b + p - 1) n := by
  intro i h2 h3
  have := expAvg_near (x := x) (y := fun _ => 0) (b := b) (i := i) h0 h1 hp (by omega) h3 (fun j a c => by simpa using hx j a c)
  rw [expAvg_null, sub_zero] at this
  exact this

/-! ### the averages in doubles -/

/-- sizes of data -/
def Rng (B : ℚ) : Prop := pow2 (-1022) ≤ B ∧ B ≤ pow2 990

/-- `F p` computes the average `f` of `p` values with a small error -/
structure AccMA (F : MA Dbl) (f : ℕ → (ℕ → ℚ) → ℕ → ℕ → ℚ) (p : ℕ) : Prop where
  acc : ∀ {a : Line Dbl} {n m : ℕ} {x : ℕ → ℚ} {B : ℚ}, Doubles a n m x → UpTo B x (m - 1) n → Rng B → m + p - 1 ≤ n →
    Gives (F p a) fun r => Approx r n (m + p - 1) (f p x (m - 1)) (30 * p * B / 2 ^ 53)
  diff : ∀ {E : ℚ} {x y : ℕ → ℚ} {b n i : ℕ}, b + p ≤ i + 1 → i < n → (∀ j, b ≤ j → j < n → |x j - y j| ≤ E) →
    |f p x b i - f p y b i| ≤ E
  size : ∀ {B : ℚ} {x : ℕ → ℚ} {b n : ℕ}, UpTo B x b n → UpTo B (f p x b) (b + p - 1) n

theorem u64_frac (t : ℚ) : t / 2 ^ 53 = t * u64 := by unfold u64; ring

theorem safeSize_pow {B k : ℚ} (h : SafeSize B) (h1 : 1 ≤ k) (h2 : k ≤ 1024) : Rng (k * B) := by
  unfold SafeSize at h; rw [← pow2_eq, ← pow2_eq] at h
  have hB := lt_of_lt_of_le (pow2_pos _) h.1
  have e : pow2 990 = 1024 * pow2 980 := by
    rw [show (990 : ℤ) = 10 + 980 from rfl, pow2_add]; congr 1
  unfold Rng
  rw [e]
  constructor <;> nlinarith

theorem pow2_1023 : pow2 1023 = 2 ^ 33 * pow2 990 := by
  rw [show (1023 : ℤ) = 33 + 990 from rfl, pow2_add]; congr 1

attribute [local irreducible] pow2

theorem acc_ewm {p : ℕ} {al a : ℚ} (hp : 1 ≤ p) (hp2 : p ≤ 2 ^ 20) (hal0 : 0 < al) (hal1 : al ≤ 1) (hpal : 26 ≤ al * (30 * p))
    (ha : |a - al| ≤ al * u64) (ha1 : a ≤ 1)
    {l : Line Dbl} {n m : ℕ} {x : ℕ → ℚ} {B : ℚ} (hl : Doubles l n m x) (hx : UpTo B x (m - 1) n) (hB : Rng B) (hn : m + p - 1 ≤ n) :
    Gives (ewmMean { pval := p } (dbl a) l) fun r => Approx r n (m + p - 1) (expAvg al x (m - 1) p) (30 * p * B / 2 ^ 53) := by
  obtain ⟨y, hy, hyx⟩ := hl.rep
  replace hyx : ∀ i, m ≤ i + 1 → i < n → y i = x i := fun i h1 h2 => by
    have := hyx i h1 h2; exact sub_eq_zero.mp (abs_eq_zero.mp (le_antisymm this (abs_nonneg _)))
  have hr : RepW l n m fun i => dbl (x i) := ⟨hy.len, hy.mp, hy.pos, fun i h1 h2 => by rw [hy.val i h1 h2, hyx i h1 h2]⟩
  have hpos := hl.pos
  obtain ⟨hB0, hB2⟩ := hB
  have hBp : 0 < B := lt_of_lt_of_le (pow2_pos _) hB0
  have hu := u64_pos
  have hB1 : 2 * 2 ^ 20 * B ≤ pow2 1023 := by rw [pow2_1023]; nlinarith
  have hp0 : (1 : ℚ) ≤ p := by exact_mod_cast hp
  have hp3 : (p : ℚ) ≤ 2 ^ 20 := by exact_mod_cast hp2
  have hEB : 30 * p * B * u64 ≤ B := by
    have h1 : 30 * (p : ℚ) * u64 ≤ 1 := by
      calc 30 * (p : ℚ) * u64 ≤ 30 * 2 ^ 20 * u64 := mul_le_mul_of_nonneg_right (by linarith) hu.le
        _ ≤ 1 := by unfold u64; norm_num
    calc 30 * p * B * u64 = B * (30 * p * u64) := by ring
      _ ≤ B * 1 := mul_le_mul_of_nonneg_left h1 hBp.le
      _ = B := mul_one B
  have hp2' : EwmCfg.p2 { pval := (p : Int) } l.minperiod = ((m + p - 1 : ℕ) : Int) := by
    unfold EwmCfg.p2
    simp only [hl.mp, ne_eq, not_true_eq_false, if_false]
    rw [if_neg (by omega)]
    omega
  -- the seed
  obtain ⟨v, hv, hve⟩ := meanSkipNa_dbl hB0 (wnd x p (m + p - 2)) (by intro h; have := congrArg List.length h; simp [wnd] at this; omega)
    (by simpa [wnd] using hp2) hB1 (by
      intro q hq
      obtain ⟨j, hj, rfl⟩ := List.mem_map.mp hq
      have := List.mem_range.mp hj
      exact hx _ (by omega) (by omega))
  rw [wnd_sum x (by omega), wnd_length] at hve
  have hve' : |v - winMean x p (m + p - 2)| ≤ 30 * p * B * u64 := by
    unfold winMean
    refine hve.trans (mul_le_mul_of_nonneg_right ?_ hu.le)
    nlinarith
  have hseed : seedVal Seed.avg l.series (((m + p - 1 : ℕ) : Int) - p) (((m + p - 1 : ℕ) : Int) - 1)
      ((m + p - 1 : ℕ) : Int) = dbl v := by
    unfold seedVal
    simp only []
    rw [slice_wnd hr hp (by omega) hn, ← hv]
    congr 1
    simp [wnd, Function.comp_def]
    intro j hj
    congr 2
  have hv0 : |winMean x p (m + p - 2)| ≤ B := by
    have := winMean_near (x := x) (y := fun _ => 0) (E := B) (b := m - 1) (n := n) (i := m + p - 2) hp (by omega) (by omega)
      (fun j h1 h2 => by simpa using hx j h1 h2)
    have h0 : winMean (fun _ : ℕ => (0 : ℚ)) p (m + p - 2) = 0 := by unfold winMean winSum; simp
    rwa [h0, sub_zero] at this
  obtain ⟨e, he, hee⟩ := ewmL_dbl (al := al) (a := a) (B := B) (E := 30 * p * B * u64) (v0 := winMean x p (m + p - 2)) (v := v) (x := x)
    (s := m + p - 2) (n := n) hal0 hal1 ha ha1 hv0 (fun i h1 h2 => hx i (by omega) h2) hB0 (by nlinarith)
    (by
      calc 26 * B * u64 = 26 * (B * u64) := by ring
        _ ≤ al * (30 * p) * (B * u64) := mul_le_mul_of_nonneg_right hpal (by positivity)
        _ = al * (30 * p * B * u64) := by ring)
    hEB hve' (by omega)
  obtain ⟨o, r, h1, h2, h3⟩ := rep_ewmCall (c := { pval := (p : Int) }) hr hp2' (by omega) hn (by
      simp only; omega) (op := fun t => .ok (ewmL (dbl a) t)) (E := fun i => dbl (e i))
      (by
        simp only [hseed]
        rw [show m + p - 2 + 1 = m + p - 1 from by omega] at he
        rw [he]
        congr 2)
  refine ⟨r, ?_, ?_⟩
  · unfold ewmMean
    rw [h1]
    exact h2
  · refine Approx.of_rep h3.toRepW fun i h4 h5 => ?_
    have := hee i (by omega) h5
    unfold expAvg
    rw [show m - 1 + p - 1 = m + p - 2 from by omega, u64_frac]
    exact this

theorem inv_dbl {q : ℚ} (h1 : 1 ≤ q) (h2 : q ≤ 2 ^ 21) :
    ∃ a, ((lit 1 : Dbl) / dbl q : Dbl) = dbl a ∧ |a - 1 / q| ≤ 1 / q * u64 ∧ a ≤ 1 := by
  have hq : 0 < q := by linarith
  have hi : 0 < 1 / q := by positivity
  have hi1 : 1 / q ≤ 1 := by rw [div_le_iff₀ hq]; linarith
  have hi2 : pow2 (-21) ≤ 1 / q := by
    rw [le_div_iff₀ hq, pow2_eq]
    have : (2 : ℚ) ^ (-21 : ℤ) * 2 ^ 21 = 1 := by norm_num
    calc (2 : ℚ) ^ (-21 : ℤ) * q ≤ (2 : ℚ) ^ (-21 : ℤ) * 2 ^ 21 := mul_le_mul_of_nonneg_left h2 (by positivity)
      _ = 1 := this
  rw [show (lit 1 : Dbl) = dbl 1 from dbl_lit (by have := fl64_nat 1 (by norm_num); simpa using this)]
  obtain ⟨a, h3, h4⟩ := dbl_div (x := 1) (y := q) (M := 1 / q) hq.ne' (by rw [abs_of_pos hi]) ((pow2_mono (by norm_num)).trans hi2)
    (by linarith [pow2_one_bound.2])
  refine ⟨a, h3, h4, ?_⟩
  have h5 : fl64 (1 / q) = .fin a := by
    have h6 : (dbl 1 / dbl q : Dbl) = fl64 (1 / q) := by
      show binary64.round (Ext.div (Ext.fin 1) (Ext.fin q)) = _
      have : Ext.div (Ext.fin 1) (Ext.fin q) = Ext.fin (1 / q) := Ext.fin_div 1 hq.ne'
      rw [this]; rfl
    rw [← h6]; exact h3
  have := fl64_mono (1 / q) ((1 : ℕ) : ℚ) (by simpa using hi1)
  rw [h5, fl64_nat 1 (by norm_num)] at this
  simpa using Ext.le_fin'.mp this

theorem alpha_span_dbl {p : ℕ} (hp : 1 ≤ p) (hp2 : p ≤ 2 ^ 20) :
    ∃ a, alphaOfCom (comOfSpan (lit (p : ℚ) : Dbl)) = dbl a ∧ |a - 2 / ((p : ℚ) + 1)| ≤ 2 / ((p : ℚ) + 1) * u64 ∧ a ≤ 1 := by
  have hp0 : (1 : ℚ) ≤ p := by exact_mod_cast hp
  have hp3 : (p : ℚ) ≤ 2 ^ 20 := by exact_mod_cast hp2
  obtain ⟨k, rfl⟩ : ∃ k, p = k + 1 := ⟨p - 1, by omega⟩
  have e1 : (lit ((k + 1 : ℕ) : ℚ) : Dbl) = dbl ((k + 1 : ℕ) : ℚ) := dbl_lit (fl64_nat _ (hp2.trans (by norm_num)))
  have e2 : (lit 1 : Dbl) = dbl 1 := dbl_lit (by have := fl64_nat 1 (by norm_num); simpa using this)
  have e3 : (lit 2 : Dbl) = dbl 2 := dbl_lit (by have := fl64_nat 2 (by norm_num); simpa using this)
  have e4 : (dbl ((k + 1 : ℕ) : ℚ) - dbl 1 : Dbl) = dbl k := by
    show fl64 (((k + 1 : ℕ) : ℚ) + -1) = .fin k
    rw [show ((k + 1 : ℕ) : ℚ) + -1 = (k : ℚ) from by push_cast; ring]
    exact fl64_nat k (by omega)
  have e5 : (dbl k / dbl 2 : Dbl) = dbl ((k : ℚ) / 2) := by
    show binary64.round (Ext.div (Ext.fin (k : ℚ)) (Ext.fin 2)) = _
    have : Ext.div (Ext.fin (k : ℚ)) (Ext.fin 2) = Ext.fin ((k : ℚ) / 2) := Ext.fin_div _ (by norm_num)
    rw [this]; exact fl64_half k (by omega)
  have e6 : (dbl 1 + dbl ((k : ℚ) / 2) : Dbl) = dbl (((k + 2 : ℕ) : ℚ) / 2) := by
    show fl64 (1 + (k : ℚ) / 2) = _
    rw [show 1 + (k : ℚ) / 2 = ((k + 2 : ℕ) : ℚ) / 2 from by push_cast; ring]
    exact fl64_half (k + 2) (by omega)
  obtain ⟨a, h1, h2, h3⟩ := inv_dbl (q := ((k + 2 : ℕ) : ℚ) / 2) (by push_cast at hp0 ⊢; linarith) (by push_cast at hp3 ⊢; norm_num at hp3 ⊢; linarith)
  refine ⟨a, ?_, ?_, h3⟩
  · unfold alphaOfCom comOfSpan
    rw [e1, e2, e4, e3, e5, e6, ← e2]; exact h1
  · have : 1 / (((k + 2 : ℕ) : ℚ) / 2) = 2 / (((k + 1 : ℕ) : ℚ) + 1) := by push_cast; field_simp; ring
    rwa [this] at h2

theorem alpha_com_dbl {p : ℕ} (hp : 1 ≤ p) (hp2 : p ≤ 2 ^ 20) :
    ∃ a, alphaOfCom (lit ((p : ℚ) - 1) : Dbl) = dbl a ∧ |a - 1 / (p : ℚ)| ≤ 1 / (p : ℚ) * u64 ∧ a ≤ 1 := by
  have hp0 : (1 : ℚ) ≤ p := by exact_mod_cast hp
  have hp3 : (p : ℚ) ≤ 2 ^ 20 := by exact_mod_cast hp2
  obtain ⟨k, rfl⟩ : ∃ k, p = k + 1 := ⟨p - 1, by omega⟩
  have e2 : (lit 1 : Dbl) = dbl 1 := dbl_lit (by have := fl64_nat 1 (by norm_num); simpa using this)
  have e4 : (lit (((k + 1 : ℕ) : ℚ) - 1) : Dbl) = dbl k := by
    show fl64 (((k + 1 : ℕ) : ℚ) - 1) = .fin k
    rw [show ((k + 1 : ℕ) : ℚ) - 1 = (k : ℚ) from by push_cast; ring]
    exact fl64_nat k (by omega)
  have e6 : (dbl 1 + dbl (k : ℚ) : Dbl) = dbl ((k + 1 : ℕ) : ℚ) := by
    show fl64 (1 + (k : ℚ)) = _
    rw [show 1 + (k : ℚ) = ((k + 1 : ℕ) : ℚ) from by push_cast; ring]
    exact fl64_nat (k + 1) (by omega)
  obtain ⟨a, h1, h2, h3⟩ := inv_dbl (q := ((k + 1 : ℕ) : ℚ)) hp0 (hp3.trans (by norm_num))
  refine ⟨a, ?_, h2, h3⟩
  unfold alphaOfCom
  rw [e4, e2, e6, ← e2]; exact h1

theorem ema_acc {p : ℕ} (hp : 1 ≤ p) (hp2 : p ≤ 2 ^ 20) : AccMA Ind.ema emaF p := by
  obtain ⟨a, h1, h2, h3⟩ := alpha_span_dbl hp hp2
  have hp0 : (1 : ℚ) ≤ p := by exact_mod_cast hp
  have ha0 : 0 < 2 / ((p : ℚ) + 1) := by positivity
  have ha1 : 2 / ((p : ℚ) + 1) ≤ 1 := by rw [div_le_iff₀ (by linarith)]; linarith
  have hc : 26 ≤ 2 / ((p : ℚ) + 1) * (30 * p) := by
    rw [div_mul_eq_mul_div, le_div_iff₀ (by linarith)]; linarith
  refine ⟨fun {l n m x B} hl hx hB hn => ?_, fun hb hn h => expAvg_near ha0.le ha1 hp hb hn h, fun hx => expAvg_upTo ha0.le ha1 hp hx⟩
  have := acc_ewm hp hp2 ha0 ha1 hc h2 h3 hl hx hB hn
  rw [← h1] at this
  exact this

theorem smma_acc {p : ℕ} (hp : 1 ≤ p) (hp2 : p ≤ 2 ^ 20) : AccMA Ind.smma smmaF p := by
  obtain ⟨a, h1, h2, h3⟩ := alpha_com_dbl hp hp2
  have hp0 : (1 : ℚ) ≤ p := by exact_mod_cast hp
  have ha0 : 0 < 1 / (p : ℚ) := by positivity
  have ha1 : 1 / (p : ℚ) ≤ 1 := by rw [div_le_iff₀ (by linarith)]; linarith
  have hc : 26 ≤ 1 / (p : ℚ) * (30 * p) := by
    rw [div_mul_eq_mul_div, le_div_iff₀ (by linarith)]; linarith
  refine ⟨fun {l n m x B} hl hx hB hn => ?_, fun hb hn h => expAvg_near ha0.le ha1 hp hb hn h, fun hx => expAvg_upTo ha0.le ha1 hp hx⟩
  have := acc_ewm hp hp2 ha0 ha1 hc h2 h3 hl hx hB hn
  rw [← h1] at this
  exact this

/-! ### combinations -/

theorem _root_.Spec.UpTo.mono {B B' : ℚ} {x : ℕ → ℚ} {b b' n : ℕ} (h : UpTo B x b n) (hb : b ≤ b') (hB : B ≤ B') : UpTo B' x b' n :=
  fun i h1 h2 => (h i (by omega) h2).trans hB

/-- input with errors -/
theorem AccMA.approx {F : MA Dbl} {f : ℕ → (ℕ → ℚ) → ℕ → ℕ → ℚ} {p : ℕ} (hF : AccMA F f p) {a : Line Dbl} {n m : ℕ} {x : ℕ → ℚ} {B E : ℚ}
    (ha : Approx a n m x E) (hx : UpTo B x (m - 1) n) (hE : E ≤ B) (hB : Rng (2 * B)) (hn : m + p - 1 ≤ n) :
    Gives (F p a) fun r => Approx r n (m + p - 1) (f p x (m - 1)) (E + 60 * p * B * u64) := by
  obtain ⟨y, hy, hyx⟩ := ha.rep
  have hpos := ha.pos
  have hy2 : UpTo (2 * B) y (m - 1) n := fun i h1 h2 => by
    have h3 := abs_sub_abs_le_abs_sub (y i) (x i)
    have := hyx i (by omega) h2
    have := hx i h1 h2
    linarith
  obtain ⟨r, h1, h2⟩ := hF.acc (Approx.of_rep hy (E := 0) (x := y) fun i _ _ => by simp) hy2 hB hn
  refine ⟨r, h1, ?_⟩
  obtain ⟨z, hz, hzy⟩ := h2.rep
  refine Approx.of_rep hz fun i h3 h4 => ?_
  have h5 := hzy i h3 h4
  have h6 := hF.diff (E := E) (x := y) (y := x) (b := m - 1) (n := n) (i := i) (by omega) h4 (fun j a b => hyx j (by omega) b)
  have h7 := abs_sub_le (z i) (f p y (m - 1) i) (f p x (m - 1) i)
  rw [u64_frac] at h5
  calc |z i - f p x (m - 1) i| ≤ 30 * p * (2 * B) * u64 + E := by linarith
    _ = E + 60 * p * B * u64 := by ring

theorem Approx.sub {a b : Line Dbl} {n m m' : ℕ} {x y : ℕ → ℚ} {E E' C C' M : ℚ} (ha : Approx a n m x E) (hb : Approx b n m' y E')
    (hx : UpTo C x (m - 1) n) (hy : UpTo C' y (m' - 1) n) (hM : C + C' + E + E' ≤ M) (h0 : pow2 (-1022) ≤ M) (h1 : M ≤ pow2 1023) :
    Approx (a - b) n (max m m') (fun i => x i - y i) (E + E' + M * u64) := by
  obtain ⟨v, hv, hvx⟩ := ha.rep
  obtain ⟨w, hw, hwy⟩ := hb.rep
  have hr := rep_sub hv hw
  refine ⟨hr.len, hr.mp, hr.pos, fun i h2 h3 => ?_⟩
  have e1 := hvx i (by omega) h3
  have e2 := hwy i (by omega) h3
  have e3 := hx i (by omega) h3
  have e4 := hy i (by omega) h3
  rw [abs_le] at e1 e2 e3 e4
  obtain ⟨z, hz, hze⟩ := dbl_sub (x := v i) (y := w i) (M := M) (by rw [abs_le]; constructor <;> linarith) h0 h1
  refine ⟨z, by rw [hr.val i h2 h3, hz], ?_⟩
  rw [abs_le] at hze ⊢
  constructor <;> linarith

theorem Approx.add {a b : Line Dbl} {n m m' : ℕ} {x y : ℕ → ℚ} {E E' C C' M : ℚ} (ha : Approx a n m x E) (hb : Approx b n m' y E')
    (hx : UpTo C x (m - 1) n) (hy : UpTo C' y (m' - 1) n) (hM : C + C' + E + E' ≤ M) (h0 : pow2 (-1022) ≤ M) (h1 : M ≤ pow2 1023) :
    Approx (a + b) n (max m m') (fun i => x i + y i) (E + E' + M * u64) := by
  obtain ⟨v, hv, hvx⟩ := ha.rep
  obtain ⟨w, hw, hwy⟩ := hb.rep
  have hr := rep_add hv hw
  refine ⟨hr.len, hr.mp, hr.pos, fun i h2 h3 => ?_⟩
  have e1 := hvx i (by omega) h3
  have e2 := hwy i (by omega) h3
  have e3 := hx i (by omega) h3
  have e4 := hy i (by omega) h3
  rw [abs_le] at e1 e2 e3 e4
  obtain ⟨z, hz, hze⟩ := dbl_add (x := v i) (y := w i) (M := M) (by rw [abs_le]; constructor <;> linarith) h0 h1
  refine ⟨z, by rw [hr.val i h2 h3, hz], ?_⟩
  rw [abs_le] at hze ⊢
  constructor <;> linarith

theorem Approx.rmul {a : Line Dbl} {n m : ℕ} {x : ℕ → ℚ} {E C M : ℚ} {k : ℕ} (hk : k ≤ 2 ^ 24) (ha : Approx a n m x E)
    (hx : UpTo C x (m - 1) n) (hM : k * (C + E) ≤ M) (h0 : pow2 (-1022) ≤ M) (h1 : M ≤ pow2 1023) :
    Approx (rmulS (lit (k : ℚ)) a) n m (fun i => k * x i) (k * E + M * u64) := by
  obtain ⟨v, hv, hvx⟩ := ha.rep
  have hr := rep_rmulS hv (lit (k : ℚ) : Dbl)
  refine ⟨hr.len, hr.mp, hr.pos, fun i h2 h3 => ?_⟩
  have e1 := hvx i h2 h3
  have e3 := hx i (by omega) h3
  have hk0 : (0 : ℚ) ≤ k := by positivity
  have e5 : |v i| ≤ C + E := by
    have := abs_sub_abs_le_abs_sub (v i) (x i); linarith
  obtain ⟨z, hz, hze⟩ := dbl_mul (x := k) (y := v i) (M := M)
    (by rw [abs_mul, abs_of_nonneg hk0]; exact (mul_le_mul_of_nonneg_left e5 hk0).trans hM) h0 h1
  refine ⟨z, ?_, ?_⟩
  · rw [hr.val i h2 h3, ← hz]
    congr 2
    exact dbl_lit (fl64_nat k (hk.trans (by norm_num)))
  · have h6 : |k * v i - k * x i| ≤ k * E := by
      rw [← mul_sub, abs_mul, abs_of_nonneg hk0]; exact mul_le_mul_of_nonneg_left e1 hk0
    have := abs_sub_le z (k * v i) (k * x i)
    linarith

section props
variable {a : Line Dbl} {n m : ℕ} {x : ℕ → ℚ} {B : ℚ}

/-- **C116** (ema). Doubles of size at most `B`: each value of the result, whatever the number of bars, is within `30 p 2^-53 B` of the exact
exponential average of the data. -/
theorem C116_ema {p : ℕ} (hp : 1 ≤ p) (hp2 : p ≤ 2 ^ 20) (ha : Doubles a n m x) (hx : UpTo B x (m - 1) n) (hB : SafeSize B)
    (hn : m + p - 1 ≤ n) :
    Gives (Ind.ema p a) fun r => Approx r n (m + p - 1) (fun i => Spec.ema x (m - 1) p i) (30 * p * B / 2 ^ 53) :=
  (ema_acc hp hp2).acc ha hx (by have := safeSize_pow (k := 1) hB (by norm_num) (by norm_num); rwa [one_mul] at this) hn

/-- **C116** (smma). Same for Wilder's average. -/
theorem C116_smma {p : ℕ} (hp : 1 ≤ p) (hp2 : p ≤ 2 ^ 20) (ha : Doubles a n m x) (hx : UpTo B x (m - 1) n) (hB : SafeSize B)
    (hn : m + p - 1 ≤ n) :
    Gives (Ind.smma p a) fun r => Approx r n (m + p - 1) (fun i => Spec.smma x (m - 1) p i) (30 * p * B / 2 ^ 53) :=
  (smma_acc hp hp2).acc ha hx (by have := safeSize_pow (k := 1) hB (by norm_num) (by norm_num); rwa [one_mul] at this) hn

theorem small_step {p : ℕ} (hp2 : p ≤ 2 ^ 20) (hB : 0 < B) : p * B * u64 ≤ B / 2 ^ 33 := by
  have hp3 : (p : ℚ) ≤ 2 ^ 20 := by exact_mod_cast hp2
  calc p * B * u64 ≤ 2 ^ 20 * B * u64 :=
        mul_le_mul_of_nonneg_right (mul_le_mul_of_nonneg_right hp3 hB.le) u64_pos.le
    _ = B / 2 ^ 33 := by unfold u64; ring

/-- **C116** (dema). `2 ema - ema(ema)` -/
theorem C116_dema {p : ℕ} (hp : 1 ≤ p) (hp2 : p ≤ 2 ^ 20) (ha : Doubles a n m x) (hx : UpTo B x (m - 1) n) (hB : SafeSize B)
    (hn : m + 2 * (p - 1) ≤ n) :
    Gives (Ind.dema Ind.ema p a) fun r => Approx r n (m + 2 * (p - 1)) (fun i =>
      2 * Spec.iter emaF ext1 p x (m - 1) 1 i - Spec.iter emaF ext1 p x (m - 1) 2 i) (160 * p * B / 2 ^ 53) := by
  have hpos := ha.pos
  have hF := ema_acc hp hp2
  have R : ∀ k : ℚ, 1 ≤ k → k ≤ 1024 → Rng (k * B) := fun k => safeSize_pow hB
  have R1 : Rng B := by have := R 1 (by norm_num) (by norm_num); rwa [one_mul] at this
  have hBp : 0 < B := lt_of_lt_of_le (pow2_pos _) R1.1
  have R4 := R 4 (by norm_num) (by norm_num)
  have h990 : pow2 990 ≤ pow2 1023 := pow2_mono (by norm_num)
  have hs := small_step (B := B) hp2 hBp
  have hu := u64_le
  have hBu : B * u64 ≤ B / 1000000 := by rw [div_eq_mul_one_div]; exact mul_le_mul_of_nonneg_left hu hBp.le
  have hpB : B * u64 ≤ p * B * u64 := by
    have : (1 : ℚ) ≤ p := by exact_mod_cast hp
    have := mul_le_mul_of_nonneg_right this (mul_pos hBp u64_pos).le
    linarith
  unfold Ind.dema
  refine Gives.bind (hF.acc ha hx R1 (by omega)) fun r1 e1 => ?_
  rw [u64_frac] at e1
  have s1 := hF.size hx
  have e1' := e1.mono (E' := 30 * (p * B * u64)) (le_of_eq (by ring))
  refine Gives.bind (hF.approx (B := B) e1' (s1.mono (by omega) le_rfl) (by linarith) (R 2 (by norm_num) (by norm_num)) (by omega)) fun r2 e2 => Gives.pure ?_
  have s2 := hF.size (s1.mono (b' := m + p - 1 - 1) (by omega) le_rfl)
  have e2' := e2.mono (E' := 90 * (p * B * u64)) (le_of_eq (by ring))
  have e3 := e1'.rmul (k := 2) (C := B) (M := 4 * B) (by norm_num) (s1.mono (by omega) le_rfl) (by push_cast; linarith) R4.1 (R4.2.trans h990)
  have e4 := e3.sub e2' (C := 2 * B) (C' := B) (M := 4 * B) (fun i h1 h2 => by
      have := s1 i (by omega) h2
      rw [abs_mul]; push_cast; rw [abs_of_pos (by norm_num)]; linarith)
    (s2.mono (by omega) le_rfl) (by push_cast; linarith) R4.1 (R4.2.trans h990)
  refine (e4.mono (E' := 160 * p * B / 2 ^ 53) ?_).congr (by omega) fun i h1 h2 => ?_
  · have hBu0 := mul_pos hBp u64_pos
    rw [u64_frac]; push_cast; linarith
  · simp only [Spec.iter]
    push_cast
    rw [show m - 1 + 0 * ext1 p = m - 1 from by omega, show m - 1 + 1 * ext1 p = m + p - 1 - 1 from by unfold ext1; omega]

/-- **C116** (tema). `3 ema - 3 ema(ema) + ema(ema(ema))` -/
theorem C116_tema {p : ℕ} (hp : 1 ≤ p) (hp2 : p ≤ 2 ^ 20) (ha : Doubles a n m x) (hx : UpTo B x (m - 1) n) (hB : SafeSize B)
    (hn : m + 3 * (p - 1) ≤ n) :
    Gives (Ind.tema Ind.ema p a) fun r => Approx r n (m + 3 * (p - 1)) (fun i =>
      3 * Spec.iter emaF ext1 p x (m - 1) 1 i - 3 * Spec.iter emaF ext1 p x (m - 1) 2 i + Spec.iter emaF ext1 p x (m - 1) 3 i)
      (540 * p * B / 2 ^ 53) := by
  have hpos := ha.pos
  have hF := ema_acc hp hp2
  have R : ∀ k : ℚ, 1 ≤ k → k ≤ 1024 → Rng (k * B) := fun k => safeSize_pow hB
  have R1 : Rng B := by have := R 1 (by norm_num) (by norm_num); rwa [one_mul] at this
  have hBp : 0 < B := lt_of_lt_of_le (pow2_pos _) R1.1
  have R4 := R 4 (by norm_num) (by norm_num)
  have R8 := R 8 (by norm_num) (by norm_num)
  have h990 : pow2 990 ≤ pow2 1023 := pow2_mono (by norm_num)
  have hs := small_step (B := B) hp2 hBp
  have hu := u64_le
  have hBu : B * u64 ≤ B / 1000000 := by rw [div_eq_mul_one_div]; exact mul_le_mul_of_nonneg_left hu hBp.le
  have hpB : B * u64 ≤ p * B * u64 := by
    have : (1 : ℚ) ≤ p := by exact_mod_cast hp
    have := mul_le_mul_of_nonneg_right this (mul_pos hBp u64_pos).le
    linarith
  unfold Ind.tema
  refine Gives.bind (hF.acc ha hx R1 (by omega)) fun r1 e1 => ?_
  rw [u64_frac] at e1
  have s1 := hF.size hx
  have e1' := e1.mono (E' := 30 * (p * B * u64)) (le_of_eq (by ring))
  refine Gives.bind (hF.approx (B := B) e1' (s1.mono (by omega) le_rfl) (by linarith) (R 2 (by norm_num) (by norm_num)) (by omega)) fun r2 e2 => ?_
  have s2 := hF.size (s1.mono (b' := m + p - 1 - 1) (by omega) le_rfl)
  have e2' := e2.mono (E' := 90 * (p * B * u64)) (le_of_eq (by ring))
  refine Gives.bind (hF.approx (B := B) e2' (s2.mono (by omega) le_rfl) (by linarith) (R 2 (by norm_num) (by norm_num)) (by omega)) fun r3 e3 => Gives.pure ?_
  have s3 := hF.size (s2.mono (b' := m + p - 1 + p - 1 - 1) (by omega) le_rfl)
  have e3' := e3.mono (E' := 150 * (p * B * u64)) (le_of_eq (by ring))
  have t : ∀ {b : ℕ} {f : ℕ → ℚ}, UpTo B f b n → UpTo (3 * B) (fun i => ((3 : ℕ) : ℚ) * f i) b n := fun h i h1 h2 => by
    have := h i h1 h2
    rw [abs_mul]; push_cast; rw [abs_of_pos (by norm_num)]; linarith
  have e4 := e1'.rmul (k := 3) (C := B) (M := 4 * B) (by norm_num) (s1.mono (by omega) le_rfl) (by push_cast; linarith) R4.1 (R4.2.trans h990)
  have e5 := e2'.rmul (k := 3) (C := B) (M := 4 * B) (by norm_num) (s2.mono (by omega) le_rfl) (by push_cast; linarith) R4.1 (R4.2.trans h990)
  have e6 := e4.sub e5 (C := 3 * B) (C' := 3 * B) (M := 8 * B) ((t s1).mono (by omega) le_rfl) ((t s2).mono (by omega) le_rfl)
    (by push_cast; linarith) R8.1 (R8.2.trans h990)
  have e7 := e6.add e3' (C := 6 * B) (C' := B) (M := 8 * B) (fun i h1 h2 => by
      have h3 := t s1 i (by omega) h2
      have h4 := t s2 i (by omega) h2
      rw [abs_le] at h3 h4 ⊢
      constructor <;> linarith)
    (s3.mono (by omega) le_rfl) (by push_cast; linarith) R8.1 (R8.2.trans h990)
  refine (e7.mono (E' := 540 * p * B / 2 ^ 53) ?_).congr (by omega) fun i h1 h2 => ?_
  · have hBu0 := mul_pos hBp u64_pos
    rw [u64_frac]; push_cast; linarith
  · simp only [Spec.iter]
    push_cast
    rw [show m - 1 + 0 * ext1 p = m - 1 from by omega, show m - 1 + 1 * ext1 p = m + p - 1 - 1 from by unfold ext1; omega,
      show m - 1 + 2 * ext1 p = m + p - 1 + p - 1 - 1 from by unfold ext1; omega]

/-- **C116** (macd). The difference of two averages, its average (the signal) and their difference. -/
theorem C116_macd {pfast pslow psig : ℕ} (h1 : 1 ≤ pfast) (h2 : pfast ≤ pslow) (h3 : 1 ≤ psig) (h4 : pslow ≤ 2 ^ 20) (h5 : psig ≤ 2 ^ 20)
    (ha : Doubles a n m x) (hx : UpTo B x (m - 1) n) (hB : SafeSize B) (hn : m + (pslow - 1) + (psig - 1) ≤ n) :
    Gives (Ind.macd Ind.ema Ind.ema Ind.ema pfast pslow psig a) fun r =>
      let d := fun i => Spec.ema x (m - 1) pfast i - Spec.ema x (m - 1) pslow i
      let s := fun i => Spec.ema d (m + pslow - 2) psig i
      Approx r.1 n (m + pslow - 1) d (70 * pslow * B / 2 ^ 53) ∧
      Approx r.2.1 n (m + pslow + psig - 2) s ((70 * pslow + 120 * psig) * B / 2 ^ 53) ∧
      Approx r.2.2 n (m + pslow + psig - 2) (fun i => d i - s i) ((150 * pslow + 120 * psig) * B / 2 ^ 53) := by
  have hpos := ha.pos
  have hF := ema_acc h1 (h2.trans h4)
  have hG := ema_acc (h1.trans h2) h4
  have hH := ema_acc h3 h5
  have R : ∀ k : ℚ, 1 ≤ k → k ≤ 1024 → Rng (k * B) := fun k => safeSize_pow hB
  have R1 : Rng B := by have := R 1 (by norm_num) (by norm_num); rwa [one_mul] at this
  have hBp : 0 < B := lt_of_lt_of_le (pow2_pos _) R1.1
  have R4 := R 4 (by norm_num) (by norm_num)
  have R8 := R 8 (by norm_num) (by norm_num)
  have h990 : pow2 990 ≤ pow2 1023 := pow2_mono (by norm_num)
  have hs := small_step (B := B) h4 hBp
  have hs5 := small_step (B := B) h5 hBp
  have hBu0 := mul_pos hBp u64_pos
  have hpB : B * u64 ≤ pslow * B * u64 := by
    have : (1 : ℚ) ≤ pslow := by exact_mod_cast h1.trans h2
    have := mul_le_mul_of_nonneg_right this (mul_pos hBp u64_pos).le
    linarith
  have hpf : pfast * B * u64 ≤ pslow * B * u64 := by
    have : (pfast : ℚ) ≤ pslow := by exact_mod_cast h2
    exact mul_le_mul_of_nonneg_right (mul_le_mul_of_nonneg_right this hBp.le) u64_pos.le
  unfold Ind.macd
  refine Gives.bind (hF.acc ha hx R1 (by omega)) fun r1 e1 => ?_
  refine Gives.bind (hG.acc ha hx R1 (by omega)) fun r2 e2 => ?_
  rw [u64_frac] at e1 e2
  have s1 := hF.size hx
  have s2 := hG.size hx
  have e3 := e1.sub e2 (C := B) (C' := B) (M := 4 * B) (s1.mono (by omega) le_rfl) (s2.mono (by omega) le_rfl)
    (by linarith) R4.1 (R4.2.trans h990)
  have e4 : Approx (r1 - r2) n (m + pslow - 1) (fun i => Spec.ema x (m - 1) pfast i - Spec.ema x (m - 1) pslow i)
      (70 * pslow * B * u64) :=
    (e3.mono (by linarith)).congr (by omega) fun _ _ _ => rfl
  have s4 : UpTo (2 * B) (fun i => Spec.ema x (m - 1) pfast i - Spec.ema x (m - 1) pslow i) (m + pslow - 1 - 1) n := fun i i1 i2 => by
    have h3 : |Spec.ema x (m - 1) pfast i| ≤ B := s1 i (by omega) i2
    have h4 : |Spec.ema x (m - 1) pslow i| ≤ B := s2 i (by omega) i2
    rw [abs_le] at h3 h4 ⊢
    constructor <;> linarith
  have hr := hH.approx (B := 2 * B) e4 s4 (by linarith) (by have := R4; rwa [show 4 * B = 2 * (2 * B) from by ring] at this) (by omega)
  refine Gives.bind hr fun r3 e5 => Gives.pure ?_
  have s5 := hH.size s4
  have e6 : Approx r3 n (m + pslow + psig - 2) (fun i => Spec.ema (fun i => Spec.ema x (m - 1) pfast i - Spec.ema x (m - 1) pslow i) (m + pslow - 2) psig i)
      ((70 * pslow + 120 * psig) * B * u64) :=
    (e5.mono (le_of_eq (by ring))).congr (by omega) fun i _ _ => by
      rw [show m + pslow - 2 = m + pslow - 1 - 1 from by omega]; rfl
  rw [show m + pslow - 1 - 1 = m + pslow - 2 from by omega] at s5
  have e7 := e4.sub e6 (C := 2 * B) (C' := 2 * B) (M := 8 * B) s4 (s5.mono (by omega) le_rfl) (by linarith) R8.1 (R8.2.trans h990)
  refine ⟨?_, ?_, ?_⟩
  · rw [u64_frac]; exact e4
  · rw [u64_frac]; exact e6
  · rw [u64_frac]
    exact (e7.mono (by linarith)).congr (by omega) fun _ _ _ => rfl

end props

/-! ### running sums -/

section sums
variable {V : Type} [PyFloat V]

theorem cumsumGo_run {n k0 : ℕ} {g A : ℕ → V} (hg : ∀ i, isNaN (g i) = false) (hA : ∀ i, k0 ≤ i → A (i + 1) = A i + g (i + 1)) :
    ∀ (r k : ℕ) (acc : V), k0 ≤ k → n - k = r → A k = acc + g k → cumsumGo acc (tail n k g) = tail n k A := by
  intro r
  induction r with
  | zero => intro k acc _ h _; rw [tail_nil g (by omega), tail_nil A (by omega)]; rfl
  | succ r ih =>
    intro k acc h0 h hk
    rw [tail_cons g (by omega), tail_cons A (by omega), cumsumGo, hg k, if_neg (by simp), hk]
    congr 1
    exact ih (k + 1) _ (by omega) (by omega) (by rw [hA k h0, hk])

theorem rep_cumsum_run {a : Line V} {n m : ℕ} {g A : ℕ → V} (ha : RepW a n m g) (hg : ∀ i, isNaN (g i) = false)
    (hA : ∀ i, m - 1 ≤ i → A (i + 1) = A i + g (i + 1)) (h0 : A (m - 1) = lit 0 + g (m - 1)) : Rep nan a.cumsum n m A :=
  (rep_stdop (inc := 0) (k := A) ha (cumsumGo_run hg hA _ _ _ le_rfl rfl h0) (fun i h1 h2 _ => by omega)).congr rfl fun _ _ _ => rfl

theorem rep_of_list {n : ℕ} (g : ℕ → V) : RepW ⟨(List.range n).map g, 1⟩ n 1 g :=
  ⟨by simp, rfl, le_refl _, fun i _ h => by simp [h]⟩

end sums

/-- closes which go up and down by turns -/
def upDown (i : ℕ) : ℚ := if i % 2 = 1 then 2 else 1
/-- volumes: `2^53` at first, then 1 on the bars with a higher and 0 on those with a lower close -/
def volumes (i : ℕ) : ℚ := if i ≤ 1 then 2 ^ 53 else if i % 2 = 1 then 1 else 0

theorem upDown_diff (i : ℕ) (hi : 1 ≤ i) : upDown i - upDown (i - 1) = if i % 2 = 1 then 1 else -1 := by
  unfold upDown
  by_cases h : i % 2 = 1
  · rw [if_pos h, if_neg (by omega), if_pos h]; norm_num
  · rw [if_neg h, if_pos (by omega), if_neg h]; norm_num

/-- **C116** (the limit). No such bound holds for the running sums: with volumes up to `2^53` `obv` is off by any number `N`, if the history
is long enough. (The exact line shows `2^53 + N`, the line of doubles `2^53`.) -/
theorem C116_obv_drift (N : ℕ) : ∃ (n i : ℕ) (c v : ℕ → ℚ), (∀ j, 0 ≤ c j ∧ c j ≤ 2 ^ 53 ∧ 0 ≤ v j ∧ v j ≤ 2 ^ 53) ∧
    (Ind.obv false 1 ⟨(List.range n).map fun j => (Ext.fin (c j) : Ext ℚ), 1⟩ ⟨(List.range n).map fun j => (Ext.fin (v j) : Ext ℚ), 1⟩).series[i]?
      = some (Ext.fin (2 ^ 53 + (N : ℚ))) ∧
    (Ind.obv false 1 ⟨(List.range n).map fun j => dbl (c j), 1⟩ ⟨(List.range n).map fun j => dbl (v j), 1⟩).series[i]? = some (dbl (2 ^ 53)) := by
  refine ⟨2 * N + 2, 2 * N + 1, upDown, volumes, fun j => ?_, ?_, ?_⟩
  · unfold upDown volumes
    refine ⟨?_, ?_, ?_, ?_⟩ <;> split <;> (try split) <;> norm_num
  · have hd := rep_diff (s := 1) (rep_of_list (n := 2 * N + 2) fun j => (Ext.fin (upDown j) : Ext ℚ))
    have hm := rep_mul (rep_of_list (n := 2 * N + 2) fun j => (Ext.fin (volumes j) : Ext ℚ)) (rep_mapOp (f := signV) hd.toRepW).toRepW
    have hm' : RepW _ (2 * N + 2) 2 fun j => (Ext.fin (volumes j) : Ext ℚ) := (hm.congr (m' := 2) rfl fun i h1 _ => by
      show (Ext.fin (volumes i) * signV (Ext.fin (upDown i) - Ext.fin (upDown (i - 1))) : Ext ℚ) = _
      rw [Ext.fin_sub, upDown_diff i (by omega)]
      by_cases h : i % 2 = 1
      · rw [if_pos h, show (signV (Ext.fin 1) : Ext ℚ) = Ext.fin 1 from by decide +kernel, Ext.fin_mul, mul_one]
      · rw [if_neg h, show (signV (Ext.fin (-1)) : Ext ℚ) = Ext.fin (-1) from by decide +kernel, Ext.fin_mul]
        unfold volumes
        rw [if_neg (by omega), if_neg h]; simp).toRepW
    have hc := rep_cumsum_run (A := fun i => (Ext.fin (2 ^ 53 + ((i - 1) / 2 : ℕ)) : Ext ℚ)) hm' (fun _ => rfl) (fun i hi => by
      rw [Ext.fin_add]
      congr 1
      unfold volumes
      rw [if_neg (by omega)]
      split
      · rw [show (i + 1 - 1) / 2 = (i - 1) / 2 + 1 from by omega]; push_cast; ring
      · rw [show (i + 1 - 1) / 2 = (i - 1) / 2 from by omega]; ring) (by
      rw [Ext.lit_def, Ext.fin_add]; unfold volumes; norm_num)
    have := hc.val (2 * N + 1) (by omega) (by omega)
    rw [show (2 * N + 1 - 1) / 2 = N from by omega] at this
    exact this
  · have hd := rep_diff (s := 1) (rep_of_list (n := 2 * N + 2) fun j => dbl (upDown j))
    have hm := rep_mul (rep_of_list (n := 2 * N + 2) fun j => dbl (volumes j)) (rep_mapOp (f := signV) hd.toRepW).toRepW
    have hm' : RepW _ (2 * N + 2) 2 fun j => dbl (volumes j) := (hm.congr (m' := 2) rfl fun i h1 _ => by
      show (dbl (volumes i) * signV (dbl (upDown i) - dbl (upDown (i - 1))) : Dbl) = _
      have e : (dbl (upDown i) - dbl (upDown (i - 1)) : Dbl) = fl64 (upDown i - upDown (i - 1)) := by
        rw [sub_eq_add_neg]; rfl
      rw [e, upDown_diff i (by omega)]
      unfold volumes
      by_cases h : i % 2 = 1
      · rw [if_pos h, if_pos h]
        by_cases h' : i ≤ 1
        · rw [if_pos h']; decide +kernel
        · rw [if_neg h']; decide +kernel
      · rw [if_neg h, if_neg h, if_neg (by omega)]
        decide +kernel).toRepW
    have hc := rep_cumsum_run (A := fun i => dbl (2 ^ 53)) hm' (fun _ => rfl) (fun i hi => by
      unfold volumes
      rw [if_neg (by omega)]
      split <;> decide +kernel) (by unfold volumes; decide +kernel)
    exact hc.val (2 * N + 1) (by omega) (by omega)

/-! ### cases -/

/-- C116, a case: such data, which are not just constant, and a result which is not the double nearest to the exact value 1/6 -/
example : Doubles (⟨[dbl 1, dbl 0, dbl 0, dbl 4], 1⟩ : Line Dbl) 4 1 (fun i => [1, 0, 0, 4].getD i 0) ∧ SafeSize 4 ∧
    UpTo 4 (fun i => [1, 0, 0, 4].getD i (0 : ℚ)) 0 4 ∧
    (Ind.ema 2 (⟨[dbl 1, dbl 0, dbl 0, dbl 4], 1⟩ : Line Dbl)).map (fun r => r.series[2]?) = .ok (some (dbl (3002399751580331 / 2 ^ 54))) ∧
    fl64 (1 / 6) ≠ .fin (3002399751580331 / 2 ^ 54) := by
  refine ⟨⟨rfl, rfl, le_refl _, fun i _ h => ?_⟩, ⟨?_, ?_⟩, fun i _ h => ?_, ?_, ?_⟩
  · refine ⟨[1, 0, 0, 4].getD i 0, ?_, by simp⟩
    interval_cases i <;> rfl
  · rw [zpow_neg, zpow_ofNat]
    exact (inv_le_one_of_one_le₀ (one_le_pow₀ (by norm_num))).trans (by norm_num)
  · rw [zpow_ofNat]
    calc (4 : ℚ) = 2 ^ 2 := by norm_num
      _ ≤ 2 ^ 980 := pow_le_pow_right₀ (by norm_num) (by norm_num)
  · interval_cases i <;> norm_num
  · decide +kernel
  · decide +kernel

end Bta
