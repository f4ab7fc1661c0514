import Verif.Lemmas.Cum
import Verif.Lemmas.Osc
import Verif.Props.Ma

/-!
# Prices, ranges and volume: C27, C34, C35, C44 - C47
-/

set_option linter.unusedSectionVars false
set_option linter.unusedVariables false

namespace Bta
open Line Ext

variable {K : Type} [Field K] [LinearOrder K] [IsStrictOrderedRing K]
variable {a o h l c v : Line (Ext K)} {n m mo mh ml mc mv : ℕ} {x O H L C W : ℕ → K}

/-! ## C44 -/

/-- **C44** mom: the difference to the value `p` bars before -/
theorem C44_mom (ha : Holds a n m x) (p : ℕ) : Shows (Ind.mom p a) n (m + p) fun i => x i - x (i - p) := ha.diff p

/-- **C44** rocr: IEEE quotient -/
theorem C44_rocr (ha : Holds a n m x) {p : ℕ} (hp : 1 ≤ p) :
    Delivers (Ind.rocr p a) n (m + p) fun i => fin (x i) / fin (x (i - p)) :=
  (rep_div ha (ha.ago hp).toRepW).congr (by omega) fun _ _ _ => rfl

/-- **C44** rocr100, rocp, roc: `100*q`, `q - 1`, `100*(q - 1)` for the quotient `q`. -/
theorem C44_roc (ha : Holds a n m x) {p : ℕ} (hp : 1 ≤ p) :
    Delivers (Ind.rocr100 p a) n (m + p) (fun i => fin 100 * (fin (x i) / fin (x (i - p)))) ∧
    Delivers (Ind.rocp p a) n (m + p) (fun i => fin (x i) / fin (x (i - p)) - fin 1) ∧
    Delivers (Ind.roc p a) n (m + p) (fun i => fin 100 * (fin (x i) / fin (x (i - p)) - fin 1)) := by
  have h := C44_rocr ha hp
  refine ⟨(rep_rmulS h.toRepW _).congr rfl fun i _ _ => by simp, (rep_subS h.toRepW _).congr rfl fun i _ _ => by simp,
    (rep_rmulS (rep_subS h.toRepW _).toRepW _).congr rfl fun i _ _ => by simp⟩

/-- **C44** (consistency), for data without zeros: all are the same quotient of numbers -/
theorem C44_consistent (ha : Holds a n m x) {p : ℕ} (hp : 1 ≤ p) (h0 : ∀ i, m ≤ i + 1 → i < n → x i ≠ 0) :
    Shows (Ind.rocr p a) n (m + p) (fun i => x i / x (i - p)) ∧
    Shows (Ind.rocr100 p a) n (m + p) (fun i => 100 * (x i / x (i - p))) ∧
    Shows (Ind.rocp p a) n (m + p) (fun i => (x i - x (i - p)) / x (i - p)) ∧
    Shows (Ind.roc p a) n (m + p) (fun i => 100 * ((x i - x (i - p)) / x (i - p))) := by
  have hpos := ha.pos
  have hz : ∀ i, m + p ≤ i + 1 → i < n → x (i - p) ≠ 0 := fun i h1 h2 => h0 _ (by omega) (by omega)
  obtain ⟨h1, h2, h3⟩ := C44_roc ha hp
  refine ⟨(C44_rocr ha hp).congr rfl fun i q1 q2 => Ext.fin_div _ (hz i q1 q2), h1.congr rfl fun i q1 q2 => ?_,
    h2.congr rfl fun i q1 q2 => ?_, h3.congr rfl fun i q1 q2 => ?_⟩
  all_goals
    have := hz i q1 q2
    rw [Ext.fin_div _ this]
    simp only [Ext.fin_mul, Ext.fin_sub]
  · congr 1; field_simp
  · congr 2; field_simp

example : Ind.roc 2 exData = ⟨[.nan, .nan, .fin 300, .fin 250, .fin 175, .fin (900/7)], 3⟩ := by decide +kernel

/-! ## C45 -/

/-- **C45** medprice: the centre of the bar, within the bar; here and below for inputs with any minimum periods -/
theorem C45_medprice (hh : Holds h n mh H) (hl : Holds l n ml L) (hv : ∀ i, max mh ml ≤ i + 1 → i < n → L i ≤ H i) :
    ∃ y, Shows (Ind.medprice (lit 2) h l) n (max mh ml) y ∧ ∀ i, max mh ml ≤ i + 1 → i < n →
      y i = (H i + L i) / 2 ∧ L i ≤ y i ∧ y i ≤ H i := by
  have h2 : (2 : K) ≠ 0 := by norm_num
  refine ⟨fun i => (H i + L i) / 2, ?_, fun i h1 h2 => ?_⟩
  · unfold Ind.medprice
    rw [show (lit 2 : Ext K) = fin 2 from by simp]
    exact shows_congr (Holds.divS (Holds.add hh hl).toRepW h2) (by omega) fun _ _ _ => rfl
  · have := hv i h1 h2
    refine ⟨rfl, ?_, ?_⟩
    · rw [le_div_iff₀ (by norm_num)]; linarith
    · rw [div_le_iff₀ (by norm_num)]; linarith

/-- **C45** typprice -/
theorem C45_typprice (hh : Holds h n mh H) (hl : Holds l n ml L) (hc : Holds c n mc C)
    (hv : ∀ i, max (max mh ml) mc ≤ i + 1 → i < n → L i ≤ C i ∧ C i ≤ H i) :
    ∃ y, Shows (Ind.typprice (lit 3) h l c) n (max (max mh ml) mc) y ∧ ∀ i, max (max mh ml) mc ≤ i + 1 → i < n →
      y i = (H i + L i + C i) / 3 ∧ L i ≤ y i ∧ y i ≤ H i := by
  have h2 : (3 : K) ≠ 0 := by norm_num
  refine ⟨fun i => (H i + L i + C i) / 3, ?_, fun i h1 h2 => ?_⟩
  · unfold Ind.typprice
    rw [show (lit 3 : Ext K) = fin 3 from by simp]
    exact shows_congr (Holds.divS (Holds.add (Holds.add hh hl).toRepW hc).toRepW h2) (by omega) fun _ _ _ => rfl
  · obtain ⟨q1, q2⟩ := hv i h1 h2
    refine ⟨rfl, ?_, ?_⟩
    · rw [le_div_iff₀ (by norm_num)]; linarith
    · rw [div_le_iff₀ (by norm_num)]; linarith

/-- **C45** avgprice -/
theorem C45_avgprice (ho : Holds o n mo O) (hh : Holds h n mh H) (hl : Holds l n ml L) (hc : Holds c n mc C)
    (hv : ∀ i, max (max (max mo mh) ml) mc ≤ i + 1 → i < n → L i ≤ C i ∧ C i ≤ H i ∧ L i ≤ O i ∧ O i ≤ H i) :
    ∃ y, Shows (Ind.avgprice (lit 4) o h l c) n (max (max (max mo mh) ml) mc) y ∧ ∀ i, max (max (max mo mh) ml) mc ≤ i + 1 → i < n →
      y i = (O i + H i + L i + C i) / 4 ∧ L i ≤ y i ∧ y i ≤ H i := by
  have h2 : (4 : K) ≠ 0 := by norm_num
  refine ⟨fun i => (O i + H i + L i + C i) / 4, ?_, fun i h1 h2 => ?_⟩
  · unfold Ind.avgprice
    rw [show (lit 4 : Ext K) = fin 4 from by simp]
    exact shows_congr (Holds.divS (Holds.add (Holds.add (Holds.add ho hh).toRepW hl).toRepW hc).toRepW h2) (by omega)
      fun _ _ _ => rfl
  · obtain ⟨q1, q2, q3, q4⟩ := hv i h1 h2
    refine ⟨rfl, ?_, ?_⟩
    · rw [le_div_iff₀ (by norm_num)]; linarith
    · rw [div_le_iff₀ (by norm_num)]; linarith

/-- **C45** wclprice, with any weight `w ≥ 0` and divisor `2 + w` (defaults: 2 and 4) -/
theorem C45_wclprice (hh : Holds h n mh H) (hl : Holds l n ml L) (hc : Holds c n mc C) {w : K} (hw : 0 ≤ w)
    (hv : ∀ i, max (max mh ml) mc ≤ i + 1 → i < n → L i ≤ C i ∧ C i ≤ H i) :
    ∃ y, Shows (Ind.wclprice (fin w) (fin (2 + w)) h l c) n (max (max mh ml) mc) y ∧ ∀ i, max (max mh ml) mc ≤ i + 1 → i < n →
      y i = (H i + L i + w * C i) / (2 + w) ∧ L i ≤ y i ∧ y i ≤ H i := by
  have h3 : 0 < 2 + w := by positivity
  refine ⟨fun i => (H i + L i + w * C i) / (2 + w), ?_, fun i h1 h2 => ?_⟩
  · unfold Ind.wclprice
    refine shows_congr (Holds.divS (Holds.add (Holds.add hh hl).toRepW (Holds.mulS hc w).toRepW).toRepW h3.ne') (by omega)
      fun _ _ _ => ?_
    rw [mul_comm w]
  · obtain ⟨q1, q2⟩ := hv i h1 h2
    refine ⟨rfl, ?_, ?_⟩
    · rw [le_div_iff₀ h3]; nlinarith
    · rw [div_le_iff₀ h3]; nlinarith

/-- the defaults of wclprice are of this form; a valid bar -/
example : (2 : ℚ) + 2 = 4 := by norm_num
example : Ind.wclprice (.fin 2) (.fin 4) (bars 1 fun _ => (4 : ℚ)) (bars 1 fun _ => 1) (bars 1 fun _ => 2) = ⟨[.fin (9/4)], 1⟩ := by
  decide +kernel

/-! ## C46 -/

/-- **C46**: the centre between the highest high and the lowest low of the last `p` bars -/
theorem C46_midprice (hh : Holds h n mh H) (hl : Holds l n ml L) {p : ℕ} (hp : 1 ≤ p) :
    ∃ T B : ℕ → K, Shows (Ind.midprice p h l) n (max mh ml + p - 1) (fun i => (T i + B i) / 2) ∧
      ∀ i, IsGreatest {y | ∃ j, j < p ∧ y = H (i - j)} (T i) ∧ IsLeast {y | ∃ j, j < p ∧ y = L (i - j)} (B i) := by
  have h2 : (2 : K) ≠ 0 := by norm_num
  refine ⟨_, _, ?_, fun i => ⟨Spec.winMax_isGreatest H hp i, Spec.winMin_isLeast L hp i⟩⟩
  unfold Ind.midprice
  rw [show (lit 2 : Ext K) = fin 2 from by simp]
  exact shows_congr (Holds.divS (Holds.add (Holds.rollMax hh hp).toRepW (Holds.rollMin hl hp).toRepW).toRepW h2) (by omega)
    fun _ _ _ => rfl

/-- **C46** midpoint: same with one series -/
theorem C46_midpoint (hx : Holds a n m x) {p : ℕ} (hp : 1 ≤ p) :
    ∃ T B : ℕ → K, Shows (Ind.midpoint p a) n (m + p - 1) (fun i => (T i + B i) / 2) ∧
      ∀ i, IsGreatest {y | ∃ j, j < p ∧ y = x (i - j)} (T i) ∧ IsLeast {y | ∃ j, j < p ∧ y = x (i - j)} (B i) := by
  have := C46_midprice hx hx hp
  rwa [max_self] at this

/-! ## C27 -/

/-- true range: the greatest of high - low, |high - close before|, |low - close before| (`q` bars before) -/
def _root_.Spec.trueRange (H L C : ℕ → K) (q i : ℕ) : K :=
  max (H i - L i) (max |H i - C (i - q)| |L i - C (i - q)|)

theorem trueRange_eq {hi lo cl : K} (h : lo ≤ hi) : max cl hi - min cl lo = max (hi - lo) (max |hi - cl| |lo - cl|) := by
  rcases le_total cl lo with h1 | h1
  · have h2 : cl ≤ hi := h1.trans h
    rw [max_eq_right h2, min_eq_left h1, abs_of_nonneg (by linarith), abs_of_nonneg (by linarith),
      max_eq_left (by linarith : lo - cl ≤ hi - cl), max_eq_right (by linarith)]
  · rcases le_total cl hi with h2 | h2
    · rw [max_eq_right h2, min_eq_right h1, abs_of_nonneg (by linarith), abs_of_nonpos (by linarith)]
      rw [max_eq_left (max_le (by linarith) (by linarith))]
    · rw [max_eq_left h2, min_eq_right h1, abs_of_nonpos (by linarith), abs_of_nonpos (by linarith),
        max_eq_right (by linarith : -(hi - cl) ≤ -(lo - cl)), max_eq_right (by linarith)]
      ring

theorem trueRange_nonneg (H L C : ℕ → K) (q i : ℕ) : 0 ≤ Spec.trueRange H L C q i :=
  le_max_of_le_right (le_max_of_le_left (abs_nonneg _))

/-- **C27** truerange; for inputs with any minimum periods. -/
theorem C27_truerange (hh : Holds h n mh H) (hl : Holds l n ml L) (hc : Holds c n mc C) {q : ℕ} (hq : 1 ≤ q)
    (hv : ∀ i, max (mc + q) (max mh ml) ≤ i + 1 → i < n → L i ≤ H i) :
    Shows (Ind.truerange q h l c) n (max (mc + q) (max mh ml))
      (fun i => max (H i - L i) (max |H i - C (i - q)| |L i - C (i - q)|)) ∧
    ∀ i, 0 ≤ max (H i - L i) (max |H i - C (i - q)| |L i - C (i - q)|) := by
  refine ⟨?_, trueRange_nonneg H L C q⟩
  have h1 := hc.ago hq
  refine shows_congr (Holds.sub (Holds.clipLoL h1.toRepW hh).toRepW (Holds.clipHiL h1.toRepW hl).toRepW) (by omega)
    fun i h2 h3 => ?_
  exact trueRange_eq (hv i h2 h3)

/-- **C27** atr: the average (any conforming one) of the true ranges, never negative. -/
theorem C27_atr {ma : MA (Ext K)} {F : ℕ → (ℕ → K) → ℕ → ℕ → K} {e : ℕ → ℕ} (hma : IsMA ma F e) (hN : NonNeg F e)
    (hh : Holds h n m H) (hl : Holds l n m L) (hc : Holds c n m C) {q p : ℕ} (hq : 1 ≤ q) (hp : 1 ≤ p)
    (hv : ∀ i, m ≤ i + 1 → i < n → L i ≤ H i) (hn : m + q + e p ≤ n) :
    Gives (Ind.atr ma q p h l c) fun r =>
      Shows r n (m + q + e p) (F p (Spec.trueRange H L C q) (m + q - 1)) ∧
      ∀ i, m + q + e p ≤ i + 1 → 0 ≤ F p (Spec.trueRange H L C q) (m + q - 1) i := by
  have hpos := hh.pos
  obtain ⟨h1, -⟩ := C27_truerange hh hl hc hq fun i h1 h2 => hv i (by omega) h2
  have h1' : Shows (Ind.truerange q h l c) n (m + q) (Spec.trueRange H L C q) :=
    shows_congr h1 (by omega) fun _ _ _ => rfl
  exact (hma p hp _ n _ _ h1'.toRepW hn).imp fun r hr => ⟨hr, fun i hi =>
    hN p hp _ _ i (by omega) fun j _ _ => trueRange_nonneg H L C q j⟩

/-- **C27** natr: atr in percent of the close, never negative for positive closes. -/
theorem C27_natr {ma : MA (Ext K)} {F : ℕ → (ℕ → K) → ℕ → ℕ → K} {e : ℕ → ℕ} (hma : IsMA ma F e) (hN : NonNeg F e)
    (hh : Holds h n m H) (hl : Holds l n m L) (hc : Holds c n m C) {q p : ℕ} (hq : 1 ≤ q) (hp : 1 ≤ p)
    (hv : ∀ i, m ≤ i + 1 → i < n → L i ≤ H i ∧ 0 < C i) (hn : m + q + e p ≤ n) :
    ∃ y, (Gives (Ind.natr ma q p h l c) fun r => Shows r n (m + q + e p) y) ∧
      ∀ i, m + q + e p ≤ i + 1 → i < n → y i = 100 * F p (Spec.trueRange H L C q) (m + q - 1) i / C i ∧ 0 ≤ y i := by
  refine ⟨fun i => 100 * F p (Spec.trueRange H L C q) (m + q - 1) i / C i, ?_, fun i h1 h2 => ⟨rfl, ?_⟩⟩
  · unfold Ind.natr
    refine Gives.bind (C27_atr hma hN hh hl hc hq hp (fun i h1 h2 => (hv i h1 h2).1) hn) fun r hr => Gives.pure ?_
    rw [show (lit 100 : Ext K) = fin 100 from by simp]
    refine shows_congr (Holds.div (Holds.rmulS hr.1.toRepW 100).toRepW hc fun i h1 h2 => ?_) (by omega) fun _ _ _ => rfl
    exact (hv i (by omega) h2).2.ne'
  · have hpos := hh.pos
    have := (hv i (by omega) h2).2
    have h3 : 0 ≤ F p (Spec.trueRange H L C q) (m + q - 1) i :=
      hN p hp _ _ i (by omega) fun j _ _ => trueRange_nonneg H L C q j
    positivity

/-- C27, a case with a gap: true range 5 - 1 = 4 although high - low is 1; Wilder's average is the default of atr -/
example : Ind.truerange 1 (bars 2 fun i => if i = 0 then (2 : ℚ) else 5) (bars 2 fun i => if i = 0 then 0 else 4)
    (bars 2 fun _ => 1) = ⟨[.nan, .fin 4], 2⟩ := by decide +kernel
example : Gives (Ind.atr Ind.smma 1 2 (bars 9 fun _ => (2 : ℚ)) (bars 9 fun _ => 1) (bars 9 fun _ => 1)) fun r =>
    Shows r 9 3 (smmaF 2 (Spec.trueRange (fun _ => 2) (fun _ => 1) (fun _ => 1) 1) 1) :=
  (C27_atr smma_isMA smmaF_nonneg (bars_holds _ _) (bars_holds _ _) (bars_holds _ _) (le_refl 1) (by omega)
    (fun _ _ _ => by norm_num) (by unfold ext1; omega)).imp fun r hr => hr.1

/-! ## C47 -/

/-- buying pressure: close - lesser of low and previous close -/
def _root_.Spec.pressure (L C : ℕ → K) (i : ℕ) : K := C i - min (C (i - 1)) (L i)

theorem pressure_bounds (H L C : ℕ → K) (i : ℕ) (h1 : L i ≤ C i) (h2 : C i ≤ H i) :
    0 ≤ Spec.pressure L C i ∧ Spec.pressure L C i ≤ Spec.trueRange H L C 1 i := by
  unfold Spec.pressure Spec.trueRange
  rw [← trueRange_eq (h1.trans h2)]
  have h3 := min_le_right (C (i - 1)) (L i)
  have h4 := le_max_right (C (i - 1)) (H i)
  constructor <;> linarith

theorem ratioV_range {u d : K} (h0 : 0 ≤ u) (h1 : u ≤ d) : NaNOrIn 0 1 (fin u / fin d : Ext K) := by
  rcases (h0.trans h1).eq_or_lt with h | h
  · left
    have : u = 0 := by linarith
    rw [← h, this]; simp
  · right
    exact ⟨u / d, Ext.fin_div _ h.ne', by positivity, (div_le_one h).mpr h1⟩

/-- **C47**: the ultimate oscillator is NaN or in `[0, 100]`, for valid bars and non-negative factors with positive sum. -/
theorem C47_range (hh : Holds h n m H) (hl : Holds l n m L) (hc : Holds c n m C) {p1 p2 p3 : ℕ} (h1 : 1 ≤ p1)
    (h2 : 1 ≤ p2) (h3 : 1 ≤ p3) {f1 f2 f3 : K} (q1 : 0 ≤ f1) (q2 : 0 ≤ f2) (q3 : 0 ≤ f3) (qs : 0 < f1 + f2 + f3)
    (hv : ∀ i, m ≤ i + 1 → i < n → L i ≤ C i ∧ C i ≤ H i) :
    RangesIn 0 100 (Ind.ultosc p1 p2 p3 (fin f1) (fin f2) (fin f3) h l c) n (m + max p1 (max p2 p3)) := by
  have hm := hh.pos
  obtain ⟨t1, -⟩ := C27_truerange hh hl hc (le_refl 1) fun i h1 h2 =>
    (hv i (by omega) h2).1.trans (hv i (by omega) h2).2
  have ht : Shows (Ind.truerange 1 h l c) n (m + 1) (Spec.trueRange H L C 1) := shows_congr t1 (by omega) fun _ _ _ => rfl
  have hb : Shows (c - Ind.truelow 1 l c) n (m + 1) (Spec.pressure L C) :=
    shows_congr (Holds.sub hc (Holds.clipHiL (hc.ago (le_refl 1)).toRepW hl).toRepW) (by omega) fun _ _ _ => rfl
  have av : ∀ p, 1 ≤ p → ∃ g, Delivers (Ind.sumN p (c - Ind.truelow 1 l c) / Ind.sumN p (Ind.truerange 1 h l c)) n (m + p) g
      ∧ ∀ i, m + p ≤ i + 1 → i < n → NaNOrIn 0 1 (g i) := by
    intro p hp
    refine ⟨_, (rep_div (Holds.rollSum hb.toRepW hp).toRepW (Holds.rollSum ht.toRepW hp).toRepW).congr (m' := m + p) (by omega)
      fun _ _ _ => rfl, fun i i1 i2 => ratioV_range (Finset.sum_nonneg fun j hj => ?_) (Finset.sum_le_sum fun j hj => ?_)⟩
    all_goals
      have := Finset.mem_range.mp hj
      obtain ⟨b1, b2⟩ := hv (i - j) (by omega) (by omega)
      have := pressure_bounds H L C (i - j) b1 b2
    · exact this.1
    · exact this.2
  obtain ⟨g1, r1, s1⟩ := av p1 h1
  obtain ⟨g2, r2, s2⟩ := av p2 h2
  obtain ⟨g3, r3, s3⟩ := av p3 h3
  unfold Ind.ultosc
  simp only [Ext.lit_def, Ext.fin_add, Ext.fin_mul, Ext.fin_div _ qs.ne']
  refine ⟨_, (rep_add (rep_add (rep_rmulS r1.toRepW _).toRepW (rep_rmulS r2.toRepW _).toRepW).toRepW
    (rep_rmulS r3.toRepW _).toRepW).congr (m' := m + max p1 (max p2 p3)) (by omega) fun _ _ _ => rfl, fun i i1 i2 => ?_⟩
  have e1 := s1 i (by omega) i2
  have e2 := s2 i (by omega) i2
  have e3 := s3 i (by omega) i2
  rcases e1 with e1 | ⟨v1, e1, a1, b1⟩
  · left; rw [e1]; simp
  rcases e2 with e2 | ⟨v2, e2, a2, b2⟩
  · left; rw [e2]; simp
  rcases e3 with e3 | ⟨v3, e3, a3, b3⟩
  · left; rw [e3]; simp
  right
  rw [e1, e2, e3]
  refine ⟨_, rfl, ?_, ?_⟩
  · push_cast; positivity
  · push_cast
    have : f1 * (100 / (f1 + f2 + f3)) + f2 * (100 / (f1 + f2 + f3)) + f3 * (100 / (f1 + f2 + f3)) = 100 := by
      field_simp
    have hf : 0 ≤ 100 / (f1 + f2 + f3) := by positivity
    nlinarith [mul_le_mul_of_nonneg_left b1 (mul_nonneg q1 hf), mul_le_mul_of_nonneg_left b2 (mul_nonneg q2 hf),
      mul_le_mul_of_nonneg_left b3 (mul_nonneg q3 hf)]

/-- C47: the default factors 4, 2, 1 meet the hypotheses -/
example : (0 : ℚ) < 4 + 2 + 1 := by norm_num
example : Ind.ultosc 1 2 3 (.fin 4) (.fin 2) (.fin 1) (bars 4 fun i => (i + 2 : ℚ)) (bars 4 fun i => (i : ℚ))
    (bars 4 fun i => (i + 1 : ℚ)) = ⟨[.nan, .nan, .nan, .fin 50], 4⟩ := by decide +kernel

/-! ## C34 -/

/-- volume signed with the direction of the close -/
def _root_.Spec.signedVolume (C W : ℕ → K) (i : ℕ) : K :=
  if C (i - 1) < C i then W i else if C i < C (i - 1) then -W i else 0

theorem signV_fin (x : K) : signV (fin x : Ext K) = fin (if x < 0 then -1 else if 0 < x then 1 else 0) := by
  unfold signV
  simp only [Ext.lit_def, Ext.lt_fin, Ext.isNaN_fin, decide_eq_true_eq]
  by_cases h1 : x < 0
  · simp [h1]
  · by_cases h2 : 0 < x
    · simp [h1, h2]
    · simp [h1, h2]

theorem signed_eq (C W : ℕ → K) (i : ℕ) :
    W i * (if C i - C (i - 1) < 0 then -1 else if 0 < C i - C (i - 1) then 1 else 0) = Spec.signedVolume C W i := by
  unfold Spec.signedVolume
  rcases lt_trichotomy (C (i - 1)) (C i) with h | h | h
  · rw [if_neg (by linarith), if_pos (by linarith), if_pos h, mul_one]
  · rw [if_neg (by linarith), if_neg (by linarith), if_neg (by linarith), if_neg (by linarith), mul_zero]
  · rw [if_pos (by linarith), if_neg (by linarith), if_pos h, mul_neg, mul_one]

/-- **C34**: from the second bar with a close on (and the first with a volume), a running total to which each bar adds its volume if the close rose, subtracts it if
the close fell, and which stays else. -/
theorem C34_obv (hc : Holds c n mc C) (hw : Holds v n mv W) :
    ∃ y : ℕ → K, Shows (Ind.obv false 1 c v) n (max mv (mc + 1)) y ∧
      y (max mv (mc + 1) - 1) = Spec.signedVolume C W (max mv (mc + 1) - 1) ∧
      ∀ i, max mv (mc + 1) ≤ i → y i = y (i - 1) +
        (if C (i - 1) < C i then W i else if C i < C (i - 1) then -W i else 0) := by
  have hm := hc.pos
  refine ⟨fun i => ∑ j ∈ Finset.Ico (max mv (mc + 1) - 1) (i + 1), Spec.signedVolume C W j, ?_, by simp, fun i hi => ?_⟩
  · have h1 := Holds.mapOp (hc.diff 1).toRepW signV_fin
    have h2 : Shows (v * mapOp signV (diff 1 c)) n (max mv (mc + 1)) (Spec.signedVolume C W) :=
      shows_congr (Holds.mul hw h1.toRepW) rfl fun i _ _ => signed_eq C W i
    exact shows_congr (Holds.cumsum h2.toRepW) rfl fun i _ _ => rfl
  · obtain ⟨k, rfl⟩ : ∃ k, i = k + 1 := ⟨i - 1, by omega⟩
    simp only [Nat.add_sub_cancel]
    rw [Finset.sum_Ico_succ_top (by omega)]
    rfl

/-- **C34** (ta-lib mode): starts one bar earlier with the first volume, and from then on differs from the other mode by
exactly this first volume (the one of the first bar with a close; volumes are there by then). -/
theorem C34_talib (hc : Holds c n m C) (hw : Holds v n mv W) (hle : mv ≤ m) :
    ∃ y z : ℕ → K, Shows (Ind.obv false 1 c v) n (m + 1) y ∧ Shows (Ind.obv true 1 c v) n m z ∧
      z (m - 1) = W (m - 1) ∧ ∀ i, m ≤ i → z i = W (m - 1) + y i := by
  have hm := hc.pos
  have h1 := hc.diff 1
  have hs : Shows (Ind.obv false 1 c v) n (m + 1) (fun i => ∑ j ∈ Finset.Ico m (i + 1), Spec.signedVolume C W j) := by
    have h1 := Holds.mapOp (hc.diff 1).toRepW signV_fin
    have h2 : Shows (v * mapOp signV (diff 1 c)) n (m + 1) (Spec.signedVolume C W) :=
      shows_congr (Holds.mul hw h1.toRepW) (by omega) fun i _ _ => signed_eq C W i
    exact shows_congr (Holds.cumsum h2.toRepW) rfl fun i _ _ => by rw [Nat.add_sub_cancel]
  have hd : Holds (period (-1) (some (lit 1)) (diff 1 c)) n m (fun i => if i = m - 1 then 1 else C i - C (i - 1)) := by
    have hlen := h1.len
    have hmp := h1.mp
    unfold period
    rw [if_neg (by decide)]
    simp only [hmp]
    rw [if_pos (by push_cast; omega)]
    rw [show ((m + 1 : ℕ) : Int) - 1 + -1 = ((m - 1 : ℕ) : Int) from by omega,
      show ((m + 1 : ℕ) : Int) - 1 = ((m : ℕ) : Int) from by omega]
    refine ⟨?_, by simp only []; omega, hm, fun i i1 i2 => ?_⟩
    · simp only [pyFill, pyStart_nat, hlen, List.length_append, List.length_take, List.length_replicate, List.length_drop]
      omega
    · simp only [pyFill, pyStart_nat, hlen]
      have hmn : min (m - 1) n = m - 1 := by omega
      have hmn' : min m n = m := by omega
      rw [hmn, hmn', show m - (m - 1) = 1 from by omega, show max (m - 1) m = m from by omega]
      by_cases hi : i = m - 1
      · subst hi
        rw [if_pos rfl, List.append_assoc, List.getElem?_append_right (by simp)]
        simp only [List.length_take, hlen]
        rw [show m - 1 - min (m - 1) n = 0 from by omega]
        simp
      · rw [if_neg hi, List.getElem?_append_right (by simp; omega)]
        simp only [List.length_append, List.length_take, hlen, List.length_replicate, List.getElem?_drop]
        rw [show m + (i - (min (m - 1) n + 1)) = i from by omega]
        exact h1.val i (by omega) i2
  have h3 := Holds.mul hw (Holds.mapOp hd signV_fin).toRepW
  have hz := Holds.cumsum h3.toRepW
  refine ⟨_, fun i => ∑ j ∈ Finset.Ico (m - 1) (i + 1), W j * (if (if j = m - 1 then 1 else C j - C (j - 1)) < 0 then -1
      else if 0 < (if j = m - 1 then (1 : K) else C j - C (j - 1)) then 1 else 0), hs, ?_, ?_, ?_⟩
  · exact shows_congr hz (by omega) fun i _ _ => by rw [show max mv m = m from by omega]
  · simp only []
    rw [Finset.sum_Ico_succ_top (by omega), Finset.Ico_self, Finset.sum_empty, if_pos rfl, if_neg (by norm_num),
      if_pos one_pos]
    ring
  · intro i hi
    simp only []
    rw [Finset.sum_eq_sum_Ico_succ_bot (by omega), if_pos rfl, if_neg (by norm_num), if_pos one_pos, mul_one,
      show m - 1 + 1 = m from by omega]
    congr 1
    refine Finset.sum_congr rfl fun j hj => ?_
    have hj1 : ¬ j = m - 1 := by have := (Finset.mem_Ico.mp hj).1; omega
    simp only [if_neg hj1]
    exact signed_eq C W j

example : Ind.obv false 1 (bars 5 fun i => if i = 2 then (1 : ℚ) else i) (bars 5 fun i => (10 : ℚ) + i) =
      ⟨[.nan, .fin 11, .fin 11, .fin 24, .fin 38], 2⟩ ∧
    Ind.obv true 1 (bars 5 fun i => if i = 2 then (1 : ℚ) else i) (bars 5 fun i => (10 : ℚ) + i) =
      ⟨[.fin 10, .fin 21, .fin 21, .fin 34, .fin 48], 1⟩ := by decide +kernel

/-! ## C35 -/

/-- money flow multiplier of a bar; 0 for a bar without range -/
def _root_.Spec.mfMult (H L C : ℕ → K) (i : ℕ) : K := if H i = L i then 0 else (2 * C i - H i - L i) / (H i - L i)

theorem mfMult_bound {H L C : ℕ → K} {i : ℕ} (h1 : L i ≤ C i) (h2 : C i ≤ H i) : |Spec.mfMult H L C i| ≤ 1 := by
  unfold Spec.mfMult
  by_cases h0 : H i = L i
  · rw [if_pos h0, abs_zero]; exact zero_le_one
  · rw [if_neg h0, abs_div, div_le_one (abs_pos.mpr (sub_ne_zero.mpr h0)),
      abs_of_nonneg (by linarith : 0 ≤ H i - L i), abs_le]
    constructor <;> linarith

/-- **C35**: `ad` is the running total of volume times a multiplier `k i` in `[-1, 1]`, hence changes by at most the bar's
volume; bars without range (high = low) are NaN and add nothing. -/
theorem C35_ad (hh : Holds h n m H) (hl : Holds l n m L) (hc : Holds c n m C) (hw : Holds v n m W)
    (hv : ∀ i, m ≤ i + 1 → i < n → L i ≤ C i ∧ C i ≤ H i ∧ 0 ≤ W i) :
    ∃ y k : ℕ → K, Delivers (Ind.ad h l c v) n m (fun i => if H i = L i then nan else fin (y i)) ∧
      y (m - 1) = k (m - 1) * W (m - 1) ∧ (∀ i, m ≤ i → y i = y (i - 1) + k i * W i) ∧
      (∀ i, (H i ≠ L i → k i * (H i - L i) = (C i - L i) - (H i - C i)) ∧ (H i = L i → k i = 0)) ∧
      ∀ i, m ≤ i + 1 → i < n → |k i| ≤ 1 ∧ (m ≤ i → |y i - y (i - 1)| ≤ W i) := by
  have hm := hh.pos
  have hrec : ∀ i, m ≤ i → (∑ j ∈ Finset.Ico (m - 1) (i + 1), Spec.mfMult H L C j * W j) =
      (∑ j ∈ Finset.Ico (m - 1) (i - 1 + 1), Spec.mfMult H L C j * W j) + Spec.mfMult H L C i * W i := by
    intro i hi
    obtain ⟨k, rfl⟩ : ∃ k, i = k + 1 := ⟨i - 1, by omega⟩
    simp only [Nat.add_sub_cancel]
    exact Finset.sum_Ico_succ_top (by omega) _
  refine ⟨fun i => ∑ j ∈ Finset.Ico (m - 1) (i + 1), Spec.mfMult H L C j * W j, Spec.mfMult H L C, ?_, ?_, hrec, ?_, ?_⟩
  · have hr : Shows (rmulS (lit 2) c - h - l) n m (fun i => 2 * C i - H i - L i) := by
      rw [show (lit 2 : Ext K) = fin 2 from by simp]
      exact shows_congr (Holds.sub (Holds.sub (Holds.rmulS hc 2).toRepW hh).toRepW hl) (by omega) fun _ _ _ => rfl
    have hf : Delivers ((rmulS (lit 2) c - h - l) / (h - l) * v) n m
        (fun i => if H i = L i then nan else fin (Spec.mfMult H L C i * W i)) := by
      refine (rep_mul (rep_div hr.toRepW (Holds.sub hh hl).toRepW).toRepW hw).congr (by omega) fun i h1 h2 => ?_
      obtain ⟨q1, q2, -⟩ := hv i (by omega) h2
      unfold Spec.mfMult
      beta_reduce
      by_cases h0 : H i = L i
      · rw [if_pos h0, h0, show 2 * C i - L i - L i = 0 from by linarith, sub_self]
        simp
      · rw [if_neg h0, if_neg h0, Ext.fin_div _ (sub_ne_zero.mpr h0)]
        rfl
    refine (rep_cumsum (fun i => H i = L i) hf.toRepW).congr rfl fun i _ _ => ?_
    by_cases h0 : H i = L i
    · rw [if_pos h0, if_pos h0]
    · rw [if_neg h0, if_neg h0]
      congr 1
      refine Finset.sum_congr rfl fun j _ => ?_
      by_cases h1 : H j = L j
      · rw [if_pos h1]; unfold Spec.mfMult; rw [if_pos h1, zero_mul]
      · rw [if_neg h1]
  · simp only []
    rw [Finset.sum_Ico_succ_top (by omega), Finset.Ico_self, Finset.sum_empty, zero_add]
  · intro i
    refine ⟨fun h0 => ?_, fun h0 => by rw [Spec.mfMult, if_pos h0]⟩
    unfold Spec.mfMult
    rw [if_neg h0, div_mul_cancel₀ _ (sub_ne_zero.mpr h0)]
    ring
  · intro i h1 h2
    obtain ⟨q1, q2, q3⟩ := hv i h1 h2
    have hb := mfMult_bound (H := H) (L := L) (C := C) q1 q2
    refine ⟨hb, fun hi => ?_⟩
    simp only []
    rw [hrec i hi, add_sub_cancel_left, abs_mul, abs_of_nonneg q3]
    nlinarith

example : Ind.ad (bars 4 fun i => if i = 2 then (1 : ℚ) else 3) (bars 4 fun _ => 1) (bars 4 fun i => if i = 2 then 1 else 2 + i / 3)
    (bars 4 fun _ => 9) = ⟨[.fin 0, .fin 3, .nan, .fin 12], 1⟩ := by decide +kernel

end Bta
