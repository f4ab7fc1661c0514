import Verif.Lemmas.Osc
import Verif.Props.Ma

/-!
# Oscillators: C21 - C26, C64
-/

set_option linter.unusedSectionVars false
set_option linter.unusedVariables false

namespace Bta
open Line Ext

variable {K : Type} [Field K] [LinearOrder K] [IsStrictOrderedRing K]
variable {a h l c v : Line (Ext K)} {n m mh ml mc mv : ℕ} {x H L C W : ℕ → K}

/-! ## C21 -/

section rsi
variable {ma : MA (Ext K)} {F : ℕ → (ℕ → K) → ℕ → ℕ → K} {e : ℕ → ℕ}

/-- average of the upward moves over `q` bars, as used by rsi with period `p` on data starting at bar `m - 1` -/
def upAvg (F : ℕ → (ℕ → K) → ℕ → ℕ → K) (q p m : ℕ) (x : ℕ → K) (i : ℕ) : K :=
  F p (fun j => max (x j - x (j - q)) 0) (m + q - 1) i
/-- average of the downward moves -/
def downAvg (F : ℕ → (ℕ → K) → ℕ → ℕ → K) (q p m : ℕ) (x : ℕ → K) (i : ℕ) : K :=
  F p (fun j => max (x (j - q) - x j) 0) (m + q - 1) i

theorem lit100 : (lit 100 : Ext K) = fin 100 := by simp

theorem abs_min_zero (u : K) : |min u 0| = max (-u) 0 := by
  rcases le_total u 0 with h | h
  · rw [min_eq_left h, abs_of_nonpos h, max_eq_left (by linarith)]
  · rw [min_eq_right h, abs_zero, max_eq_right (by linarith)]

theorem moves (hma : IsMA ma F e) (hx : Holds a n m x) {q p : ℕ} (hp : 1 ≤ p) (hn : m + q + e p ≤ n)
    (hM : Mono F e) :
    (Gives (ma p ((diff q a).clipLoS (lit 0))) fun r => Shows r n (m + q + e p) (upAvg F q p m x)) ∧
    (Gives (ma p ((diff q a).clipHiS (lit 0)).abs) fun r => Shows r n (m + q + e p) (downAvg F q p m x)) := by
  have hd := hx.diff q
  have hz : (lit 0 : Ext K) = fin 0 := by simp
  rw [hz]
  refine ⟨hma p hp _ n _ _ (Holds.clipLoS hd.toRepW 0).toRepW hn, ?_⟩
  refine (hma p hp _ n _ _ (Holds.abs (Holds.clipHiS hd.toRepW 0).toRepW).toRepW hn).imp fun r hr =>
    shows_congr hr rfl fun i h1 _ => ?_
  have hpos := hx.pos
  refine hM.local hp (by omega) fun j _ _ => ?_
  rw [abs_min_zero, neg_sub]

theorem upAvg_nonneg (hN : NonNeg F e) {q p : ℕ} (hp : 1 ≤ p) {i : ℕ} (hm : 1 ≤ m) (hi : m + q + e p ≤ i + 1) :
    0 ≤ upAvg F q p m x i := hN p hp _ _ i (by omega) fun j _ _ => le_max_right _ _
theorem downAvg_nonneg (hN : NonNeg F e) {q p : ℕ} (hp : 1 ≤ p) {i : ℕ} (hm : 1 ≤ m) (hi : m + q + e p ≤ i + 1) :
    0 ≤ downAvg F q p m x i := hN p hp _ _ i (by omega) fun j _ _ => le_max_right _ _

/-- **C21** (formula): with any conforming average, rsi is the share of the average upward move in the sum of both averages,
in percent; NaN exactly if both are 0. -/
theorem C21_formula (hma : IsMA ma F e) (hM : Mono F e) (hN : NonNeg F e) (hx : Holds a n m x) {q p : ℕ} (hp : 1 ≤ p)
    (hn : m + q + e p ≤ n) :
    Gives (Ind.rsi ma q p a) fun r => Delivers r n (m + q + e p) fun i =>
      if upAvg F q p m x i + downAvg F q p m x i = 0 then nan
      else fin (100 * upAvg F q p m x i / (upAvg F q p m x i + downAvg F q p m x i)) := by
  have hpos := hx.pos
  unfold Ind.rsi
  obtain ⟨g1, g2⟩ := moves hma hx hp hn hM
  refine Gives.bind g1 fun up hu => Gives.bind g2 fun dn hd => Gives.pure ?_
  refine (rep_rsubS (rep_rdivS (rep_raddS (rep_div hu.toRepW hd.toRepW).toRepW _).toRepW _).toRepW _).congr
    (by omega) fun i h1 h2 => ?_
  have := rsiV _ _ (upAvg_nonneg (x := x) hN hp hpos h1) (downAvg_nonneg (x := x) hN hp hpos h1)
  simpa [Spec.pct] using this

/-- **C21**: each delivered value is NaN or in `[0, 100]`. -/
theorem C21_range (hma : IsMA ma F e) (hM : Mono F e) (hN : NonNeg F e) (hx : Holds a n m x) {q p : ℕ} (hp : 1 ≤ p)
    (hn : m + q + e p ≤ n) : Gives (Ind.rsi ma q p a) fun r => RangesIn 0 100 r n (m + q + e p) := by
  have hpos := hx.pos
  refine (C21_formula hma hM hN hx hp hn).imp fun r hr => ⟨_, hr, fun i h1 h2 => ?_⟩
  exact pct_range (upAvg_nonneg (x := x) hN hp hpos h1) (downAvg_nonneg (x := x) hN hp hpos h1)

/-- **C21**: NaN only if the price did not move at all in the last `p` bars (averages which see each of these bars). -/
theorem C21_nan (hma : IsMA ma F e) (hM : Mono F e) (hN : NonNeg F e) (hP : PosWin F e) (hx : Holds a n m x) {q p : ℕ}
    (hp : 1 ≤ p) (hn : m + q + e p ≤ n) :
    Gives (Ind.rsi ma q p a) fun r => ∀ i, m + q + e p ≤ i + 1 → i < n → r.series[i]? = some nan →
      ∀ j, i + 1 ≤ j + p → m + q ≤ j + 1 → j ≤ i → x j = x (j - q) := by
  have hpos := hx.pos
  refine (C21_formula hma hM hN hx hp hn).imp fun r hr i h1 h2 hnan j j1 j2 j3 => ?_
  rw [hr.val i h1 h2, Option.some.injEq] at hnan
  have h0 : upAvg F q p m x i + downAvg F q p m x i = 0 := by
    by_contra hc
    rw [if_neg hc] at hnan
    exact absurd hnan (by simp)
  have hu := upAvg_nonneg (x := x) hN hp hpos h1
  have hd := downAvg_nonneg (x := x) hN hp hpos h1
  rcases lt_trichotomy (x j) (x (j - q)) with hc | hc | hc
  · exfalso
    have : 0 < downAvg F q p m x i := hP p hp _ _ i (by omega) (fun j _ _ => le_max_right _ _)
      ⟨j, j1, by omega, j3, lt_max_of_lt_left (by linarith)⟩
    linarith
  · exact hc
  · exfalso
    have : 0 < upAvg F q p m x i := hP p hp _ _ i (by omega) (fun j _ _ => le_max_right _ _)
      ⟨j, j1, by omega, j3, lt_max_of_lt_left (by linarith)⟩
    linarith

/-- **C21**: 100 if there was no down move in the data seen so far but an up move in the last `p` bars. -/
theorem C21_no_down (hma : IsMA ma F e) (hM : Mono F e) (hN : NonNeg F e) (hP : PosWin F e)
    (h0 : ∀ p, 1 ≤ p → ∀ b i, b + e p ≤ i → F p (fun _ => 0) b i = 0) (hx : Holds a n m x) {q p : ℕ}
    (hp : 1 ≤ p) (hn : m + q + e p ≤ n) :
    Gives (Ind.rsi ma q p a) fun r => ∀ i, m + q + e p ≤ i + 1 → i < n →
      (∀ j, m + q ≤ j + 1 → j ≤ i → x (j - q) ≤ x j) →
      (∃ j, i + 1 ≤ j + p ∧ m + q ≤ j + 1 ∧ j ≤ i ∧ x (j - q) < x j) → r.series[i]? = some (fin 100) := by
  have hpos := hx.pos
  refine (C21_formula hma hM hN hx hp hn).imp fun r hr i h1 h2 hup ⟨j, j1, j2, j3, j4⟩ => ?_
  rw [hr.val i h1 h2]
  have hd : downAvg F q p m x i = 0 := by
    rw [← h0 p hp (m + q - 1) i (by omega)]
    exact hM.local hp (by omega) fun j h3 h4 => max_eq_right (by have := hup j (by omega) h4; linarith)
  have hu : 0 < upAvg F q p m x i := hP p hp _ _ i (by omega) (fun j _ _ => le_max_right _ _)
      ⟨j, j1, by omega, j3, lt_max_of_lt_left (by linarith)⟩
  rw [hd, add_zero, if_neg hu.ne', mul_div_assoc, div_self hu.ne', mul_one]

/-- **C21**: 0 if there was no up move in the data seen so far but a down move in the last `p` bars. -/
theorem C21_no_up (hma : IsMA ma F e) (hM : Mono F e) (hN : NonNeg F e) (hP : PosWin F e)
    (h0 : ∀ p, 1 ≤ p → ∀ b i, b + e p ≤ i → F p (fun _ => 0) b i = 0) (hx : Holds a n m x) {q p : ℕ}
    (hp : 1 ≤ p) (hn : m + q + e p ≤ n) :
    Gives (Ind.rsi ma q p a) fun r => ∀ i, m + q + e p ≤ i + 1 → i < n →
      (∀ j, m + q ≤ j + 1 → j ≤ i → x j ≤ x (j - q)) →
      (∃ j, i + 1 ≤ j + p ∧ m + q ≤ j + 1 ∧ j ≤ i ∧ x j < x (j - q)) → r.series[i]? = some (fin 0) := by
  have hpos := hx.pos
  refine (C21_formula hma hM hN hx hp hn).imp fun r hr i h1 h2 hup ⟨j, j1, j2, j3, j4⟩ => ?_
  rw [hr.val i h1 h2]
  have hu : upAvg F q p m x i = 0 := by
    rw [← h0 p hp (m + q - 1) i (by omega)]
    exact hM.local hp (by omega) fun j h3 h4 => max_eq_right (by have := hup j (by omega) h4; linarith)
  have hd : 0 < downAvg F q p m x i := hP p hp _ _ i (by omega) (fun j _ _ => le_max_right _ _)
      ⟨j, j1, by omega, j3, lt_max_of_lt_left (by linarith)⟩
  rw [hu, zero_add, if_neg hd.ne', mul_zero, zero_div]

/-- C21 for the default average (Wilder): all hypotheses on the average are met; raw data, minimum period `p + 1`. -/
example (n : ℕ) (x : ℕ → ℚ) (hn : 15 ≤ n) : Gives (Ind.rsi Ind.smma 1 14 (bars n x)) fun r => RangesIn 0 100 r n 15 :=
  C21_range smma_isMA smmaF_mono smmaF_nonneg (bars_holds n x) (by omega) hn
example : Ind.rsi Ind.smma 1 2 (bars 5 fun i => if i = 3 then (1 : ℚ) else i) =
    .ok ⟨[.nan, .nan, .fin 100, .fin 50, .fin (175/2)], 3⟩ := by decide +kernel

/-! ## C24 -/

/-- **C24** (formula) -/
theorem C24_formula (hma : IsMA ma F e) (hM : Mono F e) (hN : NonNeg F e) (hx : Holds a n m x) {p : ℕ} (hp : 1 ≤ p)
    (hn : m + 1 + e p ≤ n) :
    Gives (Ind.cmo ma p a) fun r => Delivers r n (m + 1 + e p) fun i =>
      if upAvg F 1 p m x i + downAvg F 1 p m x i = 0 then nan
      else fin (100 * (upAvg F 1 p m x i - downAvg F 1 p m x i) / (upAvg F 1 p m x i + downAvg F 1 p m x i)) := by
  have hpos := hx.pos
  unfold Ind.cmo
  obtain ⟨g1, g2⟩ := moves hma hx hp hn hM
  refine Gives.bind g1 fun up hu => Gives.bind g2 fun dn hd => Gives.pure ?_
  rw [lit100]
  refine (rep_div (Holds.rmulS (Holds.sub hu.toRepW hd.toRepW).toRepW 100).toRepW (Holds.add hu.toRepW hd.toRepW).toRepW).congr
    (by omega) fun i h1 h2 => ?_
  have h3 := upAvg_nonneg (x := x) hN hp hpos h1
  have h4 := downAvg_nonneg (x := x) hN hp hpos h1
  by_cases h0 : upAvg F 1 p m x i + downAvg F 1 p m x i = 0
  · beta_reduce
    have h5 : upAvg F 1 p m x i = 0 := by linarith
    have h6 : downAvg F 1 p m x i = 0 := by linarith
    rw [if_pos h0, h5, h6]
    simp
  · rw [if_neg h0, Ext.fin_div _ h0]

/-- **C24**: cmo is NaN or in `[-100, 100]`. -/
theorem C24_range (hma : IsMA ma F e) (hM : Mono F e) (hN : NonNeg F e) (hx : Holds a n m x) {p : ℕ} (hp : 1 ≤ p)
    (hn : m + 1 + e p ≤ n) : Gives (Ind.cmo ma p a) fun r => RangesIn (-100) 100 r n (m + 1 + e p) := by
  have hpos := hx.pos
  refine (C24_formula hma hM hN hx hp hn).imp fun r hr => ⟨_, hr, fun i h1 h2 => ?_⟩
  have h3 := upAvg_nonneg (x := x) hN hp hpos h1
  have h4 := downAvg_nonneg (x := x) hN hp hpos h1
  by_cases h0 : upAvg F 1 p m x i + downAvg F 1 p m x i = 0
  · rw [if_pos h0]; exact Or.inl rfl
  · rw [if_neg h0]
    have h5 : 0 < upAvg F 1 p m x i + downAvg F 1 p m x i := lt_of_le_of_ne (by linarith) (Ne.symm h0)
    refine Or.inr ⟨_, rfl, ?_, ?_⟩
    · rw [le_div_iff₀ h5]; nlinarith
    · rw [div_le_iff₀ h5]; nlinarith

/-- **C24**: with the same average `cmo = 2*rsi - 100`, as operations on lines. -/
theorem C24_rsi (hma : IsMA ma F e) (hM : Mono F e) (hN : NonNeg F e) (hx : Holds a n m x) {p : ℕ} (hp : 1 ≤ p)
    (hn : m + 1 + e p ≤ n) :
    ∃ r, Ind.rsi ma 1 p a = .ok r ∧ Ind.cmo ma p a = .ok ((rmulS (lit 2) r).subS (lit 100)) := by
  obtain ⟨r, r1, r2⟩ := C21_formula (q := 1) hma hM hN hx hp hn
  obtain ⟨s, s1, s2⟩ := C24_formula hma hM hN hx hp hn
  refine ⟨r, r1, ?_⟩
  rw [s1]
  congr 1
  refine s2.ext (rep_subS (rep_rmulS r2.toRepW _).toRepW _) fun i h1 h2 => ?_
  by_cases h0 : upAvg F 1 p m x i + downAvg F 1 p m x i = 0
  · rw [if_pos h0, if_pos h0]; simp
  · rw [if_neg h0, if_neg h0]
    simp only [Ext.lit_def, Ext.fin_mul, Ext.fin_sub]
    congr 1
    push_cast
    field_simp
    ring

/-- **C24** (defaults): cmo with plain sums is `2*rsi - 100` of the rsi with simple averages. -/
theorem C24_rsi_sum (hx : Holds a n m x) {p : ℕ} (hp : 1 ≤ p) (hn : m + 1 + (p - 1) ≤ n) :
    ∃ r, Ind.rsi Ind.sma 1 p a = .ok r ∧ Ind.cmo Ind.sumNMA p a = .ok ((rmulS (lit 2) r).subS (lit 100)) := by
  obtain ⟨r, r1, r2⟩ := C21_formula (q := 1) sma_isMA smaF_mono smaF_nonneg hx hp hn
  obtain ⟨s, s1, s2⟩ := C24_formula sumN_isMA sumF_mono sumF_nonneg hx hp hn
  refine ⟨r, r1, ?_⟩
  rw [s1]
  congr 1
  refine s2.ext (rep_subS (rep_rmulS r2.toRepW _).toRepW _) fun i h1 h2 => ?_
  have hp0 : (p : K) ≠ 0 := by exact_mod_cast (by omega : p ≠ 0)
  have hu : upAvg smaF 1 p m x i = upAvg sumF 1 p m x i / p := rfl
  have hd : downAvg smaF 1 p m x i = downAvg sumF 1 p m x i / p := rfl
  by_cases h0 : upAvg sumF 1 p m x i + downAvg sumF 1 p m x i = 0
  · rw [if_pos h0, if_pos (by rw [hu, hd, ← add_div, h0, zero_div])]; simp
  · rw [if_neg h0, if_neg (by rw [hu, hd, ← add_div]; exact div_ne_zero h0 hp0), hu, hd]
    simp only [Ext.lit_def, Ext.fin_mul, Ext.fin_sub]
    congr 1
    push_cast
    field_simp
    ring

example : Ind.cmo Ind.sumNMA 2 (bars 5 fun i => if i = 3 then (1 : ℚ) else i) =
    .ok ⟨[.nan, .nan, .fin 100, .fin 0, .fin 50], 3⟩ := by decide +kernel

end rsi

/-! ## C64 -/

/-- value of the stochastic formula on arbitrary rsi values -/
theorem stochV_range {g : ℕ → Ext K} {w i : ℕ} (h1 : 1 ≤ w) (hw : w ≤ i + 1) {sc : K} (hs : 0 ≤ sc) :
    NaNOrIn 0 sc ((g i - aggMin (wnd g w i)) / (aggMax (wnd g w i) - aggMin (wnd g w i)) * fin sc) := by
  by_cases hf : (wnd g w i).all isFin = true
  · have hg := wnd_all_get hw hf (j := 0) (by omega)
    rw [Nat.sub_zero] at hg
    rw [wnd_num hf, aggMin_wnd _ h1 hw, aggMax_wnd _ h1 hw, hg]
    have h2 := Spec.le_winMax (fun i => toNum (g i)) (p := w) (i := i) (j := 0) (by omega)
    have h3 := Spec.winMin_le (fun i => toNum (g i)) (p := w) (i := i) (j := 0) (by omega)
    simp only [Nat.sub_zero] at h2 h3
    set X := toNum (g i)
    set A := Spec.winMin (fun i => toNum (g i)) w i
    set B := Spec.winMax (fun i => toNum (g i)) w i
    rw [Ext.fin_sub, Ext.fin_sub]
    by_cases h0 : B - A = 0
    · left
      have : X - A = 0 := by linarith
      rw [h0, this]; simp
    · right
      have h4 : 0 < B - A := lt_of_le_of_ne (by linarith) (Ne.symm h0)
      rw [Ext.fin_div _ h0]
      refine ⟨_, rfl, ?_, ?_⟩
      · have : 0 ≤ (X - A) / (B - A) := div_nonneg (by linarith) h4.le
        positivity
      · have : (X - A) / (B - A) ≤ 1 := (div_le_one h4).mpr (by linarith)
        nlinarith
  · left
    have : aggMin (wnd g w i) = (nan : Ext K) := by unfold aggMin whenAllFin; rw [if_neg hf]
    rw [this]; simp

/-- **C64**: stochrsi is NaN or in `[0, scale]` (`scale` is 100 or 1). -/
theorem C64_range (hx : Holds a n m x) {p w : ℕ} (hp : 1 ≤ p) (hw : 1 ≤ w) (hn : m + 1 + (p - 1) ≤ n) {sc : K}
    (hs : 0 ≤ sc) : Gives (Ind.stochrsi p w (fin sc) a) fun r => RangesIn 0 sc r n (m + p + (w - 1)) := by
  have hpos := hx.pos
  unfold Ind.stochrsi
  refine Gives.bind (C21_formula smma_isMA smmaF_mono smmaF_nonneg hx hp hn) fun r hr => Gives.pure ?_
  generalize (fun i => if upAvg smmaF 1 p m x i + downAvg smmaF 1 p m x i = 0 then (nan : Ext K)
      else fin (100 * upAvg smmaF 1 p m x i / (upAvg smmaF 1 p m x i + downAvg smmaF 1 p m x i))) = g at hr
  have h1 := rep_rolling hw (agg := aggMin) hr.toRepW
  have h2 := rep_rolling hw (agg := aggMax) hr.toRepW
  refine ⟨_, (rep_mulS (rep_div (rep_sub hr.toRepW h1.toRepW).toRepW (rep_sub h2.toRepW h1.toRepW).toRepW).toRepW _).congr
    (m' := m + p + (w - 1)) (by unfold ext1; omega) fun _ _ _ => rfl, fun i h3 h4 => ?_⟩
  exact stochV_range (w := w) (i := i) hw (by omega) hs

/-- **C64** (ta-lib mode): the second output `d`, a simple average of the first, is in the same range. -/
theorem C64_range_d (hx : Holds a n m x) {p w pf : ℕ} (hp : 1 ≤ p) (hw : 1 ≤ w) (hpf : 1 ≤ pf) (hn : m + 1 + (p - 1) ≤ n)
    {sc : K} (hs : 0 ≤ sc) :
    Gives (Ind.stochrsiD Ind.sma p w pf (fin sc) a) fun r =>
      RangesIn 0 sc r.1 n (m + p + (w - 1)) ∧ RangesIn 0 sc r.2 n (m + p + (w - 1) + (pf - 1)) := by
  unfold Ind.stochrsiD
  refine Gives.bind (C64_range hx hp hw hn hs) fun k hk => ?_
  exact Gives.bind (sma_ranges hk hpf) fun d hd => Gives.pure ⟨hk, hd⟩

example : Ind.stochrsi 2 2 (.fin 100) (bars 6 fun i => if i = 3 then (1 : ℚ) else i) =
    .ok ⟨[.nan, .nan, .nan, .fin 0, .fin 100, .fin 100], 4⟩ := by decide +kernel

/-! ## C22, C23 -/

/-- fast %K at bar `i`; NaN if the range of the last `p` bars is degenerate -/
def _root_.Spec.fastK (H L C : ℕ → K) (p i : ℕ) : Ext K :=
  if Spec.winMax H p i = Spec.winMin L p i then nan
  else fin (100 * (C i - Spec.winMin L p i) / (Spec.winMax H p i - Spec.winMin L p i))

/-- the bar is valid: `low ≤ close ≤ high` -/
def ValidBars (H L C : ℕ → K) (M n : ℕ) : Prop := ∀ i, M ≤ i + 1 → i < n → L i ≤ C i ∧ C i ≤ H i

section stoch
variable {p : ℕ}

theorem fastK_core (hh : Holds h n mh H) (hl : Holds l n ml L) (hc : Holds c n mc C) (hp : 1 ≤ p) :
    Delivers (rmulS (lit 100) (c - Ind.lowest p l) / (Ind.highest p h - Ind.lowest p l)) n
      (max mc (max mh ml + (p - 1))) fun i =>
        fin (100 * (C i - Spec.winMin L p i)) / fin (Spec.winMax H p i - Spec.winMin L p i) := by
  have := hh.pos
  have := hl.pos
  rw [lit100]
  refine (rep_div (Holds.rmulS (Holds.sub hc (Holds.rollMin hl hp).toRepW).toRepW 100).toRepW
    (Holds.sub (Holds.rollMax hh hp).toRepW (Holds.rollMin hl hp).toRepW).toRepW).congr (by omega) fun i _ _ => ?_
  rfl

theorem kV_range {A B X : K} (h1 : A ≤ X) (h2 : X ≤ B) : NaNOrIn 0 100 (fin (100 * (X - A)) / fin (B - A) : Ext K) := by
  by_cases h0 : B - A = 0
  · left
    have : X - A = 0 := by linarith
    rw [h0, this]; simp
  · right
    have h4 : 0 < B - A := lt_of_le_of_ne (by linarith) (Ne.symm h0)
    refine ⟨_, Ext.fin_div _ h0, ?_, ?_⟩
    · exact div_nonneg (by linarith) h4.le
    · rw [div_le_iff₀ h4]; nlinarith

theorem kV_eq {A B X : K} (h1 : A ≤ X) (h2 : X ≤ B) : (fin (100 * (X - A)) / fin (B - A) : Ext K) =
    if B = A then nan else fin (100 * (X - A) / (B - A)) := by
  by_cases h0 : B = A
  · have : X - A = 0 := by linarith
    rw [if_pos h0, this, h0]; simp
  · rw [if_neg h0, Ext.fin_div _ (sub_ne_zero.mpr h0)]

theorem window_bounds {M i : ℕ} (hv : ValidBars H L C M n) (h1 : M ≤ i + 1) (h2 : i < n) (hp : 1 ≤ p) :
    Spec.winMin L p i ≤ C i ∧ C i ≤ Spec.winMax H p i := by
  have h3 := Spec.le_winMax H (p := p) (i := i) (j := 0) (by omega)
  have h4 := Spec.winMin_le L (p := p) (i := i) (j := 0) (by omega)
  have := hv i h1 h2
  simp only [Nat.sub_zero] at h3 h4
  exact ⟨h4.trans this.1, this.2.trans h3⟩

/-- **C22** (fast stochastic): for valid bars, `k` is `100*(close - lowest)/(highest - lowest)` over the last `p` bars (NaN
exactly if highest = lowest) and always NaN or in `[0,100]`; so is `d` with the default simple average. -/
theorem C22_stochf (hh : Holds h n mh H) (hl : Holds l n ml L) (hc : Holds c n mc C) (hp : 1 ≤ p) {pf : ℕ} (hpf : 1 ≤ pf)
    (hv : ValidBars H L C (max mc (max mh ml + (p - 1))) n) :
    Gives (Ind.stochf Ind.sma p pf h l c) fun r =>
      Delivers r.1 n (max mc (max mh ml + (p - 1))) (Spec.fastK H L C p) ∧
      RangesIn 0 100 r.1 n (max mc (max mh ml + (p - 1))) ∧
      RangesIn 0 100 r.2 n (max mc (max mh ml + (p - 1)) + (pf - 1)) := by
  have hk := fastK_core hh hl hc hp
  unfold Ind.stochf
  have hr : RangesIn 0 100 (rmulS (lit 100) (c - Ind.lowest p l) / (Ind.highest p h - Ind.lowest p l)) n
      (max mc (max mh ml + (p - 1))) := ⟨_, hk, fun i h1 h2 => by
    obtain ⟨h3, h4⟩ := window_bounds hv h1 h2 hp
    exact kV_range h3 h4⟩
  refine Gives.bind (sma_ranges hr hpf) fun d hd => Gives.pure ⟨?_, hr, hd⟩
  refine hk.congr rfl fun i h1 h2 => ?_
  obtain ⟨h3, h4⟩ := window_bounds hv h1 h2 hp
  exact kV_eq h3 h4

/-- **C22** (slow stochastic) -/
theorem C22_stochastic (hh : Holds h n mh H) (hl : Holds l n ml L) (hc : Holds c n mc C) (hp : 1 ≤ p) {pf ps : ℕ}
    (hpf : 1 ≤ pf) (hps : 1 ≤ ps) (hv : ValidBars H L C (max mc (max mh ml + (p - 1))) n) :
    Gives (Ind.stochastic Ind.sma Ind.sma p pf ps h l c) fun r =>
      RangesIn 0 100 r.1 n (max mc (max mh ml + (p - 1)) + (pf - 1)) ∧
      RangesIn 0 100 r.2 n (max mc (max mh ml + (p - 1)) + (pf - 1) + (ps - 1)) := by
  unfold Ind.stochastic
  refine Gives.bind (C22_stochf hh hl hc hp hpf hv) fun r hr => ?_
  exact Gives.bind (sma_ranges hr.2.2 hps) fun d hd => Gives.pure ⟨hr.2.2, hd⟩

/-- **C22** for any average which stays in the range of its data, if no window is degenerate. -/
theorem C22_any_average {ma : MA (Ext K)} {F : ℕ → (ℕ → K) → ℕ → ℕ → K} {e : ℕ → ℕ} (hma : IsMA ma F e)
    (hA : Averages F e) (hh : Holds h n mh H) (hl : Holds l n ml L) (hc : Holds c n mc C) (hp : 1 ≤ p) {pf : ℕ}
    (hpf : 1 ≤ pf) (hv : ValidBars H L C (max mc (max mh ml + (p - 1))) n)
    (hnd : ∀ i, max mc (max mh ml + (p - 1)) ≤ i + 1 → i < n → Spec.winMin L p i < Spec.winMax H p i)
    (hn : max mc (max mh ml + (p - 1)) + e pf ≤ n) :
    Gives (Ind.stochf ma p pf h l c) fun r =>
      (∃ d, Shows r.2 n (max mc (max mh ml + (p - 1)) + e pf) d ∧
        ∀ i, max mc (max mh ml + (p - 1)) + e pf ≤ i + 1 → i < n → 0 ≤ d i ∧ d i ≤ 100) := by
  have hk := fastK_core hh hl hc hp
  have hpos := hk.pos
  have hk' : Shows (rmulS (lit 100) (c - Ind.lowest p l) / (Ind.highest p h - Ind.lowest p l)) n
      (max mc (max mh ml + (p - 1))) fun i => 100 * (C i - Spec.winMin L p i) / (Spec.winMax H p i - Spec.winMin L p i) :=
    hk.congr rfl fun i h1 h2 => Ext.fin_div _ (sub_ne_zero.mpr (hnd i h1 h2).ne')
  unfold Ind.stochf
  refine Gives.bind (hma pf hpf _ n _ _ hk'.toRepW hn) fun d hd => Gives.pure ⟨_, hd, fun i h1 h2 => ?_⟩
  refine hA pf hpf _ _ i 0 100 (by omega) fun j h3 h4 => ?_
  obtain ⟨h5, h6⟩ := window_bounds hv (i := j) (by omega) (by omega) hp
  have h7 : 0 < Spec.winMax H p j - Spec.winMin L p j := sub_pos.mpr (hnd j (by omega) (by omega))
  refine ⟨div_nonneg (by linarith) h7.le, ?_⟩
  rw [div_le_iff₀ h7]; linarith

/-- **C23**: williamsr = fast %K - 100, as operation on lines (any data, also inconsistent bars). -/
theorem C23_complement (hh : Holds h n mh H) (hl : Holds l n ml L) (hc : Holds c n mc C) (hp : 1 ≤ p) (pf : ℕ) :
    ∃ k d, Ind.stochf Ind.sma p pf h l c = .ok (k, d) ∧ Ind.williamsr p h l c = k.subS (lit 100) := by
  refine ⟨_, _, rfl, ?_⟩
  have := hh.pos
  have := hl.pos
  have hw : Delivers (Ind.williamsr p h l c) n (max mc (max mh ml + (p - 1))) fun i =>
      fin (-100 * (Spec.winMax H p i - C i)) / fin (Spec.winMax H p i - Spec.winMin L p i) := by
    unfold Ind.williamsr
    rw [show (lit (-100) : Ext K) = fin (-100) from by simp]
    exact (rep_div (Holds.rmulS (Holds.sub (Holds.rollMax hh hp).toRepW hc).toRepW (-100)).toRepW
      (Holds.sub (Holds.rollMax hh hp).toRepW (Holds.rollMin hl hp).toRepW).toRepW).congr (by omega) fun i _ _ => rfl
  refine hw.ext (rep_subS (fastK_core hh hl hc hp).toRepW _) fun i h1 h2 => ?_
  rw [lit100]
  by_cases h0 : Spec.winMax H p i - Spec.winMin L p i = 0
  · rw [h0, Ext.fin_div_zero, Ext.fin_div_zero,
      show -100 * (Spec.winMax H p i - C i) = 100 * (C i - Spec.winMin L p i) from by linarith]
    rcases lt_trichotomy (100 * (C i - Spec.winMin L p i)) 0 with h3 | h3 | h3
    · rw [Ext.infSign_neg h3]; rfl
    · rw [h3, Ext.infSign_zero]; simp
    · rw [Ext.infSign_pos h3]; rfl
  · rw [Ext.fin_div _ h0, Ext.fin_div _ h0, Ext.fin_sub]
    congr 1
    field_simp
    ring

/-- **C23**: williamsr is NaN or in `[-100, 0]` for valid bars. -/
theorem C23_range (hh : Holds h n mh H) (hl : Holds l n ml L) (hc : Holds c n mc C) (hp : 1 ≤ p)
    (hv : ValidBars H L C (max mc (max mh ml + (p - 1))) n) :
    RangesIn (-100) 0 (Ind.williamsr p h l c) n (max mc (max mh ml + (p - 1))) := by
  obtain ⟨k, d, h1, h2⟩ := C23_complement hh hl hc hp 1
  obtain ⟨r, h3, h4, ⟨g, h5, h6⟩, h7⟩ := C22_stochf hh hl hc hp (le_refl 1) hv
  rw [h1, Except.ok.injEq] at h3
  subst h3
  rw [h2]
  refine ⟨_, rep_subS h5.toRepW _, fun i h8 h9 => ?_⟩
  rcases h6 i h8 h9 with h | ⟨w, h, h10, h11⟩
  · left; rw [h]; simp
  · right
    rw [h]
    refine ⟨w - 100, by simp, by linarith, by linarith⟩

end stoch

/-- C22/C23, a case: valid bars, one window degenerate (bars 1 and 2) -/
example :
    let h := bars 4 fun i => if i = 3 then (4 : ℚ) else 3
    let l := bars 4 fun i => if i = 0 ∨ i = 3 then (1 : ℚ) else 3
    let c := bars 4 fun i => if i = 0 ∨ i = 3 then (2 : ℚ) else 3
    Ind.stochf Ind.sma 2 1 h l c = .ok (⟨[.nan, .fin 100, .nan, .fin (100/3)], 2⟩, ⟨[.nan, .fin 100, .nan, .fin (100/3)], 2⟩) ∧
    Ind.williamsr 2 h l c = ⟨[.nan, .fin 0, .nan, .fin (-200/3)], 2⟩ := by decide +kernel

/-! ## C25 -/

section aroon
variable {p : ℕ}

theorem wnd_reverse {α : Type} (g : ℕ → α) {w i : ℕ} (hw : w ≤ i + 1) :
    (wnd g w i).reverse = (List.range w).map fun j => g (i - j) := by
  apply List.ext_getElem?
  intro k
  rcases Nat.lt_or_ge k w with hk | hk
  · rw [List.getElem?_reverse (by simpa using hk)]
    unfold wnd
    simp only [List.length_map, List.length_range, List.getElem?_map]
    rw [List.getElem?_range (by omega), List.getElem?_range hk]
    simp only [Option.map_some, Option.some.injEq]
    congr 1
    omega
  · rw [List.getElem?_eq_none (by simpa using hk), List.getElem?_eq_none (by simpa using hk)]

theorem aroon_core {arg : List (Ext K) → ℕ} (hx : Holds a n m x) (hp : 1 ≤ p) :
    Shows (Ind.aroonComp arg p a) n (m + p) fun i =>
      100 - 100 * (arg ((List.range (p + 1)).map fun j => (fin (x (i - j)) : Ext K)) : K) / p := by
  have hpos := hx.pos
  have hp0 : (p : K) ≠ 0 := by exact_mod_cast (by omega : p ≠ 0)
  have h1 : Shows (rolling (p + 1) (aggApply fun w => lit (arg w.reverse)) a) n (m + p)
      (fun i => (arg ((List.range (p + 1)).map fun j => (fin (x (i - j)) : Ext K)) : K)) := by
    refine (rep_rolling (by omega) hx).congr (by omega) fun i h1 h2 => ?_
    unfold aggApply whenAllFin
    beta_reduce
    rw [wnd_reverse _ (by omega), if_pos (by rw [wnd_fin]; exact all_fin _)]
    simp
  unfold Ind.aroonComp
  have h2 := Holds.rsubS (Holds.divS (Holds.rmulS h1.toRepW 100).toRepW hp0).toRepW (100 : K)
  rw [lit100]
  simpa using h2

/-- **C25** (up): at each bar, `100 - 100*k/p` where `k ≤ p` is the number of bars since the (most recent) highest high of
the last `p + 1` bars. -/
theorem C25_up (hx : Holds h n m H) (hp : 1 ≤ p) :
    ∃ k : ℕ → ℕ, Shows (Ind.aroonUp p h) n (m + p) (fun i => 100 - 100 * (k i : K) / p) ∧
      ∀ i, k i ≤ p ∧ (∀ j, j ≤ p → H (i - j) ≤ H (i - k i)) ∧ ∀ j, j < k i → H (i - j) < H (i - k i) := by
  refine ⟨_, aroon_core hx hp, fun i => ?_⟩
  obtain ⟨h1, h2, h3⟩ := argmaxV_spec (fun j => H (i - j)) (w := p + 1) (by omega)
  exact ⟨by omega, fun j hj => h2 j (by omega), h3⟩

/-- **C25** (down): same for the lowest low. -/
theorem C25_down (hx : Holds l n m L) (hp : 1 ≤ p) :
    ∃ k : ℕ → ℕ, Shows (Ind.aroonDn p l) n (m + p) (fun i => 100 - 100 * (k i : K) / p) ∧
      ∀ i, k i ≤ p ∧ (∀ j, j ≤ p → L (i - k i) ≤ L (i - j)) ∧ ∀ j, j < k i → L (i - k i) < L (i - j) := by
  refine ⟨_, aroon_core hx hp, fun i => ?_⟩
  obtain ⟨h1, h2, h3⟩ := argminV_spec (fun j => L (i - j)) (w := p + 1) (by omega)
  exact ⟨by omega, fun j hj => h2 j (by omega), h3⟩

theorem aroon_frac {k p : ℕ} (hp : 1 ≤ p) (hk : k ≤ p) :
    (0 : K) ≤ 100 - 100 * (k : K) / p ∧ 100 - 100 * (k : K) / p ≤ 100 ∧
    (100 - 100 * (k : K) / p = 100 ↔ k = 0) ∧ (100 - 100 * (k : K) / p = 0 ↔ k = p) := by
  have hp0 : (0 : K) < p := by exact_mod_cast hp
  have hk0 : (0 : K) ≤ k := by positivity
  have hkp : (k : K) ≤ p := by exact_mod_cast hk
  have h1 : (100 * (k : K) / p) ≤ 100 := by rw [div_le_iff₀ hp0]; nlinarith
  have h2 : 0 ≤ 100 * (k : K) / p := by positivity
  refine ⟨by linarith, by linarith, ?_, ?_⟩
  · constructor
    · intro h
      have h3 : 100 * (k : K) / p = 0 := by linarith
      rw [div_eq_zero_iff] at h3
      rcases h3 with h3 | h3
      · have : (k : K) = 0 := by linarith
        exact_mod_cast this
      · exact absurd h3 hp0.ne'
    · rintro rfl; simp
  · constructor
    · intro h
      have h3 : 100 * (k : K) / p = 100 := by linarith
      rw [div_eq_iff hp0.ne'] at h3
      have : (k : K) = p := by linarith
      exact_mod_cast this
    · rintro rfl
      rw [mul_div_assoc, div_self hp0.ne']; ring

/-- **C25** (range and extremes): aroon up is in `[0,100]`; it is 100 exactly when the newest bar is strictly or equally
highest, and 0 exactly when the oldest of the `p+1` bars is strictly higher than all newer ones. -/
theorem C25_up_extremes (hx : Holds h n m H) (hp : 1 ≤ p) :
    ∃ u : ℕ → K, Shows (Ind.aroonUp p h) n (m + p) u ∧ ∀ i, 0 ≤ u i ∧ u i ≤ 100 ∧
      (u i = 100 ↔ ∀ j, j ≤ p → H (i - j) ≤ H i) ∧ (u i = 0 ↔ ∀ j, j < p → H (i - j) < H (i - p)) := by
  obtain ⟨k, h1, h2⟩ := C25_up hx hp
  refine ⟨_, h1, fun i => ?_⟩
  obtain ⟨h3, h4, h5⟩ := h2 i
  obtain ⟨f1, f2, f3, f4⟩ := aroon_frac (K := K) hp h3
  refine ⟨f1, f2, f3.trans ⟨fun h => ?_, fun h => ?_⟩, f4.trans ⟨fun h => ?_, fun h => ?_⟩⟩
  · rw [h] at h4; simpa using h4
  · by_contra hc
    have := h5 0 (by omega)
    exact absurd (h (k i) h3) (not_le.mpr (by simpa using this))
  · rw [h] at h5; exact h5
  · by_contra hc
    have := h (k i) (by omega)
    exact absurd (h4 p (le_refl _)) (not_le.mpr this)

/-- **C25** (range and extremes, down) -/
theorem C25_down_extremes (hx : Holds l n m L) (hp : 1 ≤ p) :
    ∃ u : ℕ → K, Shows (Ind.aroonDn p l) n (m + p) u ∧ ∀ i, 0 ≤ u i ∧ u i ≤ 100 ∧
      (u i = 100 ↔ ∀ j, j ≤ p → L i ≤ L (i - j)) ∧ (u i = 0 ↔ ∀ j, j < p → L (i - p) < L (i - j)) := by
  obtain ⟨k, h1, h2⟩ := C25_down hx hp
  refine ⟨_, h1, fun i => ?_⟩
  obtain ⟨h3, h4, h5⟩ := h2 i
  obtain ⟨f1, f2, f3, f4⟩ := aroon_frac (K := K) hp h3
  refine ⟨f1, f2, f3.trans ⟨fun h => ?_, fun h => ?_⟩, f4.trans ⟨fun h => ?_, fun h => ?_⟩⟩
  · rw [h] at h4; simpa using h4
  · by_contra hc
    have := h5 0 (by omega)
    exact absurd (h (k i) h3) (not_le.mpr (by simpa using this))
  · rw [h] at h5; exact h5
  · by_contra hc
    have := h (k i) (by omega)
    exact absurd (h4 p (le_refl _)) (not_le.mpr this)

/-- **C25** (oscillator): up - down, in `[-100, 100]`. -/
theorem C25_osc (hx : Holds h n mh H) (hy : Holds l n ml L) (hp : 1 ≤ p) :
    ∃ u d : ℕ → K, Shows (Ind.aroonUp p h) n (mh + p) u ∧ Shows (Ind.aroonDn p l) n (ml + p) d ∧
      Shows (Ind.aroonosc p h l) n (max mh ml + p) (fun i => u i - d i) ∧ ∀ i, -100 ≤ u i - d i ∧ u i - d i ≤ 100 := by
  obtain ⟨u, h1, h2⟩ := C25_up_extremes hx hp
  obtain ⟨d, h3, h4⟩ := C25_down_extremes hy hp
  refine ⟨u, d, h1, h3, shows_congr (Holds.sub h1.toRepW h3.toRepW) (by omega) fun _ _ _ => rfl, fun i => ?_⟩
  have := h2 i
  have := h4 i
  constructor <;> linarith [(h2 i).1, (h2 i).2.1, (h4 i).1, (h4 i).2.1]

example : Ind.aroonUp 2 (bars 5 fun i => if i = 2 then (9 : ℚ) else i) =
    ⟨[.nan, .nan, .fin 100, .fin 50, .fin 0], 3⟩ := by decide +kernel

end aroon

/-! ## C26 -/

section mfi
variable {p : ℕ}

/-- typical price -/
def _root_.Spec.tp (H L C : ℕ → K) (i : ℕ) : K := (H i + L i + C i) / 3
/-- money flow of the bar if the typical price rose -/
def _root_.Spec.flowUp (H L C W : ℕ → K) (i : ℕ) : K :=
  if Spec.tp H L C (i - 1) < Spec.tp H L C i then Spec.tp H L C i * W i else 0
/-- money flow of the bar if the typical price fell -/
def _root_.Spec.flowDown (H L C W : ℕ → K) (i : ℕ) : K :=
  if Spec.tp H L C i < Spec.tp H L C (i - 1) then Spec.tp H L C i * W i else 0

/-- **C26** (formula): for non-negative prices and volumes, mfi is the share of the positive money flow of the last `p` bars
in percent; NaN exactly if there was no flow. -/
theorem C26_formula (hh : Holds h n m H) (hl : Holds l n m L) (hc : Holds c n m C) (hv : Holds v n m W) (hp : 1 ≤ p)
    (hpos : ∀ i, m ≤ i + 1 → i < n → 0 ≤ H i ∧ 0 ≤ L i ∧ 0 ≤ C i ∧ 0 ≤ W i) :
    Delivers (Ind.mfi p h l c v) n (m + p) fun i =>
      Spec.pct (Spec.winSum (Spec.flowUp H L C W) p i) (Spec.winSum (Spec.flowDown H L C W) p i) := by
  have hm := hh.pos
  have h3 : (3 : K) ≠ 0 := by norm_num
  have htp : Shows ((h + l + c).divS (lit 3)) n m (Spec.tp H L C) := by
    rw [show (lit 3 : Ext K) = fin 3 from by simp]
    exact shows_congr (Holds.divS (Holds.add (Holds.add hh hl).toRepW hc).toRepW h3) (by omega) fun i _ _ => rfl
  have htp1 := Holds.ago htp.toRepW (s := 1) (le_refl _)
  have hraw := Holds.mul htp.toRepW hv
  have hup : Shows (mulB ((h + l + c).divS (lit 3) * v) (gtL ((h + l + c).divS (lit 3)) (ago (-1) ((h + l + c).divS (lit 3)))))
      n (m + 1) (Spec.flowUp H L C W) := by
    refine (rep_mulB hraw.toRepW (rep_gtL htp.toRepW htp1.toRepW).toRepW).congr (by omega) fun i _ _ => ?_
    unfold Spec.flowUp
    by_cases hc : Spec.tp H L C (i - 1) < Spec.tp H L C i <;> simp [hc]
  have hdn : Shows (mulB ((h + l + c).divS (lit 3) * v) (ltL ((h + l + c).divS (lit 3)) (ago (-1) ((h + l + c).divS (lit 3)))))
      n (m + 1) (Spec.flowDown H L C W) := by
    refine (rep_mulB hraw.toRepW (rep_ltL htp.toRepW htp1.toRepW).toRepW).congr (by omega) fun i _ _ => ?_
    unfold Spec.flowDown
    by_cases hc : Spec.tp H L C i < Spec.tp H L C (i - 1) <;> simp [hc]
  have h1 := Holds.rollSum hup.toRepW hp
  have h2 := Holds.rollSum hdn.toRepW hp
  unfold Ind.mfi Ind.sumN
  refine (rep_rsubS (rep_rdivS (rep_raddS (rep_div h1.toRepW h2.toRepW).toRepW _).toRepW _).toRepW _).congr
    (by omega) fun i h4 h5 => ?_
  have hf : ∀ j, m ≤ j + 1 → j < n → 0 ≤ Spec.tp H L C j * W j := by
    intro j h6 h7
    obtain ⟨q1, q2, q3, q4⟩ := hpos j h6 h7
    exact mul_nonneg (div_nonneg (by linarith) (by norm_num)) q4
  have hU : 0 ≤ Spec.winSum (Spec.flowUp H L C W) p i := by
    refine Finset.sum_nonneg fun j hj => ?_
    have := Finset.mem_range.mp hj
    unfold Spec.flowUp
    split
    · exact hf _ (by omega) (by omega)
    · exact le_refl _
  have hD : 0 ≤ Spec.winSum (Spec.flowDown H L C W) p i := by
    refine Finset.sum_nonneg fun j hj => ?_
    have := Finset.mem_range.mp hj
    unfold Spec.flowDown
    split
    · exact hf _ (by omega) (by omega)
    · exact le_refl _
  have := rsiV _ _ hU hD
  simpa using this

/-- **C26** (range) -/
theorem C26_range (hh : Holds h n m H) (hl : Holds l n m L) (hc : Holds c n m C) (hv : Holds v n m W) (hp : 1 ≤ p)
    (hpos : ∀ i, m ≤ i + 1 → i < n → 0 ≤ H i ∧ 0 ≤ L i ∧ 0 ≤ C i ∧ 0 ≤ W i) :
    RangesIn 0 100 (Ind.mfi p h l c v) n (m + p) := by
  refine ⟨_, C26_formula hh hl hc hv hp hpos, fun i h4 h5 => ?_⟩
  have hm := hh.pos
  have hf : ∀ j, m ≤ j + 1 → j < n → 0 ≤ Spec.tp H L C j * W j := by
    intro j h6 h7
    obtain ⟨q1, q2, q3, q4⟩ := hpos j h6 h7
    exact mul_nonneg (div_nonneg (by linarith) (by norm_num)) q4
  refine pct_range (Finset.sum_nonneg fun j hj => ?_) (Finset.sum_nonneg fun j hj => ?_)
  · have := Finset.mem_range.mp hj
    unfold Spec.flowUp
    split
    · exact hf _ (by omega) (by omega)
    · exact le_refl _
  · have := Finset.mem_range.mp hj
    unfold Spec.flowDown
    split
    · exact hf _ (by omega) (by omega)
    · exact le_refl _

example :
    let x := bars 4 fun i => if i = 2 then (4 : ℚ) else i + 1
    let v := bars 4 fun _ => (10 : ℚ)
    Ind.mfi 2 x x x v = ⟨[.nan, .nan, .fin 100, .fin 100], 3⟩ := by decide +kernel

end mfi

end Bta
