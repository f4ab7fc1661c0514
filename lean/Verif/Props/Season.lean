import Verif.Props.Trend
import Verif.Props.Reach
import Verif.Props.Catalog
import Verif.Lemmas.Fading

/-!
# A market which repeats itself (C142)
-/

set_option linter.unusedSectionVars false

namespace Spec
open Bta

variable {K : Type} [Field K] [LinearOrder K] [IsStrictOrderedRing K]

/-- Prices `x` (over `n` bars, from bar number `m` on) which repeat themselves every `q` bars, `g` higher each time: a season of
`q` bars together with a trend. -/
def Season (l : Line (Ext K)) (n m q : ℕ) (g : K) (x : ℕ → K) : Prop :=
  Holds l n m x ∧ ∀ i, m ≤ i + 1 → i + q < n → x (i + q) = x i + g

end Spec

namespace Bta
open Line Ext Ind _root_.Spec Finset

variable {K : Type} [Field K] [LinearOrder K] [IsStrictOrderedRing K] {n m q : ℕ} {g : K} {a : Line (Ext K)} {x : ℕ → K}

theorem _root_.Spec.Season.many (h : Season a n m q g x) (k : ℕ) {i : ℕ} (h1 : m ≤ i + 1) (h2 : i + k * q < n) :
    x (i + k * q) = x i + k * g := by
  induction k with
  | zero => simp
  | succ k ih =>
    have e : i + (k + 1) * q = i + k * q + q := by ring
    rw [e, h.2 _ (by omega) (by omega), ih (by omega)]
    push_cast
    ring

/-- the sum over a window when it moves on by one bar -/
theorem winSum_moves (x : ℕ → K) (p i : ℕ) : winSum x p (i + 1) = winSum x p i + x (i + 1) - x (i + 1 - p) := by
  have h1 := winSum_succ x p i
  have h2 : winSum x (p + 1) (i + 1) = winSum x p (i + 1) + x (i + 1 - p) := by
    unfold winSum; rw [sum_range_succ]
  linarith

theorem season_mean (h : Season a n m q g x) (hq : 1 ≤ q) {k : ℕ} (hk : 1 ≤ k) (hm : 1 ≤ m) {i : ℕ} (h1 : m + (k * q - 1) ≤ i + 1) (h2 : i < n) :
    winMean x (k * q) i = winMean x (k * q) (m + (k * q - 1) - 1) + g / q * ((i : K) - ((m + (k * q - 1) - 1 : ℕ) : K)) := by
  have hp : 1 ≤ k * q := Nat.mul_pos hk hq
  have hq0 : (q : K) ≠ 0 := by exact_mod_cast (by omega : q ≠ 0)
  have hk0 : (k : K) ≠ 0 := by exact_mod_cast (by omega : k ≠ 0)
  obtain ⟨t, rfl⟩ : ∃ t, i = m + (k * q - 1) - 1 + t := ⟨i - (m + (k * q - 1) - 1), by omega⟩
  induction t with
  | zero => simp
  | succ t ih =>
    have e := ih (by omega) (by omega)
    have hw := winSum_moves x (k * q) (m + (k * q - 1) - 1 + t)
    have hx := h.many k (i := m + (k * q - 1) - 1 + t + 1 - k * q) (by omega) (by omega)
    rw [show m + (k * q - 1) - 1 + t + 1 - k * q + k * q = m + (k * q - 1) - 1 + t + 1 by omega] at hx
    have hs : winMean x (k * q) (m + (k * q - 1) - 1 + t + 1) = winMean x (k * q) (m + (k * q - 1) - 1 + t) + g / q := by
      unfold winMean
      rw [hw, hx]
      push_cast
      field_simp
      ring
    rw [show m + (k * q - 1) - 1 + (t + 1) = m + (k * q - 1) - 1 + t + 1 by omega, hs, e]
    push_cast
    ring

/-- **C142** The simple average over one season (or several) shows the trend and nothing else: a straight line which rises by `g`
per season. -/
theorem C142_sma (h : Season a n m q g x) (hq : 1 ≤ q) {k : ℕ} (hk : 1 ≤ k) (hn : m + (k * q - 1) ≤ n) :
    ∃ r, Ind.sma (k * q) a = .ok r ∧ Trend r n (m + (k * q - 1)) (winMean x (k * q) (m + (k * q - 1) - 1)) (g / q) ((m + (k * q - 1) - 1 : ℕ) : K) := by
  have hp : 1 ≤ k * q := Nat.mul_pos hk hq
  have hm := h.1.pos
  obtain ⟨r, e, hr⟩ := sma_isMA (k * q) hp a n m x h.1 (by unfold ext1; omega)
  exact ⟨r, e, hr.toRepW.congr rfl fun i h1 h2 => by
    congr 1
    exact season_mean h hq hk hm h1 h2⟩

/-- **C142** so does the triangular average over twice the time (its first average covers whole seasons) -/
theorem C142_trima (h : Season a n m q g x) (hq : 1 ≤ q) {k p : ℕ} (hk : 1 ≤ k) (hp : (p + 1) / 2 = k * q) (hn : m + (p - 1) ≤ n) :
    ∃ r u s, Ind.trima p a = .ok r ∧ Trend r n (m + (p - 1)) u (g / q) s := by
  have hkq : 1 ≤ k * q := Nat.mul_pos hk hq
  obtain ⟨r, e, hr⟩ := C142_sma h hq hk (by omega)
  by_cases ho : p % 2 = 1
  · obtain ⟨t, e2, ht⟩ := (C134_averages (K := K) hkq).1 _ _ _ _ _ _ hr (by omega)
    rw [show m + (k * q - 1) + (k * q - 1) = m + (p - 1) by omega] at ht
    refine ⟨t, _, _, ?_, ht⟩
    unfold Ind.trima
    rw [if_pos ho, hp]
    show (Ind.sma (k * q) a >>= Ind.sma (k * q)) = _
    rw [e]
    exact e2
  · have h2 : p / 2 = k * q := by omega
    obtain ⟨t, e2, ht⟩ := (C134_averages (K := K) (p := k * q + 1) (by omega)).1 _ _ _ _ _ _ hr (by omega)
    rw [show m + (k * q - 1) + (k * q + 1 - 1) = m + (p - 1) by omega] at ht
    refine ⟨t, _, _, ?_, ht⟩
    unfold Ind.trima
    rw [if_neg ho, h2]
    show (Ind.sma (k * q) a >>= Ind.sma (k * q + 1)) = _
    rw [e]
    exact e2

/-- **C142** the change over whole seasons is the trend: `k * g` over `k` of them -/
theorem C142_mom (h : Season a n m q g x) (k : ℕ) : Shows (Ind.mom (k * q) a) n (m + k * q) fun _ => k * g :=
  (C44_mom h.1 (k * q)).congr rfl fun i h1 h2 => by
    have hm := h.1.pos
    have := h.many k (i := i - k * q) (by omega) (by omega)
    rw [show i - k * q + k * q = i by omega] at this
    beta_reduce
    rw [this, add_sub_cancel_left]

/-- **C142** without a trend the rate of change over whole seasons is zero -/
theorem C142_roc (h : Season a n m q 0 x) (hq : 1 ≤ q) {k : ℕ} (hk : 1 ≤ k) (h0 : ∀ i, m ≤ i + 1 → i < n → x i ≠ 0) :
    Shows (Ind.roc (k * q) a) n (m + k * q) fun _ => 0 := by
  have hm := h.1.pos
  have hp : 1 ≤ k * q := Nat.mul_pos hk hq
  refine ((C44_roc h.1 hp).2.2).congr rfl fun i h1 h2 => ?_
  have := h.many k (i := i - k * q) (by omega) (by omega)
  rw [show i - k * q + k * q = i by omega, mul_zero, add_zero] at this
  have hx := h0 i (by omega) h2
  rw [← this, Ext.fin_div _ hx, div_self hx]
  simp

/-- **C142** without a trend rsi with simple averages over whole seasons stands at 50: up and down moves are the same (NaN if nothing
moved) -/
theorem C142_rsi (h : Season a n m q 0 x) (hq : 1 ≤ q) {k s : ℕ} (hk : 1 ≤ k) (hn : m + s + (k * q - 1) ≤ n) :
    Gives (Ind.rsi Ind.sma s (k * q) a) fun r => ∀ i, m + s + (k * q - 1) ≤ i + 1 → i < n →
      r.series[i]? = some (fin 50) ∨ (r.series[i]? = some Ext.nan ∧ ∀ j, i + 1 ≤ j + k * q → j ≤ i → x j = x (j - s)) := by
  have hm := h.1.pos
  have hp : 1 ≤ k * q := Nat.mul_pos hk hq
  have g1 := C21_formula (q := s) sma_isMA smaF_mono smaF_nonneg h.1 hp (by unfold ext1; omega)
  have g2 := C21_nan (q := s) sma_isMA smaF_mono smaF_nonneg smaF_posWin h.1 hp (by unfold ext1; omega)
  obtain ⟨r, e, hr⟩ := g1
  obtain ⟨r', e', hr'⟩ := g2
  rw [e] at e'
  cases e'
  refine ⟨r, e, fun i h1 h2 => ?_⟩
  have hv := hr.val i (by unfold ext1; omega) h2
  by_cases hz : upAvg smaF s (k * q) m x i + downAvg smaF s (k * q) m x i = 0
  · rw [if_pos hz] at hv
    exact Or.inr ⟨hv, fun j j1 j2 => hr' i (by unfold ext1; omega) h2 hv j j1 (by omega) j2⟩
  · rw [if_neg hz] at hv
    refine Or.inl ?_
    have key : upAvg smaF s (k * q) m x i - downAvg smaF s (k * q) m x i = 0 := by
      have e1 := season_mean h hq hk hm (i := i) (by omega) h2
      have e2 := season_mean h hq hk hm (i := i - s) (by omega) (by omega)
      rw [zero_div, zero_mul, add_zero] at e1 e2
      have e3 : upAvg smaF s (k * q) m x i - downAvg smaF s (k * q) m x i = winMean x (k * q) i - winMean x (k * q) (i - s) := by
        unfold upAvg downAvg smaF winMean winSum
        rw [← sub_div, ← sub_div, ← sum_sub_distrib, ← sum_sub_distrib]
        congr 1
        refine sum_congr rfl fun j hj => ?_
        beta_reduce
        rw [show i - s - j = i - j - s by omega]
        rcases le_total (x (i - j)) (x (i - j - s)) with hle | hle
        · rw [max_eq_right (by linarith), max_eq_left (by linarith)]; ring
        · rw [max_eq_left (by linarith), max_eq_right (by linarith)]; ring
      rw [e3, e1, e2, sub_self]
    have hud : upAvg smaF s (k * q) m x i = downAvg smaF s (k * q) m x i := by linarith
    rw [hv, Option.some.injEq, fin.injEq, hud, div_eq_iff (by rw [← hud]; rw [← hud] at hz; exact hz)]
    ring

/-- one season later an exponential average stands `g` higher, but for a difference which shrinks each bar by the factor `1 - w` -/
theorem season_exp (h : Season a n m q g x) (w : K) {p : ℕ} (hp : 1 ≤ p) (t : ℕ) (ht : m + (p - 1) - 1 + t + q < n) :
    expAvg w x (m - 1) p (m + (p - 1) - 1 + t + q) - expAvg w x (m - 1) p (m + (p - 1) - 1 + t) - g =
      (1 - w) ^ t * (expAvg w x (m - 1) p (m + (p - 1) - 1 + q) - expAvg w x (m - 1) p (m + (p - 1) - 1) - g) := by
  have hm := h.1.pos
  induction t with
  | zero => simp
  | succ t ih =>
    have e := ih (by omega)
    have e1 := expAvg_succ w x (m - 1) p (m + (p - 1) - 1 + t + q) (by omega)
    have e2 := expAvg_succ w x (m - 1) p (m + (p - 1) - 1 + t) (by omega)
    have e3 := h.2 (m + (p - 1) - 1 + t + 1) (by omega) (by omega)
    rw [show m + (p - 1) - 1 + t + 1 + q = m + (p - 1) - 1 + t + q + 1 by omega] at e3
    rw [show m + (p - 1) - 1 + (t + 1) + q = m + (p - 1) - 1 + t + q + 1 by omega,
      show m + (p - 1) - 1 + (t + 1) = m + (p - 1) - 1 + t + 1 by omega, e1, e2, e3, pow_succ,
      show (1 - w) ^ t * (1 - w) * (expAvg w x (m - 1) p (m + (p - 1) - 1 + q) - expAvg w x (m - 1) p (m + (p - 1) - 1) - g) =
        (1 - w) * ((1 - w) ^ t * (expAvg w x (m - 1) p (m + (p - 1) - 1 + q) - expAvg w x (m - 1) p (m + (p - 1) - 1) - g)) by ring, ← e]
    ring

/-- **C142** Exponential and smoothed averages settle: from season to season they repeat themselves `g` higher, but for a difference
which each bar multiplies by `1 - 2 / (p + 1)` or `1 - 1 / p`. -/
theorem C142_exponential (h : Season a n m q g x) {p : ℕ} (hp : 1 ≤ p) (hn : m + (p - 1) ≤ n) :
    (Gives (Ind.ema p a) fun r => ∃ y, Shows r n (m + (p - 1)) y ∧ ∀ t, m + (p - 1) - 1 + t + q < n →
      y (m + (p - 1) - 1 + t + q) - y (m + (p - 1) - 1 + t) - g =
        (1 - 2 / ((p : K) + 1)) ^ t * (y (m + (p - 1) - 1 + q) - y (m + (p - 1) - 1) - g)) ∧
    Gives (Ind.smma p a) fun r => ∃ y, Shows r n (m + (p - 1)) y ∧ ∀ t, m + (p - 1) - 1 + t + q < n →
      y (m + (p - 1) - 1 + t + q) - y (m + (p - 1) - 1 + t) - g =
        (1 - 1 / (p : K)) ^ t * (y (m + (p - 1) - 1 + q) - y (m + (p - 1) - 1) - g) :=
  ⟨(ema_isMA p hp a n m x h.1 hn).imp fun _ hr => ⟨_, hr, fun t ht => season_exp h _ hp t ht⟩,
    (smma_isMA p hp a n m x h.1 hn).imp fun _ hr => ⟨_, hr, fun t ht => season_exp h _ hp t ht⟩⟩

/-- **C142** Without a trend every indicator which is calculated over windows repeats itself exactly, bit by bit, for all kinds of
values (floats too): bars `i` and `i + q` of each output are equal, from its minimum period on. -/
theorem C142_windows {V : Type} [PyFloat V] (c : Call V) (hp : c.Periods) (hw : c.Windowed) {x : ℕ → Line V} (hx : Spec.Data n x)
    (h1 : ∀ k, (x k).minperiod = 1) (hrep : ∀ k i : ℕ, i + q < n → (x k).series[i + q]? = (x k).series[i]?)
    {r : List (Line V)} (hr : c.run x = .ok r) {o : Line V} (ho : o ∈ r) {i : ℕ} (hm : o.minperiod ≤ (i : Int) + 1) (hi : i + q < n) :
    o.series[i + q]? = o.series[i]? := by
  obtain ⟨j, hj⟩ := List.mem_iff_getElem?.1 ho
  refine (C85_window c hp hw hx hx h1 h1 r r hr hr j o o hj hj i (i + q) (by omega) hi hm (by omega) fun k b hb => ?_).symm
  rw [show i + q - b = i - b + q by omega]
  exact (hrep k (i - b) (by omega)).symm

/-- C142, a case: 2, 5, 3, 4, 7, 5, 6, ... repeats every three bars, two higher -/
example : Season (bars 9 fun i => if i % 3 = 1 then ((i / 3 : ℕ) : ℚ) * 2 + 5 else if i % 3 = 2 then ((i / 3 : ℕ) : ℚ) * 2 + 3
    else ((i / 3 : ℕ) : ℚ) * 2 + 2) 9 1 3 2
    (fun i => if i % 3 = 1 then ((i / 3 : ℕ) : ℚ) * 2 + 5 else if i % 3 = 2 then ((i / 3 : ℕ) : ℚ) * 2 + 3 else ((i / 3 : ℕ) : ℚ) * 2 + 2) :=
  ⟨bars_holds 9 _, fun i _ _ => by
    simp only [show (i + 3) % 3 = i % 3 by omega, show (i + 3) / 3 = i / 3 + 1 by omega]
    push_cast
    split_ifs <;> ring⟩
example : Ind.sma 3 (⟨[fin 2, fin 5, fin 3, fin 4, fin 7, fin 5, fin 6], 1⟩ : Line (Ext ℚ)) =
    .ok ⟨[nan, nan, fin (10 / 3), fin 4, fin (14 / 3), fin (16 / 3), fin 6], 3⟩ := by decide +kernel
example : Ind.rsi Ind.sma 1 3 (⟨[fin 2, fin 5, fin 3, fin 2, fin 5, fin 3], 1⟩ : Line (Ext ℚ)) =
    .ok ⟨[nan, nan, nan, fin 50, fin 50, fin 50], 4⟩ := by decide +kernel
/-- C142, a case of `C142_windows`: williamsr on prices which repeat every two bars -/
example (r) (h : (Call.williamsr 3 : Call (Ext ℚ)).run (fun _ => bars 8 fun i => ((i % 2 : ℕ) : ℚ)) = .ok r) (o) (ho : o ∈ r)
    (hm : o.minperiod ≤ 4) : o.series[5]? = o.series[3]? :=
  C142_windows (n := 8) (q := 2) (i := 3) (.williamsr 3) (by simp [Call.Periods]) (by simp [Call.Windowed])
    ⟨fun _ => by simp [bars, Line.ofSeries], fun _ => by simp [bars, Line.ofSeries]⟩ (fun _ => rfl)
    (fun _ i hi => by simp [bars, Line.ofSeries, hi, show i < 8 by omega]) h ho (by simpa using hm) (by norm_num)
example : ((Call.williamsr 3 : Call (Ext ℚ)).run (fun _ => bars 8 fun i => ((i % 2 : ℕ) : ℚ))).toBool = true := by decide +kernel

end Bta
