import Verif.Props.More
import Verif.Props.Osc
import Verif.Props.Price

/-!
# Small errors in the data (C133)
-/

set_option linter.unusedSectionVars false

namespace Spec
open Bta

variable {K : Type} [Field K] [LinearOrder K] [IsStrictOrderedRing K]

/-- Two lines over `n` bars with minimum period `m` which differ by at most `d` at each bar from there on. -/
def Near (n m : ℕ) (d : K) (a b : Line (Ext K)) : Prop :=
  ∃ x y : ℕ → K, Holds a n m x ∧ Holds b n m y ∧ ∀ j, m ≤ j + 1 → j < n → |x j - y j| ≤ d

/-- `f` (which needs `e` bars more than its input) makes errors at most `k` times as large: inputs which differ by at most `d` give
results which differ by at most `k * d`. -/
def Steady (f : Line (Ext K) → Except Err (Line (Ext K))) (e : ℕ) (k : K) : Prop :=
  ∀ (n m : ℕ) (d : K) (a b : Line (Ext K)), Near n m d a b → m + e ≤ n →
    ∃ r s, f a = .ok r ∧ f b = .ok s ∧ Near n (m + e) (k * d) r s

end Spec

namespace Bta
open Line Ext Ind Spec

variable {K : Type} [Field K] [LinearOrder K] [IsStrictOrderedRing K]
variable {a b c a' b' c' : Line (Ext K)} {n m m' : ℕ} {d d' k k' : K}

/-! ## Operations -/

theorem _root_.Spec.Near.nonneg (h : Near n m d a b) (hm : m ≤ n) : 0 ≤ d := by
  obtain ⟨x, y, hx, _, h⟩ := h
  have := hx.pos
  exact le_trans (abs_nonneg _) (h (m - 1) (by omega) (by omega))

theorem _root_.Spec.Near.pos (h : Near n m d a b) : 1 ≤ m := by
  obtain ⟨x, y, hx, _⟩ := h
  exact hx.pos

theorem _root_.Spec.Near.weaken (h : Near n m d a b) (hd : m ≤ n → d ≤ d') : Near n m d' a b := by
  obtain ⟨x, y, hx, hy, h⟩ := h
  exact ⟨x, y, hx, hy, fun j h1 h2 => le_trans (h j h1 h2) (hd (by omega))⟩

theorem _root_.Spec.Near.cast (h : Near n m d a b) (hm : m = m') (hd : d = d') : Near n m' d' a b := hm ▸ hd ▸ h

theorem _root_.Spec.Near.add (h : Near n m d a b) (h' : Near n m' d' a' b') : Near n (max m m') (d + d') (a + a') (b + b') := by
  obtain ⟨x, y, hx, hy, h⟩ := h
  obtain ⟨x', y', hx', hy', h'⟩ := h'
  refine ⟨_, _, (Holds.add hx hx').toRepW, (Holds.add hy hy').toRepW, fun j h1 h2 => ?_⟩
  have e1 := h j (by omega) h2
  have e2 := h' j (by omega) h2
  rw [abs_le] at e1 e2 ⊢
  constructor <;> linarith [e1.1, e1.2, e2.1, e2.2]

theorem _root_.Spec.Near.sub (h : Near n m d a b) (h' : Near n m' d' a' b') : Near n (max m m') (d + d') (a - a') (b - b') := by
  obtain ⟨x, y, hx, hy, h⟩ := h
  obtain ⟨x', y', hx', hy', h'⟩ := h'
  refine ⟨_, _, (Holds.sub hx hx').toRepW, (Holds.sub hy hy').toRepW, fun j h1 h2 => ?_⟩
  have e1 := h j (by omega) h2
  have e2 := h' j (by omega) h2
  rw [abs_le] at e1 e2 ⊢
  constructor <;> linarith [e1.1, e1.2, e2.1, e2.2]

theorem _root_.Spec.Near.rmulS (h : Near n m d a b) (v : K) : Near n m (|v| * d) (rmulS (fin v) a) (rmulS (fin v) b) := by
  obtain ⟨x, y, hx, hy, h⟩ := h
  refine ⟨_, _, (Holds.rmulS hx v).toRepW, (Holds.rmulS hy v).toRepW, fun j h1 h2 => ?_⟩
  rw [← mul_sub, abs_mul]
  exact mul_le_mul_of_nonneg_left (h j h1 h2) (abs_nonneg _)

theorem _root_.Spec.Near.mulS (h : Near n m d a b) (v : K) : Near n m (|v| * d) (a.mulS (fin v)) (b.mulS (fin v)) := by
  obtain ⟨x, y, hx, hy, h⟩ := h
  refine ⟨_, _, (Holds.mulS hx v).toRepW, (Holds.mulS hy v).toRepW, fun j h1 h2 => ?_⟩
  rw [← sub_mul, abs_mul, mul_comm]
  exact mul_le_mul_of_nonneg_left (h j h1 h2) (abs_nonneg _)

theorem _root_.Spec.Near.divS (h : Near n m d a b) {v : K} (hv : 0 < v) : Near n m (d / v) (a.divS (fin v)) (b.divS (fin v)) := by
  obtain ⟨x, y, hx, hy, h⟩ := h
  refine ⟨_, _, (Holds.divS hx hv.ne').toRepW, (Holds.divS hy hv.ne').toRepW, fun j h1 h2 => ?_⟩
  rw [← sub_div, abs_div, abs_of_pos hv]
  exact div_le_div_of_nonneg_right (h j h1 h2) hv.le

theorem _root_.Spec.Near.diff (h : Near n m d a b) (s : ℕ) : Near n (m + s) (d + d) (diff s a) (diff s b) := by
  obtain ⟨x, y, hx, hy, h⟩ := h
  have hm := hx.pos
  refine ⟨_, _, (hx.diff s).toRepW, (hy.diff s).toRepW, fun j h1 h2 => ?_⟩
  have e1 := h j (by omega) h2
  have e2 := h (j - s) (by omega) (by omega)
  rw [abs_le] at e1 e2 ⊢
  constructor <;> linarith [e1.1, e1.2, e2.1, e2.2]

theorem _root_.Spec.Near.ago (h : Near n m d a b) {s : ℕ} (hs : 1 ≤ s) : Near n (m + s) d (ago (-(s : Int)) a) (ago (-(s : Int)) b) := by
  obtain ⟨x, y, hx, hy, h⟩ := h
  have hm := hx.pos
  exact ⟨_, _, (hx.ago hs).toRepW, (hy.ago hs).toRepW, fun j h1 h2 => h (j - s) (by omega) (by omega)⟩

theorem abs_max_sub {x y x' y' : K} (h1 : |x - y| ≤ d) (h2 : |x' - y'| ≤ d) : |max x x' - max y y'| ≤ d := by
  rw [abs_le] at *
  constructor
  · have : max y y' ≤ max x x' + d := max_le (by linarith [le_max_left x x', h1.1]) (by linarith [le_max_right x x', h2.1])
    linarith
  · have : max x x' ≤ max y y' + d := max_le (by linarith [le_max_left y y', h1.2]) (by linarith [le_max_right y y', h2.2])
    linarith

theorem abs_min_sub {x y x' y' : K} (h1 : |x - y| ≤ d) (h2 : |x' - y'| ≤ d) : |min x x' - min y y'| ≤ d := by
  rw [abs_le] at *
  constructor
  · have : min y y' - d ≤ min x x' := le_min (by linarith [min_le_left y y', h1.1]) (by linarith [min_le_right y y', h2.1])
    linarith
  · have : min x x' - d ≤ min y y' := le_min (by linarith [min_le_left x x', h1.2]) (by linarith [min_le_right x x', h2.2])
    linarith

theorem _root_.Spec.Near.clipLoL (h : Near n m d a b) (h' : Near n m' d a' b') : Near n (max m m') d (clipLoL a a') (clipLoL b b') := by
  obtain ⟨x, y, hx, hy, h⟩ := h
  obtain ⟨x', y', hx', hy', h'⟩ := h'
  exact ⟨_, _, (Holds.clipLoL hx hx').toRepW, (Holds.clipLoL hy hy').toRepW, fun j h1 h2 =>
    abs_max_sub (h j (by omega) h2) (h' j (by omega) h2)⟩

theorem _root_.Spec.Near.clipHiL (h : Near n m d a b) (h' : Near n m' d a' b') : Near n (max m m') d (clipHiL a a') (clipHiL b b') := by
  obtain ⟨x, y, hx, hy, h⟩ := h
  obtain ⟨x', y', hx', hy', h'⟩ := h'
  exact ⟨_, _, (Holds.clipHiL hx hx').toRepW, (Holds.clipHiL hy hy').toRepW, fun j h1 h2 =>
    abs_min_sub (h j (by omega) h2) (h' j (by omega) h2)⟩

theorem _root_.Spec.Near.highest (h : Near n m d a b) {p : ℕ} (hp : 1 ≤ p) : Near n (m + (p - 1)) d (Ind.highest p a) (Ind.highest p b) := by
  obtain ⟨x, y, hx, hy, h⟩ := h
  have hm := hx.pos
  refine ⟨_, _, (shows_congr (hx.rollMax hp) (by omega) fun _ _ _ => rfl).toRepW,
    (shows_congr (hy.rollMax hp) (by omega) fun _ _ _ => rfl).toRepW, fun i h1 h2 => ?_⟩
  have gx := Spec.winMax_isGreatest x hp i
  have gy := Spec.winMax_isGreatest y hp i
  obtain ⟨j, hj, ej⟩ := gx.1
  obtain ⟨l, hl, el⟩ := gy.1
  have e1 := abs_le.1 (h (i - j) (by omega) (by omega))
  have e2 := abs_le.1 (h (i - l) (by omega) (by omega))
  have e3 := gy.2 ⟨j, hj, rfl⟩
  have e4 := gx.2 ⟨l, hl, rfl⟩
  rw [abs_le]
  constructor <;> linarith [e1.1, e1.2, e2.1, e2.2]

theorem _root_.Spec.Near.lowest (h : Near n m d a b) {p : ℕ} (hp : 1 ≤ p) : Near n (m + (p - 1)) d (Ind.lowest p a) (Ind.lowest p b) := by
  obtain ⟨x, y, hx, hy, h⟩ := h
  have hm := hx.pos
  refine ⟨_, _, (shows_congr (hx.rollMin hp) (by omega) fun _ _ _ => rfl).toRepW,
    (shows_congr (hy.rollMin hp) (by omega) fun _ _ _ => rfl).toRepW, fun i h1 h2 => ?_⟩
  have gx := Spec.winMin_isLeast x hp i
  have gy := Spec.winMin_isLeast y hp i
  obtain ⟨j, hj, ej⟩ := gx.1
  obtain ⟨l, hl, el⟩ := gy.1
  have e1 := abs_le.1 (h (i - j) (by omega) (by omega))
  have e2 := abs_le.1 (h (i - l) (by omega) (by omega))
  have e3 := gy.2 ⟨j, hj, rfl⟩
  have e4 := gx.2 ⟨l, hl, rfl⟩
  rw [abs_le]
  constructor <;> linarith [e1.1, e1.2, e2.1, e2.2]

/-! ## Averages -/

section averages
variable {f g : MA (Ext K)} {F : ℕ → (ℕ → K) → ℕ → ℕ → K} {e : ℕ → ℕ}

theorem steady_of (hf : IsMA f F e) (hA : Affine F e) (hM : Mono F e) {p : ℕ} (hp : 1 ≤ p) : Steady (f p) (e p) (1 : K) := by
  intro n m d a b ⟨x, y, hx, hy, h⟩ hn
  have hm := hx.pos
  obtain ⟨r, e1, s1⟩ := hf p hp a n m x hx hn
  obtain ⟨s, e2, s2⟩ := hf p hp b n m y hy hn
  refine ⟨r, s, e1, e2, _, _, s1.toRepW, s2.toRepW, fun i h1 h2 => ?_⟩
  have key : ∀ u v : ℕ → K, (∀ j, m ≤ j + 1 → j < n → u j - v j ≤ d) → F p u (m - 1) i ≤ F p v (m - 1) i + d := fun u v huv => by
    have := hA p hp v (m - 1) i 1 d (by omega)
    simp only [one_mul] at this
    rw [← this]
    exact hM p hp _ _ (m - 1) i (by omega) fun j j1 j2 => by linarith [huv j (by omega) (by omega)]
  have k1 := key x y fun j j1 j2 => (abs_le.1 (h j j1 j2)).2
  have k2 := key y x fun j j1 j2 => by linarith [(abs_le.1 (h j j1 j2)).1]
  rw [one_mul, abs_le]
  constructor <;> linarith

/-- **C133** the simple, exponential, smoothed, weighted and triangular averages: errors in the data are not made larger. -/
theorem C133_averages {p : ℕ} (hp : 1 ≤ p) :
    Steady (Ind.sma p) (p - 1) (1 : K) ∧ Steady (Ind.ema p) (p - 1) (1 : K) ∧ Steady (Ind.smma p) (p - 1) (1 : K) ∧
      Steady (Ind.wma p) (p - 1) (1 : K) ∧ Steady (Ind.trima p) (p - 1) (1 : K) :=
  ⟨steady_of sma_isMA smaF_affine smaF_mono hp, steady_of ema_isMA emaF_affine emaF_mono hp,
    steady_of smma_isMA smmaF_affine smmaF_mono hp, steady_of wma_isMA wmaF_affine wmaF_mono hp,
    steady_of trima_isMA trimaF_affine trimaF_mono hp⟩

theorem _root_.Spec.Steady.dema {p j : ℕ} (hf : Steady (f p) j (1 : K)) : Steady (Ind.dema f p) (2 * j) (3 : K) := by
  intro n m d a b h hn
  obtain ⟨r1, s1, e1, f1, h1⟩ := hf n m d a b h (by omega)
  obtain ⟨r2, s2, e2, f2, h2⟩ := hf n _ _ r1 s1 h1 (by omega)
  refine ⟨rmulS (lit 2) r1 - r2, rmulS (lit 2) s1 - s2, ?_, ?_, ?_⟩
  · simp only [Ind.dema, e1, e2, bind, Except.bind, pure, Except.pure]
  · simp only [Ind.dema, f1, f2, bind, Except.bind, pure, Except.pure]
  · rw [show (lit 2 : Ext K) = fin 2 by simp]
    exact ((h1.rmulS 2).sub h2).cast (by omega) (by rw [abs_of_pos (by norm_num : (0 : K) < 2)]; ring)

theorem _root_.Spec.Steady.tema {p j : ℕ} (hf : Steady (f p) j (1 : K)) : Steady (Ind.tema f p) (3 * j) (7 : K) := by
  intro n m d a b h hn
  obtain ⟨r1, s1, e1, f1, h1⟩ := hf n m d a b h (by omega)
  obtain ⟨r2, s2, e2, f2, h2⟩ := hf n _ _ r1 s1 h1 (by omega)
  obtain ⟨r3, s3, e3, f3, h3⟩ := hf n _ _ r2 s2 h2 (by omega)
  refine ⟨rmulS (lit 3) r1 - rmulS (lit 3) r2 + r3, rmulS (lit 3) s1 - rmulS (lit 3) s2 + s3, ?_, ?_, ?_⟩
  · simp only [Ind.tema, e1, e2, e3, bind, Except.bind, pure, Except.pure]
  · simp only [Ind.tema, f1, f2, f3, bind, Except.bind, pure, Except.pure]
  · rw [show (lit 3 : Ext K) = fin 3 by simp]
    exact (((h1.rmulS 3).sub (h2.rmulS 3)).add h3).cast (by omega) (by rw [abs_of_pos (by norm_num : (0 : K) < 3)]; ring)

/-- **C133** the averages which compensate for their lag make errors larger by a fixed factor: dema at most 3 times, tema at most 7
times, t3 with volume factor `v` at most `(1 + 2v)^3` times. -/
theorem C133_fast_averages {p : ℕ} (hp : 1 ≤ p) {v : K} (hv : 0 ≤ v) :
    Steady (Ind.dema Ind.ema p) (2 * (p - 1)) (3 : K) ∧ Steady (Ind.tema Ind.ema p) (3 * (p - 1)) (7 : K) ∧
      Steady (Ind.t3 (fin v) p) (6 * (p - 1)) ((1 + 2 * v) ^ 3) := by
  have hf : Steady (Ind.ema p) (p - 1) (1 : K) := (C133_averages hp).2.1
  refine ⟨hf.dema, hf.tema, ?_⟩
  intro n m d a b h hn
  obtain ⟨r1, s1, e1, f1, h1⟩ := hf n m d a b h (by omega)
  obtain ⟨r2, s2, e2, f2, h2⟩ := hf n _ _ r1 s1 h1 (by omega)
  obtain ⟨r3, s3, e3, f3, h3⟩ := hf n _ _ r2 s2 h2 (by omega)
  obtain ⟨r4, s4, e4, f4, h4⟩ := hf n _ _ r3 s3 h3 (by omega)
  obtain ⟨r5, s5, e5, f5, h5⟩ := hf n _ _ r4 s4 h4 (by omega)
  obtain ⟨r6, s6, e6, f6, h6⟩ := hf n _ _ r5 s5 h5 (by omega)
  have hr := (((h6.rmulS (-(v * v * v))).add (h5.rmulS (3 * (v * v) + 3 * (v * v * v)))).add
    (h4.rmulS (-6 * (v * v) - 3 * v - 3 * (v * v * v)))).add (h3.rmulS (1 + 3 * v + v * v * v + 3 * (v * v)))
  have v2 : 0 ≤ v * v := mul_nonneg hv hv
  have v3 : 0 ≤ v * v * v := mul_nonneg v2 hv
  have c1 : |(-(v * v * v))| = v * v * v := by rw [abs_neg, abs_of_nonneg v3]
  have c2 : |3 * (v * v) + 3 * (v * v * v)| = 3 * (v * v) + 3 * (v * v * v) := abs_of_nonneg (by linarith)
  have c3 : |(-6) * (v * v) - 3 * v - 3 * (v * v * v)| = 6 * (v * v) + 3 * v + 3 * (v * v * v) := by
    rw [abs_of_nonpos (by linarith)]; ring
  have c4 : |1 + 3 * v + v * v * v + 3 * (v * v)| = 1 + 3 * v + v * v * v + 3 * (v * v) := abs_of_nonneg (by linarith)
  rw [c1, c2, c3, c4] at hr
  refine ⟨_, _, ?_, ?_, hr.cast (by omega) (by ring)⟩
  · simp only [Ind.t3, e1, e2, e3, e4, e5, e6, bind, Except.bind, pure, Except.pure, Ext.lit_def, Ext.fin_mul, Ext.fin_add, Ext.fin_sub,
      Ext.fin_neg]
    push_cast
    rfl
  · simp only [Ind.t3, f1, f2, f3, f4, f5, f6, bind, Except.bind, pure, Except.pure, Ext.lit_def, Ext.fin_mul, Ext.fin_add, Ext.fin_sub,
      Ext.fin_neg]
    push_cast
    rfl

/-- **C133** differences of averages (any average which is steady): apo and macd at most twice, the histogram at most four times. -/
theorem C133_oscillators {masig : MA (Ext K)} {pfast pslow psig : ℕ} (hfast : Steady (f pfast) (pfast - 1) (1 : K))
    (hslow : Steady (g pslow) (pslow - 1) (1 : K)) (hsig : Steady (masig psig) (psig - 1) (1 : K)) (hp : pfast ≤ pslow)
    (h : Near n m d a b) (hn : m + (pslow - 1) + (psig - 1) ≤ n) :
    Gives (Ind.macd f g masig pfast pslow psig a) fun r => Gives (Ind.macd f g masig pfast pslow psig b) fun s =>
      Near n (m + (pslow - 1)) (2 * d) r.1 s.1 ∧ Near n (m + (pslow - 1) + (psig - 1)) (2 * d) r.2.1 s.2.1 ∧
      Near n (m + (pslow - 1) + (psig - 1)) (4 * d) r.2.2 s.2.2 := by
  obtain ⟨r1, s1, e1, f1, h1⟩ := hfast n m d a b h (by omega)
  obtain ⟨r2, s2, e2, f2, h2⟩ := hslow n m d a b h (by omega)
  have hm : Near n (m + (pslow - 1)) (2 * d) (r1 - r2) (s1 - s2) := (h1.sub h2).cast (by omega) (by ring)
  obtain ⟨r3, s3, e3, f3, h3⟩ := hsig n _ _ _ _ hm (by omega)
  refine ⟨(r1 - r2, r3, r1 - r2 - r3), ?_, (s1 - s2, s3, s1 - s2 - s3), ?_, hm, h3.cast rfl (by ring),
    (hm.sub h3).cast (by omega) (by ring)⟩
  · simp only [Ind.macd, e1, e2, e3, bind, Except.bind, pure, Except.pure]
  · simp only [Ind.macd, f1, f2, f3, bind, Except.bind, pure, Except.pure]

/-- **C133** apo -/
theorem C133_apo {pfast pslow : ℕ} (hfast : Steady (f pfast) (pfast - 1) (1 : K)) (hslow : Steady (f pslow) (pslow - 1) (1 : K))
    (hp : pfast ≤ pslow) : Steady (Ind.apo f pfast pslow) (pslow - 1) (2 : K) := by
  intro n m d a b h hn
  obtain ⟨r1, s1, e1, f1, h1⟩ := hfast n m d a b h (by omega)
  obtain ⟨r2, s2, e2, f2, h2⟩ := hslow n m d a b h (by omega)
  refine ⟨r1 - r2, s1 - s2, ?_, ?_, (h1.sub h2).cast (by omega) (by ring)⟩
  · simp only [Ind.apo, Ind.posc, e1, e2, bind, Except.bind, pure, Except.pure, Bool.false_eq_true, if_false]
  · simp only [Ind.apo, Ind.posc, f1, f2, bind, Except.bind, pure, Except.pure, Bool.false_eq_true, if_false]

end averages

/-- **C133** rolling extremes, the middle between them, and momentum -/
theorem C133_extremes {p : ℕ} (hp : 1 ≤ p) (h : Near n m d a b) :
    Near n (m + (p - 1)) d (Ind.highest p a) (Ind.highest p b) ∧ Near n (m + (p - 1)) d (Ind.lowest p a) (Ind.lowest p b) ∧
      Near n (m + (p - 1)) d (Ind.midpoint p a) (Ind.midpoint p b) ∧ Near n (m + p) (2 * d) (Ind.mom p a) (Ind.mom p b) := by
  refine ⟨h.highest hp, h.lowest hp, ?_, (h.diff p).cast rfl (by ring)⟩
  show Near _ _ _ ((Ind.highest p a + Ind.lowest p a).divS (lit 2)) ((Ind.highest p b + Ind.lowest p b).divS (lit 2))
  rw [show (lit 2 : Ext K) = fin 2 by simp]
  exact (((h.highest hp).add (h.lowest hp)).divS (by norm_num)).cast (by omega) (by ring)

theorem winSum_close {x y : ℕ → K} {p i : ℕ} (h : ∀ k, k < p → |x (i - k) - y (i - k)| ≤ d) :
    |Spec.winSum x p i - Spec.winSum y p i| ≤ p * d := by
  unfold Spec.winSum
  rw [← Finset.sum_sub_distrib]
  refine le_trans (Finset.abs_sum_le_sum_abs _ _) (le_trans (Finset.sum_le_card_nsmul _ _ d fun k hk => h k (Finset.mem_range.1 hk)) ?_)
  rw [Finset.card_range, nsmul_eq_mul]

theorem winMean_close {x y : ℕ → K} {p i : ℕ} (hp : 1 ≤ p) (h : ∀ k, k < p → |x (i - k) - y (i - k)| ≤ d) :
    |Spec.winMean x p i - Spec.winMean y p i| ≤ d := by
  have hk : (0 : K) < p := by exact_mod_cast (by omega : 0 < p)
  unfold Spec.winMean
  rw [← sub_div, abs_div, abs_of_pos hk, div_le_iff₀ hk, mul_comm]
  exact winSum_close h

/-- **C133** rolling sums (at most as many times as there are values in the sum) and mean absolute deviations (at most twice) -/
theorem C133_sums {p : ℕ} (hp : 1 ≤ p) (h : Near n m d a b) :
    Near n (m + (p - 1)) (p * d) (rolling p aggSum a) (rolling p aggSum b) ∧
      Near n (m + (p - 1)) (2 * d) (Ind.mad p a) (Ind.mad p b) := by
  obtain ⟨x, y, hx, hy, h⟩ := h
  have hm := hx.pos
  have hk : (0 : K) < p := by exact_mod_cast (by omega : 0 < p)
  constructor
  · refine ⟨_, _, (shows_congr (hx.rollSum hp) (by omega) fun _ _ _ => rfl).toRepW,
      (shows_congr (hy.rollSum hp) (by omega) fun _ _ _ => rfl).toRepW, fun i h1 h2 => ?_⟩
    exact winSum_close fun k hk => h (i - k) (by omega) (by omega)
  · refine ⟨_, _, (mad_shows hx hp).toRepW, (mad_shows hy hp).toRepW, fun i h1 h2 => ?_⟩
    have e0 : ∀ k, k < p → |x (i - k) - y (i - k)| ≤ d := fun k hk => h (i - k) (by omega) (by omega)
    have e1 := abs_le.1 (winMean_close hp e0)
    unfold Spec.winMad
    rw [← sub_div, abs_div, abs_of_pos hk, div_le_iff₀ hk, ← Finset.sum_sub_distrib]
    refine le_trans (Finset.abs_sum_le_sum_abs _ _) (le_trans (Finset.sum_le_card_nsmul _ _ (2 * d) fun k hk => ?_) ?_)
    · refine le_trans (abs_abs_sub_abs_le_abs_sub _ _) ?_
      have e2 := abs_le.1 (e0 k (Finset.mem_range.1 hk))
      rw [abs_le]
      constructor <;> linarith [e1.1, e1.2, e2.1, e2.2]
    · rw [Finset.card_range, nsmul_eq_mul, mul_comm]

/-- **C133** the means of the prices of a bar, and the middle of the extremes -/
theorem C133_prices {o h l c o' h' l' c' : Line (Ext K)} (ho : Near n m d o o') (hh : Near n m d h h') (hl : Near n m d l l')
    (hc : Near n m d c c') {p : ℕ} (hp : 1 ≤ p) :
    Near n m d (Ind.medprice (lit 2) h l) (Ind.medprice (lit 2) h' l') ∧
      Near n m d (Ind.typprice (lit 3) h l c) (Ind.typprice (lit 3) h' l' c') ∧
      Near n m d (Ind.avgprice (lit 4) o h l c) (Ind.avgprice (lit 4) o' h' l' c') ∧
      Near n m d (Ind.wclprice (lit 2) (lit 4) h l c) (Ind.wclprice (lit 2) (lit 4) h' l' c') ∧
      Near n (m + (p - 1)) d (Ind.midprice p h l) (Ind.midprice p h' l') := by
  rw [show (lit 2 : Ext K) = fin 2 by simp, show (lit 3 : Ext K) = fin 3 by simp, show (lit 4 : Ext K) = fin 4 by simp]
  refine ⟨((hh.add hl).divS (by norm_num)).cast (by omega) (by ring),
    (((hh.add hl).add hc).divS (by norm_num)).cast (by omega) (by ring),
    ((((ho.add hh).add hl).add hc).divS (by norm_num)).cast (by omega) (by ring),
    (((hh.add hl).add (hc.mulS 2)).divS (by norm_num)).cast (by omega) ?_, ?_⟩
  · rw [abs_of_pos (by norm_num : (0 : K) < 2)]; ring
  · show Near _ _ _ ((Ind.highest p h + Ind.lowest p l).divS (lit 2)) ((Ind.highest p h' + Ind.lowest p l').divS (lit 2))
    rw [show (lit 2 : Ext K) = fin 2 by simp]
    exact (((hh.highest hp).add (hl.lowest hp)).divS (by norm_num)).cast (by omega) (by ring)

/-- **C133** true range and its average: at most twice -/
theorem C133_ranges {ma : MA (Ext K)} {h l c h' l' c' : Line (Ext K)} (hh : Near n m d h h') (hl : Near n m d l l') (hc : Near n m d c c')
    {q p j : ℕ} (hq : 1 ≤ q) (hma : Steady (ma p) j (1 : K)) (hn : m + q + j ≤ n) :
    Near n (m + q) (2 * d) (Ind.truerange q h l c) (Ind.truerange q h' l' c') ∧
      ∃ r s, Ind.atr ma q p h l c = .ok r ∧ Ind.atr ma q p h' l' c' = .ok s ∧ Near n (m + q + j) (2 * d) r s := by
  have ht : Near n (m + q) (2 * d) (Ind.truerange q h l c) (Ind.truerange q h' l' c') :=
    (((hc.ago hq).clipLoL hh).sub ((hc.ago hq).clipHiL hl)).cast (by omega) (by ring)
  obtain ⟨r, s, e1, e2, h3⟩ := hma n _ _ _ _ ht hn
  exact ⟨ht, r, s, e1, e2, h3.cast rfl (by ring)⟩

/-! ## Where small errors are not small -/

/-- **C133** (counterpart): rsi compares moves with each other, so that no error is small for it: however small `d` is, there are two
series of prices which differ by at most `d` everywhere and for which rsi is 0 and 100 (with each of the averages above, for
all periods). -/
theorem C133_rsi_not {ma : MA (Ext K)} {F : ℕ → (ℕ → K) → ℕ → ℕ → K} {e : ℕ → ℕ} (hma : IsMA ma F e) (hA : Affine F e) (hM : Mono F e)
    (hP : PosWin F e) {q p : ℕ} (hq : 1 ≤ q) (hp : 1 ≤ p) (d : K) (hd : 0 < d) :
    ∃ (n : ℕ) (a b : Line (Ext K)) (i : ℕ), Near n 1 d a b ∧ i < n ∧
      (Gives (Ind.rsi ma q p a) fun r => r.series[i]? = some (fin 100)) ∧
      (Gives (Ind.rsi ma q p b) fun r => r.series[i]? = some (fin 0)) := by
  have hN : NonNeg F e := hM.nonneg hA.zero
  let n := 1 + q + e p
  have hn0 : (0 : K) < n := by exact_mod_cast (by omega : 0 < n)
  let x : ℕ → K := fun j => d / 2 * (j / n)
  have hx : ∀ j k : ℕ, j < k → x j < x k := fun j k h => by
    have h1 : (j : K) < k := by exact_mod_cast h
    exact mul_lt_mul_of_pos_left (div_lt_div_of_pos_right h1 hn0) (by linarith)
  refine ⟨n, bars n x, bars n (fun j => -x j), n - 1, ⟨x, fun j => -x j, bars_holds n x, bars_holds n _, fun j _ h2 => ?_⟩, by omega,
    ?_, ?_⟩
  · have h3 : (j : K) / n ≤ 1 := by
      rw [div_le_one hn0]
      exact_mod_cast h2.le
    have h4 : (0 : K) ≤ (j : K) / n := by positivity
    have h5 : 0 ≤ x j := mul_nonneg (by linarith) h4
    have h6 : x j ≤ d / 2 := by
      have := mul_le_mul_of_nonneg_left h3 (by linarith : (0 : K) ≤ d / 2)
      rwa [mul_one] at this
    rw [abs_le]
    constructor <;> linarith
  · refine (C21_no_down hma hM hN hP hA.zero (bars_holds n x) (q := q) hp (le_refl _)).imp fun r hr => ?_
    exact hr (n - 1) (by omega) (by omega) (fun j h1 h2 => (hx _ _ (by omega)).le)
      ⟨n - 1, by omega, by omega, le_refl _, hx _ _ (by omega)⟩
  · refine (C21_no_up hma hM hN hP hA.zero (bars_holds n fun j => -x j) (q := q) hp (le_refl _)).imp fun r hr => ?_
    exact hr (n - 1) (by omega) (by omega) (fun j h1 h2 => neg_le_neg (hx _ _ (by omega)).le)
      ⟨n - 1, by omega, by omega, le_refl _, neg_lt_neg (hx _ _ (by omega))⟩

/-- C133, a case: prices which differ by at most 1 -/
example : Near 3 1 (1 : ℚ) (bars 3 fun i => (i : ℚ)) (bars 3 fun i => (i : ℚ) + if i = 1 then -1 else 1) :=
  ⟨_, _, bars_holds 3 _, bars_holds 3 _, fun j _ _ => by split <;> norm_num⟩
example : Ind.dema Ind.ema 2 (bars 4 fun i => if i = 2 then (-1 : ℚ) else if i = 3 then 1 else 0) ≠
    Ind.dema Ind.ema 2 (bars 4 fun _ => (0 : ℚ)) := by decide +kernel
example : ∃ (n : ℕ) (a b : Line (Ext ℚ)) (i : ℕ), Near n 1 (1 / 1000) a b ∧ i < n ∧
    (Gives (Ind.rsi Ind.smma 1 14 a) fun r => r.series[i]? = some (fin 100)) ∧
    (Gives (Ind.rsi Ind.smma 1 14 b) fun r => r.series[i]? = some (fin 0)) :=
  C133_rsi_not smma_isMA smmaF_affine smmaF_mono smmaF_posWin (by norm_num) (by norm_num) _ (by norm_num)

end Bta
