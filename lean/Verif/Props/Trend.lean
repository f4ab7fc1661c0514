import Verif.Props.More
import Verif.Props.Stat
import Verif.Props.Osc
import Verif.Props.Price
import Mathlib.Tactic.LinearCombination

/-!
# Steady trends (C134)
-/

set_option linter.unusedSectionVars false

namespace Spec
open Bta

variable {K : Type} [Field K] [LinearOrder K] [IsStrictOrderedRing K]

/-- A steady trend: from minimum period `m` on the line rises by `b` each bar (it falls for negative `b`) and is `b * h` below the
straight line `u + b * i`: at bar `i` it shows what that line was `h` bars ago. -/
def Trend (l : Line (Ext K)) (n m : ℕ) (u b h : K) : Prop := Holds l n m fun i => u + b * (i - h)

/-- `f` (which needs `e` bars more than its input) shows a steady trend `h` bars late. -/
def Lags (f : Line (Ext K) → Except Err (Line (Ext K))) (e : ℕ) (h : K) : Prop :=
  ∀ (l : Line (Ext K)) (n m : ℕ) (u b g : K), Trend l n m u b g → m + e ≤ n → ∃ r, f l = .ok r ∧ Trend r n (m + e) u b (g + h)

end Spec

namespace Bta
open Line Ext Ind Spec Finset

variable {K : Type} [Field K] [LinearOrder K] [IsStrictOrderedRing K]
variable {a c : Line (Ext K)} {n m : ℕ} {u b h : K}

/-! ## Closed forms -/

theorem sum_trend (u b I : K) (p : ℕ) : ∑ j ∈ range p, (u + b * (I - j)) = p * (u + b * (I - ((p : K) - 1) / 2)) := by
  induction p with
  | zero => simp
  | succ q ih => rw [sum_range_succ, ih]; push_cast; ring

theorem winMean_trend (u b g : K) {p i : ℕ} (hp : 1 ≤ p) (hi : p ≤ i + 1) :
    Spec.winMean (fun j => u + b * (j - g)) p i = u + b * (i - (g + ((p : K) - 1) / 2)) := by
  have hk : (p : K) ≠ 0 := by exact_mod_cast (by omega : p ≠ 0)
  unfold Spec.winMean Spec.winSum
  rw [div_eq_iff hk, sum_congr rfl (g := fun j : ℕ => u + b * ((i - g) - (j : K))) fun j hj => ?_, sum_trend]
  · ring
  · have := mem_range.1 hj
    simp only [Nat.cast_sub (show j ≤ i by omega)]; ring

theorem expRec_trend {α u b g h : K} (hh : α * h = 1 - α) (s : ℕ) (j : ℕ) :
    Spec.expRec α (fun j => u + b * (j - g)) s (u + b * (s - (g + h))) j = u + b * ((s + j : ℕ) - (g + h)) := by
  induction j with
  | zero => rfl
  | succ j ih =>
    rw [Spec.expRec, ih]
    push_cast
    linear_combination b * hh

theorem emaF_trend (u b g : K) {p s i : ℕ} (hp : 1 ≤ p) (hi : s + p ≤ i + 1) :
    emaF p (fun j => u + b * (j - g)) s i = u + b * (i - (g + ((p : K) - 1) / 2)) := by
  have hk : (p : K) + 1 ≠ 0 := by positivity
  unfold emaF Spec.ema Spec.expAvg
  rw [winMean_trend u b g hp (by omega), expRec_trend (by field_simp; ring), show s + p - 1 + (i - (s + p - 1)) = i by omega]

theorem smmaF_trend (u b g : K) {p s i : ℕ} (hp : 1 ≤ p) (hi : s + p ≤ i + 1) :
    smmaF p (fun j => u + b * (j - g)) s i =
      u + b * (i - (g + (((p : K) - 1) - ((p : K) - 1) / 2 * (1 - 1 / p) ^ (i + 1 - (s + p))))) := by
  have hk : (p : K) ≠ 0 := by exact_mod_cast (by omega : p ≠ 0)
  unfold smmaF Spec.smma Spec.expAvg
  rw [winMean_trend u b g hp (by omega)]
  have key : ∀ j : ℕ, Spec.expRec (1 / (p : K)) (fun j => u + b * (j - g)) (s + p - 1)
      (u + b * ((s + p - 1 : ℕ) - (g + ((p : K) - 1) / 2))) j =
      u + b * ((s + p - 1 + j : ℕ) - (g + (((p : K) - 1) - ((p : K) - 1) / 2 * (1 - 1 / p) ^ j))) := fun j => by
    induction j with
    | zero => rw [Spec.expRec]; simp only [pow_zero, add_zero]; ring
    | succ j ih =>
      rw [Spec.expRec, ih, pow_succ]
      push_cast
      have h1 : (p : K) * (1 / p) = 1 := by field_simp
      linear_combination b * h1
  rw [key, show s + p - 1 + (i - (s + p - 1)) = i by omega, show i - (s + p - 1) = i + 1 - (s + p) by omega]

theorem wmaF_trend (u b g : K) {p s i : ℕ} (hp : 1 ≤ p) (hi : s + p ≤ i + 1) :
    wmaF p (fun j => u + b * (j - g)) s i = u + b * (i - (g + ((p : K) - 1) / 3)) := by
  have hk : (p : K) ≠ 0 := by exact_mod_cast (by omega : p ≠ 0)
  have hk1 : (p : K) + 1 ≠ 0 := by positivity
  have key : ∀ (P I : K) (q : ℕ), ∑ j ∈ range q, (P - j) * (u + b * (I - j)) =
      q * (P * u + P * b * I) - q * ((q : K) - 1) / 2 * (u + b * I + P * b) + b * (((q : K) - 1) * q * (2 * q - 1) / 6) := fun P I q => by
    induction q with
    | zero => simp
    | succ q ih => rw [sum_range_succ, ih]; push_cast; ring
  unfold wmaF Spec.wma
  rw [sum_linear, sum_congr rfl (g := fun j : ℕ => ((p : K) - j) * (u + b * ((i - g) - (j : K)))) fun j hj => ?_, key]
  · field_simp
    ring
  · have := mem_range.1 hj
    simp only [Nat.cast_sub (show j ≤ i by omega), Nat.cast_sub (show j ≤ p by omega)]; ring

theorem trimaF_trend (u b g : K) {p s i : ℕ} (hp : 1 ≤ p) (hi : s + p ≤ i + 1) :
    trimaF p (fun j => u + b * (j - g)) s i = u + b * (i - (g + ((p : K) - 1) / 2)) := by
  let w : ℕ → K := fun k => ((min (k + 1) (p - k) : ℕ) : K)
  have hw : (∑ k ∈ range p, w k) ≠ 0 := by
    refine ne_of_gt (sum_pos (fun k hk => ?_) ⟨0, mem_range.2 (by omega)⟩)
    have := mem_range.1 hk
    show (0 : K) < ((min (k + 1) (p - k) : ℕ) : K)
    exact_mod_cast (by omega : 0 < min (k + 1) (p - k))
  have hsym : ∑ k ∈ range p, w k * (k : K) = ∑ k ∈ range p, w k * (((p : K) - 1) - k) := by
    rw [← sum_range_reflect]
    refine sum_congr rfl fun k hk => ?_
    have := mem_range.1 hk
    rw [show w (p - 1 - k) = w k from by
      show ((min (p - 1 - k + 1) (p - (p - 1 - k)) : ℕ) : K) = ((min (k + 1) (p - k) : ℕ) : K)
      congr 1; omega, show p - 1 - k = p - (k + 1) by omega, Nat.cast_sub (by omega)]
    push_cast; ring
  have h2 : ∑ k ∈ range p, w k * (k : K) = ((p : K) - 1) / 2 * ∑ k ∈ range p, w k := by
    simp only [mul_sub, mul_one, sum_sub_distrib] at hsym
    rw [← sum_mul] at hsym
    linear_combination (1 / 2 : K) * hsym
  show (∑ k ∈ range p, w k * (u + b * (((i - k : ℕ) : K) - g))) / (∑ k ∈ range p, w k) = _
  rw [div_eq_iff hw, sum_congr rfl (g := fun k : ℕ => w k * (u + b * (i - g)) - b * (w k * (k : K))) fun k hk => ?_]
  · rw [sum_sub_distrib, ← sum_mul, ← mul_sum, h2]; ring
  · have := mem_range.1 hk
    rw [Nat.cast_sub (by omega)]; ring

/-! ## The indicators -/

theorem _root_.Spec.Trend.cast {m' : ℕ} {h' : K} (ht : Trend a n m u b h) (hm : m = m') (hh : h = h') : Trend a n m' u b h' := hm ▸ hh ▸ ht

theorem lags_of {f : MA (Ext K)} {F : ℕ → (ℕ → K) → ℕ → ℕ → K} {e : ℕ → ℕ} (hf : IsMA f F e) {p : ℕ} (hp : 1 ≤ p) {h : K}
    (hF : ∀ (u b g : K) (s i : ℕ), s + e p + 1 ≤ i + 1 → F p (fun j => u + b * (j - g)) s i = u + b * (i - (g + h))) :
    Lags (f p) (e p) h := fun l n m u b g ht hn => by
  have hm := RepW.pos ht
  obtain ⟨r, e1, s1⟩ := hf p hp l n m _ ht hn
  exact ⟨r, e1, (shows_congr s1 rfl fun i h1 h2 => hF u b g (m - 1) i (by omega)).toRepW⟩

/-- **C134** In a steady trend sma, ema and trima show the price of `(p - 1) / 2` bars ago, wma that of `(p - 1) / 3` bars ago: from the
first value on, although the ema starts with a mean. -/
theorem C134_averages {p : ℕ} (hp : 1 ≤ p) :
    Lags (Ind.sma p) (p - 1) (((p : K) - 1) / 2) ∧ Lags (Ind.ema p) (p - 1) (((p : K) - 1) / 2) ∧
      Lags (Ind.trima p) (p - 1) (((p : K) - 1) / 2) ∧ Lags (Ind.wma p) (p - 1) (((p : K) - 1) / 3) := by
  refine ⟨lags_of (e := ext1) sma_isMA hp fun u b g s i hi => ?_, lags_of (e := ext1) ema_isMA hp fun u b g s i hi => ?_,
    lags_of (e := ext1) trima_isMA hp fun u b g s i hi => ?_, lags_of (e := ext1) wma_isMA hp fun u b g s i hi => ?_⟩ <;>
  unfold ext1 at hi
  · exact winMean_trend u b g hp (by omega)
  · exact emaF_trend u b g hp (by omega)
  · exact trimaF_trend u b g hp (by omega)
  · exact wmaF_trend u b g hp (by omega)

/-- **C134** Wilder's average starts `(p - 1) / 2` bars behind the trend, as the others, and falls back to `p - 1` bars: the difference to
this shrinks by the factor `1 - 1/p` each bar. -/
theorem C134_smma {p : ℕ} (hp : 1 ≤ p) (ha : Trend a n m u b h) (hn : m + (p - 1) ≤ n) :
    Gives (Ind.smma p a) fun r => Shows r n (m + (p - 1)) fun i =>
      u + b * (i - (h + (((p : K) - 1) - ((p : K) - 1) / 2 * (1 - 1 / p) ^ (i + 1 - (m + (p - 1)))))) := by
  have hm := RepW.pos ha
  refine (smma_isMA p hp a n m _ ha hn).imp fun r hr => shows_congr hr rfl fun i h1 h2 => ?_
  rw [smmaF_trend u b h hp (by omega), show m - 1 + p = m + (p - 1) by omega]

/-- **C134** dema and tema have no lag: in a steady trend they show the price itself. t3 lags `3 (1 - v) (p - 1) / 2` bars. -/
theorem C134_fast {p : ℕ} (hp : 1 ≤ p) (v : K) :
    Lags (Ind.dema Ind.ema p) (2 * (p - 1)) (0 : K) ∧ Lags (Ind.tema Ind.ema p) (3 * (p - 1)) (0 : K) ∧
      Lags (Ind.t3 (fin v) p) (6 * (p - 1)) (3 * (1 - v) * (((p : K) - 1) / 2)) := by
  have hf : Lags (Ind.ema p) (p - 1) (((p : K) - 1) / 2) := (C134_averages hp).2.1
  refine ⟨fun l n m u b g ht hn => ?_, fun l n m u b g ht hn => ?_, fun l n m u b g ht hn => ?_⟩
  · obtain ⟨r1, e1, h1⟩ := hf l n m u b g ht (by omega)
    obtain ⟨r2, e2, h2⟩ := hf r1 n _ u b _ h1 (by omega)
    refine ⟨rmulS (lit 2) r1 - r2, ?_, ?_⟩
    · simp only [Ind.dema, e1, e2, bind, Except.bind, pure, Except.pure]
    · rw [show (lit 2 : Ext K) = fin 2 by simp]
      exact (shows_congr (Holds.sub (Holds.rmulS h1 2).toRepW h2) (by omega) fun i _ _ => by ring).toRepW
  · obtain ⟨r1, e1, h1⟩ := hf l n m u b g ht (by omega)
    obtain ⟨r2, e2, h2⟩ := hf r1 n _ u b _ h1 (by omega)
    obtain ⟨r3, e3, h3⟩ := hf r2 n _ u b _ h2 (by omega)
    refine ⟨rmulS (lit 3) r1 - rmulS (lit 3) r2 + r3, ?_, ?_⟩
    · simp only [Ind.tema, e1, e2, e3, bind, Except.bind, pure, Except.pure]
    · rw [show (lit 3 : Ext K) = fin 3 by simp]
      exact (shows_congr (Holds.add (Holds.sub (Holds.rmulS h1 3).toRepW (Holds.rmulS h2 3).toRepW).toRepW h3) (by omega)
        fun i _ _ => by ring).toRepW
  · obtain ⟨r1, e1, h1⟩ := hf l n m u b g ht (by omega)
    obtain ⟨r2, e2, h2⟩ := hf r1 n _ u b _ h1 (by omega)
    obtain ⟨r3, e3, h3⟩ := hf r2 n _ u b _ h2 (by omega)
    obtain ⟨r4, e4, h4⟩ := hf r3 n _ u b _ h3 (by omega)
    obtain ⟨r5, e5, h5⟩ := hf r4 n _ u b _ h4 (by omega)
    obtain ⟨r6, e6, h6⟩ := hf r5 n _ u b _ h5 (by omega)
    have hr := Holds.add (Holds.add (Holds.add (Holds.rmulS h6 (-(v * v * v))).toRepW
      (Holds.rmulS h5 (3 * (v * v) + 3 * (v * v * v))).toRepW).toRepW
      (Holds.rmulS h4 (-6 * (v * v) - 3 * v - 3 * (v * v * v))).toRepW).toRepW
      (Holds.rmulS h3 (1 + 3 * v + v * v * v + 3 * (v * v))).toRepW
    refine ⟨_, ?_, (shows_congr hr (by omega) fun i _ _ => by ring).toRepW⟩
    simp only [Ind.t3, e1, e2, e3, e4, e5, e6, bind, Except.bind, pure, Except.pure, Ext.lit_def, Ext.fin_mul, Ext.fin_add, Ext.fin_sub,
      Ext.fin_neg]
    push_cast
    rfl

/-- **C134** macd (and apo): in a steady trend the line is constant, the slope times half of the difference of the periods; so is the
signal, and the histogram is zero: from their first values on. -/
theorem C134_macd {pfast pslow psig : ℕ} (hp : 1 ≤ pfast) (hp2 : pfast ≤ pslow) (hp3 : 1 ≤ psig) (ha : Trend a n m u b h)
    (hn : m + (pslow - 1) + (psig - 1) ≤ n) :
    (Gives (Ind.apo Ind.ema pfast pslow a) fun r => Shows r n (m + (pslow - 1)) fun _ => b * (((pslow : K) - pfast) / 2)) ∧
    Gives (Ind.macd Ind.ema Ind.ema Ind.ema pfast pslow psig a) fun r =>
      Shows r.1 n (m + (pslow - 1)) (fun _ => b * (((pslow : K) - pfast) / 2)) ∧
      Shows r.2.1 n (m + (pslow - 1) + (psig - 1)) (fun _ => b * (((pslow : K) - pfast) / 2)) ∧
      Shows r.2.2 n (m + (pslow - 1) + (psig - 1)) fun _ => 0 := by
  obtain ⟨r1, e1, h1⟩ := (C134_averages hp).2.1 a n m u b h ha (by omega)
  obtain ⟨r2, e2, h2⟩ := (C134_averages (hp.trans hp2)).2.1 a n m u b h ha (by omega)
  have hd : Shows (r1 - r2) n (m + (pslow - 1)) (fun _ => b * (((pslow : K) - pfast) / 2)) :=
    shows_congr (Holds.sub h1 h2) (by omega) fun i _ _ => by ring
  obtain ⟨r3, e3, h3⟩ := (C134_averages (K := K) hp3).2.1 (r1 - r2) n _ (b * (((pslow : K) - pfast) / 2)) 0 0
    (shows_congr hd rfl fun i _ _ => by ring).toRepW (by omega)
  have hs : Shows r3 n (m + (pslow - 1) + (psig - 1)) (fun _ => b * (((pslow : K) - pfast) / 2)) := by
    obtain ⟨r4, e4, s4⟩ := ema_isMA (K := K) psig hp3 (r1 - r2) n _ _ hd.toRepW (by unfold ext1; omega)
    rw [e3] at e4
    cases e4
    refine shows_congr s4 rfl fun i h1 h2 => ?_
    have hm := hd.toRepW.pos
    have := emaF_trend (b * (((pslow : K) - pfast) / 2)) 0 0 (p := psig) (s := m + (pslow - 1) - 1) (i := i) hp3 (by omega)
    simp only [zero_mul, add_zero] at this
    exact this
  refine ⟨⟨r1 - r2, ?_, hd⟩, ⟨(r1 - r2, r3, r1 - r2 - r3), ?_, hd, hs, ?_⟩⟩
  · simp only [Ind.apo, Ind.posc, e1, e2, bind, Except.bind, pure, Except.pure, Bool.false_eq_true, if_false]
  · simp only [Ind.macd, e1, e2, e3, bind, Except.bind, pure, Except.pure]
  · exact shows_congr (Holds.sub hd.toRepW hs.toRepW) (by omega) fun i _ _ => by ring

/-- **C134** mom is the slope times the period, the middle of the extremes lags `(p - 1) / 2` bars, and in a rising trend the highest
price is the last one and the lowest one that of `p - 1` bars ago. -/
theorem C134_extremes {p : ℕ} (hp : 1 ≤ p) (ha : Trend a n m u b h) :
    Shows (Ind.mom p a) n (m + p) (fun _ => b * p) ∧
      Trend (Ind.midpoint p a) n (m + (p - 1)) u b (h + ((p : K) - 1) / 2) ∧
      (0 ≤ b → Trend (Ind.highest p a) n (m + (p - 1)) u b h ∧ Trend (Ind.lowest p a) n (m + (p - 1)) u b (h + ((p : K) - 1))) ∧
      (b ≤ 0 → Trend (Ind.lowest p a) n (m + (p - 1)) u b h ∧ Trend (Ind.highest p a) n (m + (p - 1)) u b (h + ((p : K) - 1))) := by
  have hm := RepW.pos ha
  have hup : 0 ≤ b → Trend (Ind.highest p a) n (m + (p - 1)) u b h ∧ Trend (Ind.lowest p a) n (m + (p - 1)) u b (h + ((p : K) - 1)) := by
    intro hb
    refine ⟨(shows_congr (Holds.rollMax ha hp) (by omega) fun i h1 h2 => ?_).toRepW,
      (shows_congr (Holds.rollMin ha hp) (by omega) fun i h1 h2 => ?_).toRepW⟩
    · obtain ⟨⟨k, hk, e⟩, h4⟩ := Spec.winMax_isGreatest (fun i : ℕ => u + b * ((i : K) - h)) hp i
      refine le_antisymm ?_ (h4 ⟨0, by omega, rfl⟩)
      rw [e]
      have : ((i - k : ℕ) : K) ≤ i := by exact_mod_cast Nat.sub_le i k
      have := mul_le_mul_of_nonneg_left this hb
      linarith
    · obtain ⟨⟨k, hk, e⟩, h4⟩ := Spec.winMin_isLeast (fun i : ℕ => u + b * ((i : K) - h)) hp i
      have e2 : ((i - (p - 1) : ℕ) : K) = i - ((p : K) - 1) := by
        rw [Nat.cast_sub (by omega), Nat.cast_sub hp, Nat.cast_one]
      refine le_antisymm (le_trans (h4 ⟨p - 1, by omega, rfl⟩) (le_of_eq ?_)) ?_
      · show u + b * (((i - (p - 1) : ℕ) : K) - h) = _
        rw [e2]; ring
      · rw [e]
        have : ((i - (p - 1) : ℕ) : K) ≤ ((i - k : ℕ) : K) := by exact_mod_cast (by omega : i - (p - 1) ≤ i - k)
        rw [e2] at this
        have := mul_le_mul_of_nonneg_left this hb
        linarith
  have hdown : b ≤ 0 → Trend (Ind.lowest p a) n (m + (p - 1)) u b h ∧ Trend (Ind.highest p a) n (m + (p - 1)) u b (h + ((p : K) - 1)) := by
    intro hb
    refine ⟨(shows_congr (Holds.rollMin ha hp) (by omega) fun i h1 h2 => ?_).toRepW,
      (shows_congr (Holds.rollMax ha hp) (by omega) fun i h1 h2 => ?_).toRepW⟩
    · obtain ⟨⟨k, hk, e⟩, h4⟩ := Spec.winMin_isLeast (fun i : ℕ => u + b * ((i : K) - h)) hp i
      refine le_antisymm (h4 ⟨0, by omega, rfl⟩) ?_
      rw [e]
      have : ((i - k : ℕ) : K) ≤ i := by exact_mod_cast Nat.sub_le i k
      have := mul_le_mul_of_nonpos_left this hb
      linarith
    · obtain ⟨⟨k, hk, e⟩, h4⟩ := Spec.winMax_isGreatest (fun i : ℕ => u + b * ((i : K) - h)) hp i
      have e2 : ((i - (p - 1) : ℕ) : K) = i - ((p : K) - 1) := by
        rw [Nat.cast_sub (by omega), Nat.cast_sub hp, Nat.cast_one]
      refine le_antisymm ?_ (le_trans (le_of_eq ?_) (h4 ⟨p - 1, by omega, rfl⟩))
      · rw [e]
        have : ((i - (p - 1) : ℕ) : K) ≤ ((i - k : ℕ) : K) := by exact_mod_cast (by omega : i - (p - 1) ≤ i - k)
        rw [e2] at this
        have := mul_le_mul_of_nonpos_left this hb
        linarith
      · show _ = u + b * (((i - (p - 1) : ℕ) : K) - h)
        rw [e2]; ring
  refine ⟨shows_congr (Holds.diff ha p) rfl fun i h1 h2 => ?_, ?_, hup, hdown⟩
  · rw [Nat.cast_sub (by omega)]; ring
  · show Holds ((Ind.highest p a + Ind.lowest p a).divS (lit 2)) _ _ _
    rw [show (lit 2 : Ext K) = fin 2 by simp]
    rcases le_total 0 b with hb | hb
    · exact (shows_congr (Holds.divS (Holds.add (hup hb).1 (hup hb).2).toRepW (by norm_num)) (by omega) fun i _ _ => by ring).toRepW
    · exact (shows_congr (Holds.divS (Holds.add (hdown hb).2 (hdown hb).1).toRepW (by norm_num)) (by omega) fun i _ _ => by ring).toRepW

/-- **C134** the rolling variance of a steady trend does not change: `b^2 (p^2 - 1) / 12` (divided by `p`; the population variance) -/
theorem C134_var {p : ℕ} (hp : 1 ≤ p) (ha : Trend a n m u b h) :
    Shows (Ind.var 0 p a) n (m + p - 1) fun _ => b ^ 2 * ((p : K) ^ 2 - 1) / 12 := by
  have hm := RepW.pos ha
  have hk : (p : K) ≠ 0 := by exact_mod_cast (by omega : p ≠ 0)
  obtain ⟨v, hv, hv2⟩ := C31_var ha (ddof := 0) (p := p) (by omega)
  refine shows_congr hv rfl fun i h1 h2 => ?_
  rw [(hv2 i h1 h2).1]
  have e1 : (∑ k ∈ range p, (u + b * (((i - k : ℕ) : K) - h))) / p = u + b * (i - (h + ((p : K) - 1) / 2)) :=
    winMean_trend u b h hp (by omega)
  have e2 : ∀ (c : K) (q : ℕ), ∑ k ∈ range q, (b * (c - k)) ^ 2 =
      b ^ 2 * (q * c ^ 2 - c * (q * ((q : K) - 1)) + ((q : K) - 1) * q * (2 * q - 1) / 6) := fun c q => by
    induction q with
    | zero => simp
    | succ q ih => rw [sum_range_succ, ih]; push_cast; ring
  rw [e1, sum_congr rfl (g := fun k : ℕ => (b * (((p : K) - 1) / 2 - (k : K))) ^ 2) fun k hk => ?_, e2]
  · rw [Nat.cast_zero, sub_zero, div_eq_iff hk]; ring
  · have := mem_range.1 hk
    rw [Nat.cast_sub (by omega)]; ring

/-! ## Cases -/

/-- C134, a case: prices 10, 12, 14, ... -/
example (n : ℕ) : Trend (bars n fun i => (10 : ℚ) + 2 * ((i : ℚ) - 0)) n 1 10 2 0 := bars_holds n _
example : (Ind.ema 3 (bars 5 fun i => (10 : ℚ) + 2 * (i : ℚ))).toOption.map (·.series) = some [nan, nan, fin 12, fin 14, fin 16] := by
  decide +kernel
example : (Ind.smma 3 (bars 5 fun i => (10 : ℚ) + 2 * (i : ℚ))).toOption.map (·.series) =
    some [nan, nan, fin 12, fin (40 / 3), fin (134 / 9)] := by
  decide +kernel
example : (Ind.dema Ind.ema 2 (bars 5 fun i => (10 : ℚ) + 2 * (i : ℚ))).toOption.map (·.series) =
    some [nan, nan, fin 14, fin 16, fin 18] := by decide +kernel
example : Gives (Ind.macd Ind.ema Ind.ema Ind.ema 12 26 9 (bars 100 fun i => (10 : ℚ) + 2 * ((i : ℚ) - 0))) fun r =>
    Shows r.2.2 100 34 fun _ => 0 :=
  (C134_macd (by norm_num) (by norm_num) (by norm_num) (bars_holds 100 _) (by norm_num)).2.imp fun _ h => h.2.2

end Bta
