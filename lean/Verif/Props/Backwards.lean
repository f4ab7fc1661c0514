import Verif.Props.Stat
import Verif.Props.More
import Verif.Props.Price
import Verif.Props.Compare
import Verif.Props.Cross

/-!
# The chart read backwards (C147)

The bars in reverse order.  A window of bars has the same members, read the other way round, so what does not depend on their order
is the same number, at the bar with which the window ends in the original chart.
-/

namespace Spec

/-- the data of `n` bars, last bar first -/
def backwards {α : Type} (n : ℕ) (x : ℕ → α) (i : ℕ) : α := x (n - 1 - i)

/-- the bar of the original chart which is the last one of the window of `p` bars ending at bar `i` of the reversed one -/
def other (n p i : ℕ) : ℕ := n - 1 - i + (p - 1)

end Spec

set_option linter.unusedSectionVars false

namespace Bta
open Line Ext Ind Finset

variable {K : Type} [Field K] [LinearOrder K] [IsStrictOrderedRing K] {n p i : ℕ}

theorem back_sum {M : Type} [AddCommMonoid M] (F : ℕ → M) (hi : i < n) (hp : 1 ≤ p) (hpi : p ≤ i + 1) :
    ∑ k ∈ range p, F (n - 1 - (i - k)) = ∑ k ∈ range p, F (Spec.other n p i - k) := by
  rw [← sum_range_reflect]
  refine sum_congr rfl fun k hk => ?_
  have := mem_range.mp hk
  unfold Spec.other
  congr 1
  omega

theorem back_mean (x : ℕ → K) (hi : i < n) (hp : 1 ≤ p) (hpi : p ≤ i + 1) :
    Spec.winMean (Spec.backwards n x) p i = Spec.winMean x p (Spec.other n p i) := by
  unfold Spec.winMean Spec.winSum Spec.backwards
  rw [back_sum x hi hp hpi]

theorem back_var (x : ℕ → K) (ddof : ℕ) (hi : i < n) (hp : 1 ≤ p) (hpi : p ≤ i + 1) :
    Spec.winVar ddof (Spec.backwards n x) p i = Spec.winVar ddof x p (Spec.other n p i) := by
  unfold Spec.winVar
  rw [back_mean x hi hp hpi]
  unfold Spec.backwards
  rw [back_sum (fun j => (x j - Spec.winMean x p (Spec.other n p i)) ^ 2) hi hp hpi]

theorem back_set (x : ℕ → K) (hi : i < n) (hpi : p ≤ i + 1) :
    {y | ∃ j, j < p ∧ y = Spec.backwards n x (i - j)} = {y | ∃ j, j < p ∧ y = x (Spec.other n p i - j)} := by
  unfold Spec.backwards Spec.other
  ext y
  constructor
  · rintro ⟨j, hj, rfl⟩
    exact ⟨p - 1 - j, by omega, congrArg x (by omega)⟩
  · rintro ⟨j, hj, rfl⟩
    exact ⟨p - 1 - j, by omega, congrArg x (by omega)⟩

theorem back_max (x : ℕ → K) (hi : i < n) (hp : 1 ≤ p) (hpi : p ≤ i + 1) :
    Spec.winMax (Spec.backwards n x) p i = Spec.winMax x p (Spec.other n p i) := by
  have h1 := Spec.winMax_isGreatest (Spec.backwards n x) hp i
  rw [back_set x hi hpi] at h1
  exact h1.unique (Spec.winMax_isGreatest x hp _)

theorem back_min (x : ℕ → K) (hi : i < n) (hp : 1 ≤ p) (hpi : p ≤ i + 1) :
    Spec.winMin (Spec.backwards n x) p i = Spec.winMin x p (Spec.other n p i) := by
  have h1 := Spec.winMin_isLeast (Spec.backwards n x) hp i
  rw [back_set x hi hpi] at h1
  exact h1.unique (Spec.winMin_isLeast x hp _)

/-- two results which show functions of the data agree if the functions do -/
theorem back_value {r r' : Line (Ext K)} {m : ℕ} {f g : ℕ → Ext K} (hr : Delivers r n m g) (hr' : Delivers r' n m f) (hp : 1 ≤ p)
    (hm : m ≤ p) (hi : i < n) (hpi : p ≤ i + 1) (e : g i = f (Spec.other n p i)) : r.series[i]? = r'.series[Spec.other n p i]? := by
  have h1 : Spec.other n p i < n := by unfold Spec.other; omega
  have h2 : m ≤ Spec.other n p i + 1 := by unfold Spec.other; omega
  rw [hr.val i (by omega) hi, hr'.val _ h2 h1, e]

/-- **C147** sums, averages, extremes and measures of spread of a window are the same in the chart read backwards. -/
theorem C147_windows (x : ℕ → K) (hp : 1 ≤ p) (hpi : p ≤ i + 1) (hi : i < n) :
    (Ind.sumN p (bars n (Spec.backwards n x))).series[i]? = (Ind.sumN p (bars n x)).series[Spec.other n p i]? ∧
    (Ind.highest p (bars n (Spec.backwards n x))).series[i]? = (Ind.highest p (bars n x)).series[Spec.other n p i]? ∧
    (Ind.lowest p (bars n (Spec.backwards n x))).series[i]? = (Ind.lowest p (bars n x)).series[Spec.other n p i]? ∧
    (Ind.mad p (bars n (Spec.backwards n x))).series[i]? = (Ind.mad p (bars n x)).series[Spec.other n p i]? ∧
    (∀ ddof, ddof < p → (Ind.var ddof p (bars n (Spec.backwards n x))).series[i]? = (Ind.var ddof p (bars n x)).series[Spec.other n p i]?) ∧
    (∀ (sq : Ext K → Ext K) (ddof : ℕ), ddof < p →
      (Ind.stddev sq ddof p (bars n (Spec.backwards n x))).series[i]? = (Ind.stddev sq ddof p (bars n x)).series[Spec.other n p i]?) := by
  have hx := bars_holds n x
  have hy := bars_holds n (Spec.backwards n x)
  refine ⟨?_, ?_, ?_, ?_, fun ddof hd => ?_, fun sq ddof hd => ?_⟩
  · refine back_value (hy.rollSum hp) (hx.rollSum hp) hp (by omega) hi hpi ?_
    beta_reduce
    unfold Spec.winSum Spec.backwards
    rw [back_sum x hi hp hpi]
  · refine back_value (hy.rollMax hp) (hx.rollMax hp) hp (by omega) hi hpi ?_
    beta_reduce
    rw [back_max x hi hp hpi]
  · refine back_value (hy.rollMin hp) (hx.rollMin hp) hp (by omega) hi hpi ?_
    beta_reduce
    rw [back_min x hi hp hpi]
  · refine back_value (mad_shows hy hp) (mad_shows hx hp) hp (by omega) hi hpi ?_
    unfold Spec.winMad
    rw [back_mean x hi hp hpi]
    unfold Spec.backwards
    rw [back_sum (fun j => |x j - Spec.winMean x p (Spec.other n p i)|) hi hp hpi]
  · refine back_value (hy.var hd) (hx.var hd) hp (by omega) hi hpi ?_
    beta_reduce
    rw [back_var x ddof hi hp hpi]
  · refine back_value (C31_stddev hy sq hd) (C31_stddev hx sq hd) hp (by omega) hi hpi ?_
    exact congrArg (fun v => sq (fin v)) (back_var x ddof hi hp hpi)

/-- **C147** so are the simple and the triangular average. -/
theorem C147_averages (x : ℕ → K) (hp : 1 ≤ p) (hpi : p ≤ i + 1) (hi : i < n) :
    (∃ r s, Ind.sma p (bars n (Spec.backwards n x)) = .ok r ∧ Ind.sma p (bars n x) = .ok s ∧ r.series[i]? = s.series[Spec.other n p i]?) ∧
    ∃ r s, Ind.trima p (bars n (Spec.backwards n x)) = .ok r ∧ Ind.trima p (bars n x) = .ok s ∧ r.series[i]? = s.series[Spec.other n p i]? := by
  have hx := bars_holds n x
  have hy := bars_holds n (Spec.backwards n x)
  refine ⟨⟨_, _, rfl, rfl, back_value (hy.rollMean hp) (hx.rollMean hp) hp (by omega) hi hpi ?_⟩, ?_⟩
  · beta_reduce
    rw [back_mean x hi hp hpi]
  · obtain ⟨r, hr, h1⟩ := C17_trima hy hp (by omega)
    obtain ⟨s, hs, h2⟩ := C17_trima hx hp (by omega)
    refine ⟨r, s, hr, hs, back_value h1 h2 hp (by omega) hi hpi ?_⟩
    beta_reduce
    congr 2
    rw [← sum_range_reflect]
    refine sum_congr rfl fun k hk => ?_
    have := mem_range.mp hk
    have e1 : min (p - 1 - k + 1) (p - (p - 1 - k)) = min (k + 1) (p - k) := by omega
    have e2 : n - 1 - (i - (p - 1 - k)) = Spec.other n p i - k := by unfold Spec.other; omega
    unfold Spec.backwards
    rw [e1, e2]

/-- **C147** rises become falls: the change over `s` bars and the slope of the regression change sign, the regression and its value at
the first bar of the window change places, and so do the forecast for the next bar and the value before the first. -/
theorem C147_mom (x : ℕ → K) {s : ℕ} (hsi : s ≤ i) (hi : i < n) :
    ∃ v, (Ind.mom s (bars n x)).series[n - 1 - i + s]? = some (fin v) ∧
      (Ind.mom s (bars n (Spec.backwards n x))).series[i]? = some (fin (-v)) := by
  refine ⟨x (n - 1 - i + s) - x (n - 1 - i), ?_, ?_⟩
  · rw [(C44_mom (bars_holds n x) s).val _ (by omega) (by omega)]
    beta_reduce
    rw [show n - 1 - i + s - s = n - 1 - i by omega]
  · rw [(C44_mom (bars_holds n (Spec.backwards n x)) s).val _ (by omega) (by omega)]
    unfold Spec.backwards
    beta_reduce
    rw [show n - 1 - (i - s) = n - 1 - i + s by omega]
    congr 2
    ring

theorem back_line (x : ℕ → K) (hp : 1 ≤ p) (hpi : p ≤ i + 1) (hi : i < n) (s y : K) :
    Spec.BestLine (Spec.backwards n x) p i s y ↔ Spec.BestLine x p (Spec.other n p i) (-s) (y - s * ((p : K) - 1)) := by
  have key : ∀ s y : K, ∑ k ∈ range p, (Spec.backwards n x (i - k) - (y - s * k)) ^ 2 =
      ∑ k ∈ range p, (x (Spec.other n p i - k) - ((y - s * ((p : K) - 1)) - (-s) * k)) ^ 2 := fun s y => by
    rw [← sum_range_reflect]
    refine sum_congr rfl fun k hk => ?_
    have hk := mem_range.mp hk
    have e2 : n - 1 - (i - (p - 1 - k)) = Spec.other n p i - k := by unfold Spec.other; omega
    have e3 : ((p - 1 - k : ℕ) : K) = (p : K) - 1 - k := by
      rw [Nat.cast_sub (by omega), Nat.cast_sub hp]; simp
    unfold Spec.backwards
    rw [e2, e3]
    congr 1
    ring
  unfold Spec.BestLine
  constructor
  · intro h s' y'
    have := h (-s') (y' - s' * ((p : K) - 1))
    rw [key, key] at this
    refine this.trans (le_of_eq (sum_congr rfl fun k _ => ?_))
    ring
  · intro h s' y'
    have := h (-s') (y' - s' * ((p : K) - 1))
    rw [key, key]
    exact this

theorem C147_linreg (x : ℕ → K) (hp : 2 ≤ p) (hpi : p ≤ i + 1) (hi : i < n) :
    (∃ v, (Ind.linregSlope p (bars n x)).series[Spec.other n p i]? = some (fin v) ∧
      (Ind.linregSlope p (bars n (Spec.backwards n x))).series[i]? = some (fin (-v))) ∧
    (Ind.linreg p (bars n (Spec.backwards n x))).series[i]? = (Ind.linregIntercept true p (bars n x)).series[Spec.other n p i]? ∧
    (Ind.linregIntercept true p (bars n (Spec.backwards n x))).series[i]? = (Ind.linreg p (bars n x)).series[Spec.other n p i]? ∧
    (Ind.tsf p (bars n (Spec.backwards n x))).series[i]? = (Ind.linregIntercept false p (bars n x)).series[Spec.other n p i]? ∧
    (Ind.linregIntercept false p (bars n (Spec.backwards n x))).series[i]? = (Ind.tsf p (bars n x)).series[Spec.other n p i]? := by
  obtain ⟨s, y, hu, h1, h2, h3, h4, h5⟩ := C32_linreg (bars_holds n x) hp
  obtain ⟨s', y', hu', h1', h2', h3', h4', h5'⟩ := C32_linreg (bars_holds n (Spec.backwards n x)) hp
  have o1 : Spec.other n p i < n := by unfold Spec.other; omega
  have o2 : 1 + p - 1 ≤ Spec.other n p i + 1 := by unfold Spec.other; omega
  have hb := (back_line x (by omega) hpi hi _ _).mp ((hu' i (by omega) hi (s' i) (y' i)).mpr ⟨rfl, rfl⟩)
  obtain ⟨e1, e2⟩ := (hu _ o2 o1 _ _).mp hb
  have hp1 : 1 ≤ p := by omega
  refine ⟨⟨s (Spec.other n p i), h1.val _ o2 o1, by rw [h1'.val i (by omega) hi, ← e1, neg_neg]⟩, ?_, ?_, ?_, ?_⟩
  · refine back_value h2' h4 hp1 (by omega) hi hpi ?_
    beta_reduce
    rw [← e1, ← e2]; congr 1; ring
  · refine back_value h4' h2 hp1 (by omega) hi hpi ?_
    beta_reduce
    rw [← e2]
  · refine back_value h3' h5 hp1 (by omega) hi hpi ?_
    beta_reduce
    rw [← e1, ← e2]; congr 1; ring
  · refine back_value h5' h3 hp1 (by omega) hi hpi ?_
    beta_reduce
    rw [← e1, ← e2]; congr 1; ring

/-- **C147** beta of two lines (prices, not changes) does not depend on the direction either. -/
theorem C147_beta (x y : ℕ → K) (hp : 1 ≤ p) (hpi : p ≤ i + 1) (hi : i < n) :
    (Ind.beta false 1 p (bars n (Spec.backwards n x)) (bars n (Spec.backwards n y))).series[i]? =
      (Ind.beta false 1 p (bars n x) (bars n y)).series[Spec.other n p i]? := by
  refine back_value (beta_core (bars_holds n _) (bars_holds n _) hp) (beta_core (bars_holds n x) (bars_holds n y) hp) hp (by omega) hi hpi ?_
  unfold lsDet Spec.backwards
  rw [back_sum (fun j => x j * y j) hi hp hpi, back_sum x hi hp hpi, back_sum y hi hp hpi, back_sum (fun j => x j ^ 2) hi hp hpi]

theorem back_flat (x : ℕ → K) (hpi : p ≤ i + 1) (hi : i < n) :
    Spec.Flat (Spec.backwards n x) p i ↔ Spec.Flat x p (Spec.other n p i) := by
  unfold Spec.Flat Spec.backwards Spec.other
  constructor
  · intro h j k hj hk
    have := h (p - 1 - j) (p - 1 - k) (by omega) (by omega)
    rwa [show n - 1 - (i - (p - 1 - j)) = n - 1 - i + (p - 1) - j by omega,
      show n - 1 - (i - (p - 1 - k)) = n - 1 - i + (p - 1) - k by omega] at this
  · intro h j k hj hk
    have := h (p - 1 - j) (p - 1 - k) (by omega) (by omega)
    rwa [show n - 1 - i + (p - 1) - (p - 1 - j) = n - 1 - (i - j) by omega,
      show n - 1 - i + (p - 1) - (p - 1 - k) = n - 1 - (i - k) by omega] at this

/-- **C147** nor does the correlation, for any square root. -/
theorem C147_correl (x y : ℕ → K) (hp : 2 ≤ p) (hpi : p ≤ i + 1) (hi : i < n) {sq : Ext K → Ext K} {s : K → K}
    (hsq : ∀ v, 0 ≤ v → sq (fin v) = fin (s v)) (hs : ∀ v, 0 ≤ v → 0 ≤ s v ∧ s v * s v = v) :
    (Ind.correl sq p (bars n (Spec.backwards n x)) (bars n (Spec.backwards n y))).series[i]? =
      (Ind.correl sq p (bars n x) (bars n y)).series[Spec.other n p i]? := by
  have hp1 : 1 ≤ p := by omega
  obtain ⟨ρ, h1, h2⟩ := C33_correl (bars_holds n x) (bars_holds n y) (le_refl 1) hp hsq hs
  obtain ⟨ρ', h1', h2'⟩ := C33_correl (bars_holds n (Spec.backwards n x)) (bars_holds n (Spec.backwards n y)) (le_refl 1) hp hsq hs
  have o1 : Spec.other n p i < n := by unfold Spec.other; omega
  have o2 : 1 + p - 1 ≤ Spec.other n p i + 1 := by unfold Spec.other; omega
  refine back_value h1' h1 hp1 (by omega) hi hpi ?_
  by_cases hf : Spec.Flat x p (Spec.other n p i) ∨ Spec.Flat y p (Spec.other n p i)
  · rw [(h2 _ o2 o1).1 hf, (h2' i (by omega) hi).1 (by rwa [back_flat x hpi hi, back_flat y hpi hi])]
  · obtain ⟨c, e, ec, _, _⟩ := (h2 _ o2 o1).2 hf
    obtain ⟨c', e', ec', _, _⟩ := (h2' i (by omega) hi).2 (by rwa [back_flat x hpi hi, back_flat y hpi hi])
    rw [e, e', ec, ec', back_var x 1 hi hp1 hpi, back_var y 1 hi hp1 hpi]
    congr 2
    unfold Spec.winCov
    rw [back_mean x hi hp1 hpi, back_mean y hi hp1 hpi]
    unfold Spec.backwards
    rw [back_sum (fun j => (x j - Spec.winMean x p (Spec.other n p i)) * (y j - Spec.winMean y p (Spec.other n p i))) hi hp1 hpi]

/-- **C147** a strict crossing upwards is one downwards, seen in the bar before which it took place, and the other way round. -/
theorem C147_crosses (x y : ℕ → K) (h1 : 1 ≤ i) (hi : i < n) :
    (∃ v, (Ind.crossdown true (bars n x) (bars n y)).series[n - i]? = some (fin v) ∧
      (Ind.crossup true (bars n (Spec.backwards n x)) (bars n (Spec.backwards n y))).series[i]? = some (fin (-v))) ∧
    ∃ v, (Ind.crossup true (bars n x) (bars n y)).series[n - i]? = some (fin v) ∧
      (Ind.crossdown true (bars n (Spec.backwards n x)) (bars n (Spec.backwards n y))).series[i]? = some (fin (-v)) := by
  have key : ∀ x y : ℕ → K, Spec.CrossUp true (Spec.backwards n x) (Spec.backwards n y) (max 1 1 - 1) i ↔
      Spec.CrossUp true y x (max 1 1 - 1) (n - i) := fun x y => by
    unfold Spec.CrossUp Spec.backwards
    constructor
    · rintro ⟨q1, j, _, _, q2, _, q3⟩
      have := q3 rfl
      obtain rfl : j = i - 1 := by omega
      rw [show n - 1 - (i - 1) = n - i by omega] at q2
      exact ⟨q2, n - 1 - i, by omega, by omega, q1, fun k _ _ => by omega, fun _ => by omega⟩
    · rintro ⟨q1, j, _, _, q2, _, q3⟩
      have := q3 rfl
      obtain rfl : j = n - 1 - i := by omega
      refine ⟨q2, i - 1, by omega, by omega, ?_, fun k _ _ => by omega, fun _ => by omega⟩
      rwa [show n - 1 - (i - 1) = n - i by omega]
  obtain ⟨u, d, hu, hd, h⟩ := C36_cross true (bars_holds n x) (bars_holds n y)
  obtain ⟨u', d', hu', hd', h'⟩ := C36_cross true (bars_holds n (Spec.backwards n x)) (bars_holds n (Spec.backwards n y))
  obtain ⟨a1, a2, a3, a4⟩ := h (n - i) (by simp; omega) (by omega)
  obtain ⟨b1, b2, b3, b4⟩ := h' i (by simp; omega) hi
  refine ⟨⟨d (n - i), hd.val _ (by simp; omega) (by omega), ?_⟩, ⟨u (n - i), hu.val _ (by simp; omega) (by omega), ?_⟩⟩
  · rw [hu'.val _ (by simp; omega) hi]
    congr 2
    by_cases hc : Spec.CrossUp true y x (max 1 1 - 1) (n - i)
    · rw [a3 hc, b1 ((key x y).mpr hc), neg_neg]
    · rw [a4 hc, b2 (fun q => hc ((key x y).mp q)), neg_zero]
  · rw [hd'.val _ (by simp; omega) hi]
    congr 2
    by_cases hc : Spec.CrossUp true x y (max 1 1 - 1) (n - i)
    · rw [a1 hc, b3 ((key y x).mpr hc)]
    · rw [a2 hc, b4 (fun q => hc ((key y x).mp q)), neg_zero]

/-- **C147** others do not have this symmetry: a crossing with equal bars in it is reported where it ends, which in the reversed chart is
where it begins; a weighted average gives the end of its window more weight. -/
theorem C147_others_false :
    (¬ ∀ (x y : ℕ → ℚ) (n i : ℕ), 1 ≤ i → i < n →
      ∃ v, (Ind.crossdown false (bars n x) (bars n y)).series[n - i]? = some (fin v) ∧
        (Ind.crossup false (bars n (Spec.backwards n x)) (bars n (Spec.backwards n y))).series[i]? = some (fin (-v))) ∧
    ¬ ∀ (x : ℕ → ℚ) (n p i : ℕ), 1 ≤ p → p ≤ i + 1 → i < n →
      ((Ind.wma p (bars n (Spec.backwards n x))).toOption.bind (·.series[i]?)) =
        ((Ind.wma p (bars n x)).toOption.bind (·.series[Spec.other n p i]?)) := by
  constructor
  · intro h
    obtain ⟨v, h1, h2⟩ := h (fun i => 1 - (i : ℚ)) (fun _ => 0) 3 2 (by decide) (by decide)
    have e1 : (Ind.crossdown false (bars 3 fun i => 1 - (i : ℚ)) (bars 3 fun _ => (0 : ℚ))).series[3 - 2]? = some (fin 0) := by
      decide +kernel
    have e2 : (Ind.crossup false (bars 3 (Spec.backwards 3 fun i => 1 - (i : ℚ))) (bars 3 (Spec.backwards 3 fun _ => (0 : ℚ)))).series[2]? =
        some (fin 1) := by decide +kernel
    rw [e1] at h1
    rw [e2] at h2
    simp only [Option.some.injEq, Ext.fin.injEq] at h1 h2
    rw [← h1] at h2
    norm_num at h2
  · intro h
    exact absurd (h (fun i => (i : ℚ)) 2 2 1 (by decide) (by decide) (by decide)) (by decide +kernel)

/-- non-vacuity: six bars and their reverse; the window of three bars ending at bar 3 of the reverse ends at bar 4 of the chart -/
example : Spec.other 6 3 3 = 4 ∧ Ind.sumN 3 exData = ⟨[.nan, .nan, .fin 7, .fin 13, .fin 22, .fin 34], 3⟩ ∧
    Ind.sumN 3 (bars 6 (Spec.backwards 6 fun i => (1 + (i * (i + 1) / 2 : ℕ) : ℚ))) = ⟨[.nan, .nan, .fin 34, .fin 22, .fin 13, .fin 7], 3⟩ := by
  decide +kernel

/-- non-vacuity of `C147_linreg`: the slopes of the same windows -/
example : Ind.linregSlope 3 exData = ⟨[.nan, .nan, .fin (3/2), .fin (5/2), .fin (7/2), .fin (9/2)], 3⟩ ∧
    Ind.linregSlope 3 (bars 6 (Spec.backwards 6 fun i => (1 + (i * (i + 1) / 2 : ℕ) : ℚ))) =
      ⟨[.nan, .nan, .fin (-9/2), .fin (-7/2), .fin (-5/2), .fin (-3/2)], 3⟩ := by decide +kernel

/-- non-vacuity of `C147_correl`: the square root of the reals -/
example (x y : ℕ → ℝ) : (Ind.correl sqrtR 5 (bars 100 (Spec.backwards 100 x)) (bars 100 (Spec.backwards 100 y))).series[20]? =
    (Ind.correl sqrtR 5 (bars 100 x) (bars 100 y)).series[83]? :=
  C147_correl x y (by decide) (by decide) (by decide) (fun _ _ => rfl) (fun v hv => ⟨Real.sqrt_nonneg v, Real.mul_self_sqrt hv⟩)

/-- non-vacuity of `C147_crosses`: a crossing at bar 2 of four, seen at bar 2 of the reverse -/
example : (Ind.crossup true (bars 4 fun i => ((2 * i : ℕ) : ℚ)) (bars 4 fun _ => (3 : ℚ))).series[2]? = some (fin (1 : ℚ)) ∧
    (Ind.crossdown true (bars 4 (Spec.backwards 4 fun i => ((2 * i : ℕ) : ℚ))) (bars 4 (Spec.backwards 4 fun _ => (3 : ℚ)))).series[2]? =
      some (fin (-1 : ℚ)) := by decide +kernel

end Bta
