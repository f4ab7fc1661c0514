import Verif.Props.Cross
import Verif.Props.Osc
import Verif.Props.Stat
import Verif.Props.More
import Verif.Props.Price

/-!
# Bars filled forward and bars recorded several times (C145)

Where there was no trade, data providers repeat the last bar.  Signals of crosses and the on balance volume are those of
the bars which remain when repetitions are left out.  If every bar is recorded `k` times, windows which are `k` times as
long show the same.
-/

set_option linter.unusedSectionVars false

/-- `f i` is the number of the bar shown at bar `i` of the filled data: each bar is the next one or a repetition. -/
structure Spec.Fills (f : ℕ → ℕ) : Prop where
  zero : f 0 = 0
  step : ∀ i, f (i + 1) = f i ∨ f (i + 1) = f i + 1

namespace Bta
open Line Ext Ind Finset

variable {K : Type} [Field K] [LinearOrder K] [IsStrictOrderedRing K] {n n' : ℕ} {a b a' b' c v c' v' : Line (Ext K)}
  {x y C W W' : ℕ → K} {f : ℕ → ℕ}

theorem Fills.mono (hf : Spec.Fills f) {i j : ℕ} (h : i ≤ j) : f i ≤ f j := by
  induction j with
  | zero => obtain rfl : i = 0 := by omega
            exact le_rfl
  | succ j ih =>
    rcases Nat.lt_or_ge j i with h1 | h1
    · obtain rfl : i = j + 1 := by omega
      exact le_rfl
    · have := ih h1
      rcases hf.step j with h2 | h2 <;> omega

theorem Fills.last (hf : Spec.Fills f) {t : ℕ} : ∀ i, t < f i → ∃ j, j < i ∧ f j = t ∧ f (j + 1) = t + 1 := by
  intro i
  induction i with
  | zero => intro h; rw [hf.zero] at h; omega
  | succ i ih =>
    intro h
    rcases Nat.lt_or_ge t (f i) with h1 | h1
    · obtain ⟨j, j1, j2⟩ := ih h1
      exact ⟨j, by omega, j2⟩
    · rcases hf.step i with h2 | h2
      · omega
      · exact ⟨i, by omega, by omega, by omega⟩

theorem crossUp_filled (strict : Bool) (hf : Spec.Fills f) (x y : ℕ → K) {i : ℕ} (hi : 1 ≤ i) :
    Spec.CrossUp strict (fun j => x (f j)) (fun j => y (f j)) 0 i ↔ f i ≠ f (i - 1) ∧ Spec.CrossUp strict x y 0 (f i) := by
  have hs : f i = f (i - 1) ∨ f i = f (i - 1) + 1 := by
    have := hf.step (i - 1)
    rwa [Nat.sub_add_cancel hi] at this
  constructor
  · rintro ⟨h1, j, _, j2, j3, j4, j5⟩
    simp only at h1 j3 j4
    have hne : f i ≠ f j := fun h => by rw [h] at h1; exact absurd h1 (not_lt.mpr j3.le)
    have hle := Fills.mono hf j2.le
    have hd : f i ≠ f (i - 1) := fun h => by
      rcases Nat.lt_or_ge j (i - 1) with h2 | h2
      · have := j4 (i - 1) h2 (by omega)
        rw [← h] at this
        exact absurd this h1.ne'
      · obtain rfl : j = i - 1 := by omega
        exact hne h
    refine ⟨hd, h1, f j, by omega, by omega, j3, fun t t1 t2 => ?_, fun hst => ?_⟩
    · obtain ⟨k, k1, k2, _⟩ := Fills.last hf i t2
      have hk : j < k := by
        by_contra hc
        have := Fills.mono hf (not_lt.mp hc)
        omega
      have := j4 k hk k1
      rwa [k2] at this
    · have := j5 hst
      obtain rfl : j = i - 1 := by omega
      omega
  · rintro ⟨hd, h1, t, _, t2, t3, t4, t5⟩
    obtain ⟨j, j1, j2, j3⟩ := Fills.last hf i t2
    refine ⟨h1, j, by omega, j1, by simpa only [j2] using t3, fun k k1 k2 => t4 (f k) ?_ ?_, fun hst => ?_⟩
    · have := Fills.mono hf (show j + 1 ≤ k from k1)
      omega
    · have := Fills.mono hf (show k ≤ i - 1 by omega)
      omega
    · have := t5 hst
      by_contra hc
      have := Fills.mono hf (show j + 1 ≤ i - 1 by omega)
      omega

/-- **C145** (crosses): repeated bars give no signal, and the other bars the signal they give without the repetitions, also
in the strict reading. -/
theorem C145_cross (strict : Bool) (hf : Spec.Fills f) (ha : Holds a n 1 x) (hb : Holds b n 1 y)
    (ha' : Holds a' n' 1 fun i => x (f i)) (hb' : Holds b' n' 1 fun i => y (f i)) {i : ℕ} (h1 : 1 ≤ i) (h2 : i < n')
    (h3 : f i < n) :
    (f i = f (i - 1) → (Ind.crossup strict a' b').series[i]? = some (fin 0) ∧
      (Ind.crossdown strict a' b').series[i]? = some (fin 0)) ∧
    (f i ≠ f (i - 1) → (Ind.crossup strict a' b').series[i]? = (Ind.crossup strict a b).series[f i]? ∧
      (Ind.crossdown strict a' b').series[i]? = (Ind.crossdown strict a b).series[f i]?) := by
  obtain ⟨u, d, hu, hd, hc⟩ := C36_cross strict ha hb
  obtain ⟨u', d', hu', hd', hc'⟩ := C36_cross strict ha' hb'
  obtain ⟨c1, c2, c3, c4⟩ := hc' i (by simpa using h1) h2
  have e1 := crossUp_filled strict hf x y h1
  have e2 := crossUp_filled strict hf y x h1
  simp only [max_self, Nat.sub_self] at c1 c2 c3 c4 hc
  rw [hu'.val i (by simpa using h1) h2, hd'.val i (by simpa using h1) h2]
  constructor
  · intro h
    rw [c2 fun hh => (e1.mp hh).1 h, c4 fun hh => (e2.mp hh).1 h]
    exact ⟨rfl, rfl⟩
  · intro h
    have hpos : 1 ≤ f i := by
      have := Fills.mono hf (Nat.sub_le i 1)
      omega
    rw [hu.val (f i) (by simpa using hpos) h3, hd.val (f i) (by simpa using hpos) h3]
    obtain ⟨g1, g2, g3, g4⟩ := hc (f i) (by omega) h3
    constructor
    · by_cases hx : Spec.CrossUp strict x y 0 (f i)
      · rw [g1 hx, c1 (e1.mpr ⟨h, hx⟩)]
      · rw [g2 hx, c2 fun hh => hx (e1.mp hh).2]
    · by_cases hx : Spec.CrossUp strict y x 0 (f i)
      · rw [g3 hx, c3 (e2.mpr ⟨h, hx⟩)]
      · rw [g4 hx, c4 fun hh => hx (e2.mp hh).2]

theorem obv_series (hc : Holds c n 1 C) (hw : Holds v n 1 W) :
    Shows (Ind.obv false 1 c v) n 2 fun i => ∑ j ∈ Ico 1 (i + 1), Spec.signedVolume C W j := by
  have h1 := Holds.mapOp (hc.diff 1).toRepW signV_fin
  have h2 : Shows (v * mapOp signV (diff 1 c)) n 2 (Spec.signedVolume C W) :=
    shows_congr (Holds.mul hw h1.toRepW) (by omega) fun i _ _ => signed_eq C W i
  exact shows_congr (Holds.cumsum h2.toRepW) rfl fun i _ _ => rfl

theorem obv_filled (hf : Spec.Fills f) (C W W' : ℕ → K) (hw : ∀ i, f (i + 1) = f i + 1 → W' (i + 1) = W (f (i + 1))) : ∀ i,
    ∑ j ∈ Ico 1 (i + 1), Spec.signedVolume (fun j => C (f j)) W' j = ∑ j ∈ Ico 1 (f i + 1), Spec.signedVolume C W j := by
  intro i
  induction i with
  | zero => rw [hf.zero]; simp
  | succ i ih =>
    rw [sum_Ico_succ_top (by omega), ih]
    rcases hf.step i with h | h
    · have : Spec.signedVolume (fun j => C (f j)) W' (i + 1) = 0 := by
        unfold Spec.signedVolume
        simp [h]
      rw [this, h, add_zero]
    · have : Spec.signedVolume (fun j => C (f j)) W' (i + 1) = Spec.signedVolume C W (f i + 1) := by
        unfold Spec.signedVolume
        simp only [Nat.add_sub_cancel, h, hw i h]
      rw [this, h, sum_Ico_succ_top (b := f i + 1) (by omega)]

/-- **C145** (on balance volume): with repeated closes, whatever the volumes in the repeated bars, the total is that of the
data without the repetitions. -/
theorem C145_obv (hf : Spec.Fills f) (hc : Holds c n 1 C) (hv : Holds v n 1 W) (hc' : Holds c' n' 1 fun i => C (f i))
    (hv' : Holds v' n' 1 W') (hw : ∀ i, f (i + 1) = f i + 1 → W' (i + 1) = W (f (i + 1))) {i : ℕ} (h1 : 1 ≤ f i) (h2 : i < n')
    (h3 : f i < n) : (Ind.obv false 1 c' v').series[i]? = (Ind.obv false 1 c v).series[f i]? := by
  have hi : 1 ≤ i := by
    rcases Nat.eq_zero_or_pos i with rfl | h
    · rw [hf.zero] at h1; omega
    · exact h
  rw [(obv_series hc hv).val (f i) (by omega) h3, (obv_series hc' hv').val i (by omega) h2]
  exact congrArg (fun v => some (fin v)) (obv_filled hf C W W' hw i)

/-! ## every bar `k` times -/

theorem back_div {k : ℕ} (hk : 1 ≤ k) {t j : ℕ} (h : j ≤ k * t + (k - 1)) : (k * t + (k - 1) - j) / k = t - j / k := by
  have e := Nat.div_add_mod j k
  have hr := Nat.mod_lt j hk
  have hq : j / k ≤ t := by
    by_contra hc
    have := Nat.mul_le_mul_left k (show t + 1 ≤ j / k by omega)
    rw [Nat.mul_add, Nat.mul_one] at this
    omega
  obtain ⟨d, hd⟩ := Nat.exists_eq_add_of_le hq
  have e2 : k * t = k * (j / k) + k * d := by rw [← Nat.mul_add, ← hd]
  have e3 : k * t + (k - 1) - j = k * d + (k - 1 - j % k) := by omega
  rw [e3, Nat.mul_add_div hk, Nat.div_eq_of_lt (by omega)]
  omega

theorem sum_groups (k : ℕ) (g : ℕ → K) (hk : 1 ≤ k) : ∀ p, ∑ j ∈ range (k * p), g (j / k) = k * ∑ s ∈ range p, g s := by
  intro p
  induction p with
  | zero => simp
  | succ p ih =>
    rw [Nat.mul_succ, sum_range_add, ih, sum_range_succ, mul_add]
    congr 1
    rw [sum_congr rfl fun r hr => by rw [Nat.mul_add_div hk, Nat.div_eq_of_lt (mem_range.mp hr), Nat.add_zero], sum_const,
      card_range, nsmul_eq_mul]

theorem sum_groups_last (k : ℕ) (g : ℕ → K) (hk : 1 ≤ k) : ∀ p,
    ∑ j ∈ range (k * p), (if j % k = k - 1 then g (j / k) else 0) = ∑ s ∈ range p, g s := by
  intro p
  induction p with
  | zero => simp
  | succ p ih =>
    rw [Nat.mul_succ, sum_range_add, ih, sum_range_succ]
    congr 1
    rw [sum_eq_single (k - 1)]
    · rw [Nat.mul_add_mod, Nat.mod_eq_of_lt (by omega), if_pos rfl, Nat.mul_add_div hk, Nat.div_eq_of_lt (by omega), Nat.add_zero]
    · intro r hr hne
      rw [Nat.mul_add_mod, Nat.mod_eq_of_lt (mem_range.mp hr), if_neg hne]
    · intro h; exact absurd (mem_range.mpr (by omega)) h

section windows
variable {k : ℕ} (hk : 1 ≤ k) (x) {p t : ℕ} (hp : 1 ≤ p) (ht : p ≤ t + 1)
include hk hp ht

theorem win_lt {j : ℕ} (hj : j < k * p) : j ≤ k * t + (k - 1) := by
  have := Nat.mul_le_mul_left k ht
  rw [Nat.mul_add, Nat.mul_one] at this
  omega

theorem groups_sum (g : K → K) : ∑ j ∈ range (k * p), g (x ((k * t + (k - 1) - j) / k)) = k * ∑ s ∈ range p, g (x (t - s)) := by
  rw [← sum_groups k (fun s => g (x (t - s))) hk p]
  exact sum_congr rfl fun j hj => by rw [back_div hk (win_lt hk hp ht (mem_range.mp hj))]

theorem groups_mean : Spec.winMean (fun i => x (i / k)) (k * p) (k * t + (k - 1)) = Spec.winMean x p t := by
  have h1 : (k : K) ≠ 0 := by exact_mod_cast (by omega : k ≠ 0)
  have h2 : (p : K) ≠ 0 := by exact_mod_cast (by omega : p ≠ 0)
  unfold Spec.winMean Spec.winSum
  have e := groups_sum x hk hp ht id
  simp only [id] at e
  beta_reduce
  rw [e]
  push_cast
  rw [mul_div_mul_left _ _ h1]

theorem groups_var : Spec.winVar 0 (fun i => x (i / k)) (k * p) (k * t + (k - 1)) = Spec.winVar 0 x p t := by
  have h1 : (k : K) ≠ 0 := by exact_mod_cast (by omega : k ≠ 0)
  unfold Spec.winVar
  rw [groups_mean x hk hp ht, groups_sum x hk hp ht fun y => (y - Spec.winMean x p t) ^ 2]
  push_cast
  rw [sub_zero, sub_zero, mul_div_mul_left _ _ h1]

theorem groups_mad : Spec.winMad (fun i => x (i / k)) (k * p) (k * t + (k - 1)) = Spec.winMad x p t := by
  have h1 : (k : K) ≠ 0 := by exact_mod_cast (by omega : k ≠ 0)
  unfold Spec.winMad
  rw [groups_mean x hk hp ht, groups_sum x hk hp ht fun y => |y - Spec.winMean x p t|]
  push_cast
  rw [mul_div_mul_left _ _ h1]

theorem groups_set : {y | ∃ j, j < k * p ∧ y = x ((k * t + (k - 1) - j) / k)} = {y | ∃ j, j < p ∧ y = x (t - j)} := by
  ext y
  constructor
  · rintro ⟨j, hj, rfl⟩
    exact ⟨j / k, (Nat.div_lt_iff_lt_mul hk).mpr (by rwa [Nat.mul_comm]), by rw [back_div hk (win_lt hk hp ht hj)]⟩
  · rintro ⟨j, hj, rfl⟩
    have h1 : k * j < k * p := Nat.mul_lt_mul_of_pos_left hj hk
    exact ⟨k * j, h1, by rw [back_div hk (win_lt hk hp ht h1), Nat.mul_div_cancel_left _ hk]⟩

theorem groups_max : Spec.winMax (fun i => x (i / k)) (k * p) (k * t + (k - 1)) = Spec.winMax x p t := by
  have h := Spec.winMax_isGreatest (fun i => x (i / k)) (p := k * p) (Nat.mul_pos hk hp) (k * t + (k - 1))
  beta_reduce at h
  rw [groups_set x hk hp ht] at h
  exact h.unique (Spec.winMax_isGreatest x hp t)

theorem groups_min : Spec.winMin (fun i => x (i / k)) (k * p) (k * t + (k - 1)) = Spec.winMin x p t := by
  have h := Spec.winMin_isLeast (fun i => x (i / k)) (p := k * p) (Nat.mul_pos hk hp) (k * t + (k - 1))
  beta_reduce at h
  rw [groups_set x hk hp ht] at h
  exact h.unique (Spec.winMin_isLeast x hp t)

end windows

/-- **C145** (windows): if every bar is recorded `k` times, then at the last record of bar `t` the simple average, the
extremes, the variance, the deviation and the mean deviation over `k * p` records are those over `p` bars, the momentum
likewise, and the sum is `k` times as great. -/
theorem C145_windows {k : ℕ} (hk : 1 ≤ k) (ha : Holds a n 1 x) (hb : Holds b (k * n) 1 fun i => x (i / k)) (sq : Ext K → Ext K)
    {p t : ℕ} (hp : 1 ≤ p) (ht : p ≤ t + 1) (hn : t < n) :
    (∃ r s, Ind.sma p a = .ok r ∧ Ind.sma (k * p) b = .ok s ∧ s.series[k * t + (k - 1)]? = r.series[t]?) ∧
    (Ind.highest (k * p) b).series[k * t + (k - 1)]? = (Ind.highest p a).series[t]? ∧
    (Ind.lowest (k * p) b).series[k * t + (k - 1)]? = (Ind.lowest p a).series[t]? ∧
    (Ind.var 0 (k * p) b).series[k * t + (k - 1)]? = (Ind.var 0 p a).series[t]? ∧
    (Ind.stddev sq 0 (k * p) b).series[k * t + (k - 1)]? = (Ind.stddev sq 0 p a).series[t]? ∧
    (Ind.mad (k * p) b).series[k * t + (k - 1)]? = (Ind.mad p a).series[t]? ∧
    (p ≤ t → (Ind.mom (k * p) b).series[k * t + (k - 1)]? = (Ind.mom p a).series[t]?) ∧
    (Ind.sumN (k * p) b).series[k * t + (k - 1)]? = (rmulS (fin (k : K)) (Ind.sumN p a)).series[t]? := by
  have hkp : 1 ≤ k * p := Nat.mul_pos hk hp
  have hi : 1 + (k * p) - 1 ≤ k * t + (k - 1) + 1 := by
    have := Nat.mul_le_mul_left k ht
    rw [Nat.mul_add, Nat.mul_one] at this
    omega
  have hin : k * t + (k - 1) < k * n := by
    have := Nat.mul_le_mul_left k (show t + 1 ≤ n from hn)
    rw [Nat.mul_add, Nat.mul_one] at this
    omega
  have hi' : 1 + p - 1 ≤ t + 1 := by omega
  obtain ⟨r, r1, r2⟩ := C09_sma ha hp
  obtain ⟨s, s1, s2⟩ := C09_sma hb hkp
  refine ⟨⟨r, s, r1, s1, ?_⟩, ?_, ?_, ?_, ?_, ?_, fun hpt => ?_, ?_⟩
  · rw [s2.val _ hi hin, r2.val t hi' hn]
    exact congrArg (fun v => some (fin v)) (groups_mean x hk hp ht)
  · have h1 : Shows (Ind.highest (k * p) b) _ _ _ := hb.rollMax hkp
    have h2 : Shows (Ind.highest p a) _ _ _ := ha.rollMax hp
    rw [h1.val _ hi hin, h2.val t hi' hn, groups_max x hk hp ht]
  · have h1 : Shows (Ind.lowest (k * p) b) _ _ _ := hb.rollMin hkp
    have h2 : Shows (Ind.lowest p a) _ _ _ := ha.rollMin hp
    rw [h1.val _ hi hin, h2.val t hi' hn, groups_min x hk hp ht]
  · rw [(hb.var (ddof := 0) (p := k * p) (by omega)).val _ hi hin, (ha.var (ddof := 0) (p := p) (by omega)).val t hi' hn]
    beta_reduce
    rw [groups_var x hk hp ht]
  · rw [(C31_stddev hb sq (ddof := 0) (p := k * p) (by omega)).val _ hi hin, (C31_stddev ha sq (ddof := 0) (p := p) (by omega)).val t hi' hn]
    exact congrArg (fun v => some (sq (fin v))) (groups_var x hk hp ht)
  · rw [(mad_shows hb hkp).val _ (by omega) hin, (mad_shows ha hp).val t (by omega) hn, groups_mad x hk hp ht]
  · have h1 : Shows (Ind.mom (k * p) b) _ _ _ := hb.diff (k * p)
    have h2 : Shows (Ind.mom p a) _ _ _ := ha.diff p
    have h3 := Nat.mul_le_mul_left k hpt
    rw [h1.val _ (by omega) hin, h2.val t (by omega) hn]
    rw [back_div hk (by omega), Nat.mul_div_cancel_left _ hk]
    have := back_div hk (t := t) (j := 0) (by omega)
    simp only [Nat.sub_zero, Nat.zero_div] at this
    rw [this]
  · have h1 : Shows (Ind.sumN (k * p) b) _ _ _ := hb.rollSum hkp
    have h2 : Shows (Ind.sumN p a) _ _ _ := ha.rollSum hp
    rw [h1.val _ hi hin, (Holds.rmulS h2.toRepW (k : K)).val t hi' hn]
    exact congrArg (fun v => some (fin v)) (groups_sum x hk hp ht id)

theorem groups_moves {k : ℕ} (hk : 1 ≤ k) (x : ℕ → K) (g : K → K → K) (hg : ∀ u, g u u = 0) {p t : ℕ} (ht : p ≤ t) :
    ∑ j ∈ range (k * p), g (x ((k * t + (k - 1) - j) / k)) (x ((k * t + (k - 1) - j - 1) / k)) =
      ∑ s ∈ range p, g (x (t - s)) (x (t - s - 1)) := by
  rw [← sum_groups_last k (fun s => g (x (t - s)) (x (t - s - 1))) hk p]
  have h0 := Nat.mul_le_mul_left k ht
  refine sum_congr rfl fun j hj => ?_
  have hj := mem_range.mp hj
  have e := Nat.div_add_mod j k
  have hr := Nat.mod_lt j hk
  rw [Nat.sub_sub _ j 1, back_div hk (t := t) (j := j) (by omega), back_div hk (t := t) (j := j + 1) (by omega)]
  by_cases h : j % k = k - 1
  · rw [if_pos h]
    have : (j + 1) / k = j / k + 1 := by
      have e1 : j + 1 = k * (j / k + 1) := by rw [Nat.mul_add, Nat.mul_one]; omega
      rw [e1, Nat.mul_div_cancel_left _ hk]
    rw [this, ← Nat.sub_sub]
  · rw [if_neg h]
    have : (j + 1) / k = j / k := by
      have e1 : j + 1 = k * (j / k) + (j % k + 1) := by omega
      have e2 : (j % k + 1) / k = 0 := Nat.div_eq_of_lt (by omega)
      calc (j + 1) / k = (k * (j / k) + (j % k + 1)) / k := by rw [← e1]
        _ = j / k := by rw [Nat.mul_add_div hk, e2, Nat.add_zero]
    rw [this, hg]

/-- **C145** (rsi): the same for the relative strength index with the simple average. -/
theorem C145_rsi {k : ℕ} (hk : 1 ≤ k) (ha : Holds a n 1 x) (hb : Holds b (k * n) 1 fun i => x (i / k))
    {p t : ℕ} (hp : 1 ≤ p) (ht : p ≤ t) (hn : t < n) :
    ∃ r s, Ind.rsi Ind.sma 1 p a = .ok r ∧ Ind.rsi Ind.sma 1 (k * p) b = .ok s ∧
      s.series[k * t + (k - 1)]? = r.series[t]? := by
  have hkp : 1 ≤ k * p := Nat.mul_pos hk hp
  have h0 := Nat.mul_le_mul_left k ht
  have hin : k * t + (k - 1) < k * n := by
    have := Nat.mul_le_mul_left k (show t + 1 ≤ n from hn)
    rw [Nat.mul_add, Nat.mul_one] at this
    omega
  obtain ⟨r, r1, r2⟩ := C21_formula (q := 1) sma_isMA smaF_mono smaF_nonneg ha hp (by unfold ext1; omega)
  obtain ⟨s, s1, s2⟩ := C21_formula (q := 1) sma_isMA smaF_mono smaF_nonneg hb hkp (by unfold ext1; omega)
  refine ⟨r, s, r1, s1, ?_⟩
  rw [s2.val _ (by unfold ext1; omega) hin, r2.val t (by unfold ext1; omega) hn]
  have hK : (k : K) ≠ 0 := by exact_mod_cast (by omega : k ≠ 0)
  have hP : (p : K) ≠ 0 := by exact_mod_cast (by omega : p ≠ 0)
  have e1 : upAvg smaF 1 (k * p) 1 (fun i => x (i / k)) (k * t + (k - 1)) = upAvg smaF 1 p 1 x t / k := by
    unfold upAvg smaF Spec.winMean Spec.winSum
    rw [groups_moves hk x (fun u w => max (u - w) 0) (by simp) ht]
    push_cast
    rw [div_div, mul_comm]
  have e2 : downAvg smaF 1 (k * p) 1 (fun i => x (i / k)) (k * t + (k - 1)) = downAvg smaF 1 p 1 x t / k := by
    unfold downAvg smaF Spec.winMean Spec.winSum
    rw [groups_moves hk x (fun u w => max (w - u) 0) (by simp) ht]
    push_cast
    rw [div_div, mul_comm]
  rw [e1, e2, ← add_div, ← mul_div_assoc, div_div_div_cancel_right₀ hK]
  by_cases h : upAvg smaF 1 p 1 x t + downAvg smaF 1 p 1 x t = 0
  · rw [if_pos (by rw [h, zero_div]), if_pos h]
  · rw [if_neg (div_ne_zero h hK), if_neg h]

/-- a filling: bars 0, 1, 1, 2, 2, 2, 3, 4, 5, 6, ... -/
def exFill (i : ℕ) : ℕ := if i ≤ 1 then i else if i = 2 then 1 else if i ≤ 5 then 2 else i - 3

theorem exFill_fills : Spec.Fills exFill := ⟨rfl, fun i => by unfold exFill; split_ifs <;> omega⟩

/-- C145, a case: the cross at bar 3 is signalled at bar 6 of the filled data, once; the on balance volume is not changed
by the volumes in repeated bars -/
example : (Ind.crossup false exCrossA exCrossB).series = [.nan, .fin 0, .fin 0, .fin 1, .fin 0, .fin 1] ∧
    (Ind.crossup false (bars 9 fun i => ([1, 2, 2, 3, 1, 3] : List ℚ).getD (exFill i) 0) (bars 9 fun _ => 2)).series =
      [.nan, .fin 0, .fin 0, .fin 0, .fin 0, .fin 0, .fin 1, .fin 0, .fin 1] ∧
    (Ind.obv false 1 exCrossA (bars 6 fun i => (10 : ℚ) ^ i)).series =
      [.nan, .fin 10, .fin 10, .fin 1010, .fin (-8990), .fin 91010] ∧
    (Ind.obv false 1 (bars 9 fun i => ([1, 2, 2, 3, 1, 3] : List ℚ).getD (exFill i) 0)
        (bars 9 fun i => if i = 2 ∨ i = 4 ∨ i = 5 then 7 else (10 : ℚ) ^ exFill i)).series =
      [.nan, .fin 10, .fin 10, .fin 10, .fin 10, .fin 10, .fin 1010, .fin (-8990), .fin 91010] := by decide +kernel

/-- C145, a case: every bar twice, windows of 4 and of 2; values at every second record -/
example : (Ind.var 0 2 exData).series = [.nan, .fin (1/4), .fin 1, .fin (9/4), .fin 4, .fin (25/4)] ∧
    ((Ind.var 0 4 (bars 12 fun i => (1 + ((i / 2) * (i / 2 + 1) / 2 : ℕ) : ℚ))).series.drop 3) =
      [.fin (1/4), .fin (19/16), .fin 1, .fin (51/16), .fin (9/4), .fin (99/16), .fin 4, .fin (163/16), .fin (25/4)] := by
  decide +kernel

end Bta
