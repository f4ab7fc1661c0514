import Verif.Lemmas.Stat
import Verif.Props.Price
import Mathlib.Algebra.Order.BigOperators.Group.Finset
import Mathlib.Algebra.Order.BigOperators.Ring.Finset

/-!
# Deviation, commodity channel, balance of power, Chaikin oscillator, arithmetic: C75 - C79
-/

set_option linter.unusedSectionVars false
set_option linter.unusedVariables false

namespace Spec
variable {K : Type} [Field K] [LinearOrder K]

/-- mean absolute distance of the last `p` values from their mean -/
def winMad (x : ℕ → K) (p i : ℕ) : K := (∑ k ∈ Finset.range p, |x (i - k) - winMean x p i|) / p

/-- typical price -/
def typical (H L C : ℕ → K) (i : ℕ) : K := (H i + L i + C i) / 3

end Spec

namespace Bta
open Line Ext

variable {K : Type} [Field K] [LinearOrder K] [IsStrictOrderedRing K]
variable {a b o h l c v : Line (Ext K)} {n m mo mh ml mc mv : ℕ} {x y O H L C W : ℕ → K}

/-! ## C75 mean absolute deviation and commodity channel index -/

theorem aggMad_wnd (x : ℕ → K) {w i : ℕ} (h1 : 1 ≤ w) (hw : w ≤ i + 1) :
    aggApply Ind.madV (wnd (fun i => (fin (x i) : Ext K)) w i) = fin (Spec.winMad x w i) := by
  have hwk : (w : K) ≠ 0 := by exact_mod_cast (by omega : w ≠ 0)
  unfold aggApply whenAllFin Ind.madV
  rw [wnd_fin, if_pos (all_fin _)]
  simp only []
  rw [List.length_map, wnd_length, sumV_fin, wnd_sum x hw]
  rw [show (lit (w : ℚ) : Ext K) = fin (w : K) from by simp, Ext.fin_div _ hwk]
  have hm : ((wnd x w i).map (fin : K → Ext K)).map (fun y => absv (y - fin (Spec.winSum x w i / w)))
      = (wnd (fun j => |x j - Spec.winMean x w i|) w i).map fin := by
    rw [← map_wnd (fun z => |z - Spec.winMean x w i|), List.map_map, List.map_map]
    refine List.map_congr_left fun z _ => ?_
    simp only [Function.comp, Ext.fin_sub]
    rfl
  rw [hm, sumV_fin, wnd_sum _ hw, Ext.fin_div _ hwk]
  rfl

theorem mad_shows (ha : Holds a n m x) {p : ℕ} (hp : 1 ≤ p) : Shows (Ind.mad p a) n (m + (p - 1)) (Spec.winMad x p) :=
  (rep_rolling hp ha).congr (by omega) fun i h1 h2 => by
    have := ha.pos
    exact aggMad_wnd x hp (by omega)

theorem winMad_nonneg (x : ℕ → K) (p i : ℕ) : 0 ≤ Spec.winMad x p i :=
  div_nonneg (Finset.sum_nonneg fun _ _ => abs_nonneg _) (Nat.cast_nonneg _)

theorem winMad_zero (x : ℕ → K) {p : ℕ} (hp : 1 ≤ p) (i : ℕ) :
    Spec.winMad x p i = 0 ↔ ∀ k, k < p → x (i - k) = x i := by
  have hwk : (p : K) ≠ 0 := by exact_mod_cast (by omega : p ≠ 0)
  unfold Spec.winMad
  rw [div_eq_zero_iff, or_iff_left hwk, Finset.sum_eq_zero_iff_of_nonneg fun _ _ => abs_nonneg _]
  constructor
  · intro h k hk
    have h1 := h k (Finset.mem_range.mpr hk)
    have h2 := h 0 (Finset.mem_range.mpr hp)
    rw [abs_eq_zero, sub_eq_zero] at h1 h2
    rw [h1, ← h2]; simp
  · intro h k hk
    rw [abs_eq_zero, sub_eq_zero, h k (Finset.mem_range.mp hk)]
    unfold Spec.winMean Spec.winSum
    rw [Finset.sum_congr rfl fun j hj => h j (Finset.mem_range.mp hj)]
    rw [Finset.sum_const, Finset.card_range, nsmul_eq_mul, mul_div_cancel_left₀ _ hwk]

/-- **C75** mad: the mean absolute deviation of the last `p` values from their mean; it is never negative and it is zero
exactly if these values are all the same. -/
theorem C75_mad (ha : Holds a n m x) {p : ℕ} (hp : 1 ≤ p) :
    ∃ d, Shows (Ind.mad p a) n (m + (p - 1)) d ∧ ∀ i,
      d i = (∑ k ∈ Finset.range p, |x (i - k) - Spec.winMean x p i|) / p ∧ 0 ≤ d i ∧
      (d i = 0 ↔ ∀ k, k < p → x (i - k) = x i) :=
  ⟨_, mad_shows ha hp, fun i => ⟨rfl, winMad_nonneg x p i, winMad_zero x hp i⟩⟩

/-- **C75** cci: distance of the typical price from its average, as multiple of `factor` times the mean absolute deviation
(IEEE quotient). -/
theorem C75_cci {ma : MA (Ext K)} {F : ℕ → (ℕ → K) → ℕ → ℕ → K} {e : ℕ → ℕ} (hma : IsMA ma F e)
    (hh : Holds h n m H) (hl : Holds l n m L) (hc : Holds c n m C) {p : ℕ} (hp : 1 ≤ p) (he : m + e p ≤ n) (factor : K) :
    Gives (Ind.cci ma (fin factor) p h l c) fun r => Delivers r n (max (m + e p) (m + (p - 1))) fun i =>
      fin (Spec.typical H L C i - F p (Spec.typical H L C) (m - 1) i) / fin (Spec.winMad (Spec.typical H L C) p i * factor) := by
  have hm := hh.pos
  have h3 : (3 : K) ≠ 0 := by norm_num
  have ht : Holds ((h + l + c).divS (lit 3)) n m (Spec.typical H L C) := by
    rw [show (lit 3 : Ext K) = fin 3 from by simp]
    exact (shows_congr (Holds.divS (Holds.add (Holds.add hh hl).toRepW hc).toRepW h3) (by omega) fun _ _ _ => rfl).toRepW
  unfold Ind.cci
  refine Gives.bind (hma p hp _ n m _ ht he) fun r hr => Gives.pure ?_
  exact (rep_div (Holds.sub ht hr.toRepW).toRepW (Holds.mulS (mad_shows ht hp).toRepW factor).toRepW).congr (by omega)
    fun i h1 h2 => rfl

/-- **C75** cci with the default simple average: NaN exactly if the typical price did not change in the last `p` bars, else
the quotient. -/
theorem C75_cci_flat (hh : Holds h n m H) (hl : Holds l n m L) (hc : Holds c n m C) {p : ℕ} (hp : 1 ≤ p)
    (he : m + (p - 1) ≤ n) {factor : K} (hf : factor ≠ 0) :
    Gives (Ind.cci Ind.sma (fin factor) p h l c) fun r => ∃ q : ℕ → Ext K, Delivers r n (m + (p - 1)) q ∧ ∀ i,
      ((∀ k, k < p → Spec.typical H L C (i - k) = Spec.typical H L C i) → q i = nan) ∧
      ((∃ k, k < p ∧ Spec.typical H L C (i - k) ≠ Spec.typical H L C i) → q i = fin
        ((Spec.typical H L C i - Spec.winMean (Spec.typical H L C) p i) / (factor * Spec.winMad (Spec.typical H L C) p i))) := by
  have hwk : (p : K) ≠ 0 := by exact_mod_cast (by omega : p ≠ 0)
  refine (C75_cci sma_isMA hh hl hc hp he factor).imp fun r hr => ⟨_, hr.congr (by unfold ext1; omega) fun _ _ _ => rfl,
    fun i => ⟨fun hk => ?_, fun ⟨k, hk, hne⟩ => ?_⟩⟩
  · have h1 : Spec.winMad (Spec.typical H L C) p i = 0 := (winMad_zero _ hp i).mpr hk
    have h2 : Spec.typical H L C i - smaF p (Spec.typical H L C) (m - 1) i = 0 := by
      unfold smaF Spec.winMean Spec.winSum
      rw [Finset.sum_congr rfl fun j hj => hk j (Finset.mem_range.mp hj)]
      rw [Finset.sum_const, Finset.card_range, nsmul_eq_mul, mul_div_cancel_left₀ _ hwk, sub_self]
    rw [h1, h2]; simp
  · have h1 : Spec.winMad (Spec.typical H L C) p i ≠ 0 := fun h0 => hne ((winMad_zero _ hp i).mp h0 k hk)
    rw [Ext.fin_div _ (mul_ne_zero h1 hf), mul_comm factor]
    rfl

example : Ind.cci Ind.sma (.fin (1/2)) 2 (bars 5 fun i => if i ≤ 2 then (3 + i * i : ℚ) else 9) (bars 5 fun _ => 1)
    (bars 5 fun i => if i ≤ 2 then (2 + 2 * i : ℚ) else 6) =
    .ok ⟨[.nan, .fin 2, .fin 2, .fin 2, .nan], 2⟩ := by decide +kernel

/-! ## C76 balance of power -/

/-- **C76** bop: `(close - open)/(high - low)`; for valid bars NaN exactly if high = low, else in `[-1, 1]`, and positive
exactly if the bar closed above its open. -/
theorem C76_bop (ho : Holds o n m O) (hh : Holds h n m H) (hl : Holds l n m L) (hc : Holds c n m C)
    (hv : ∀ i, m ≤ i + 1 → i < n → L i ≤ O i ∧ O i ≤ H i ∧ L i ≤ C i ∧ C i ≤ H i) :
    ∃ q : ℕ → Ext K, Delivers (Ind.bop o h l c) n m q ∧ ∀ i, m ≤ i + 1 → i < n →
      (H i = L i → q i = nan) ∧
      (H i ≠ L i → ∃ v, q i = fin v ∧ v * (H i - L i) = C i - O i ∧ -1 ≤ v ∧ v ≤ 1 ∧ (0 < v ↔ O i < C i) ∧ (v < 0 ↔ C i < O i)) := by
  refine ⟨_, (rep_div (Holds.sub hc ho).toRepW (Holds.sub hh hl).toRepW).congr (by omega) fun _ _ _ => rfl,
    fun i h1 h2 => ⟨fun h0 => ?_, fun h0 => ?_⟩⟩
  · obtain ⟨q1, q2, q3, q4⟩ := hv i h1 h2
    beta_reduce
    rw [show C i - O i = 0 from by linarith, show H i - L i = 0 from by linarith]; simp
  · obtain ⟨q1, q2, q3, q4⟩ := hv i h1 h2
    have hp : 0 < H i - L i := sub_pos.mpr (lt_of_le_of_ne (q1.trans q2) (Ne.symm h0))
    refine ⟨_, Ext.fin_div _ hp.ne', div_mul_cancel₀ _ hp.ne', ?_, ?_, ?_, ?_⟩
    · rw [le_div_iff₀ hp]; linarith
    · rw [div_le_iff₀ hp]; linarith
    · rw [div_pos_iff_of_pos_right hp, sub_pos]
    · rw [div_neg_iff]
      constructor
      · rintro (⟨_, hh⟩ | ⟨hh, _⟩)
        · exact absurd hh (not_lt.mpr hp.le)
        · linarith
      · intro hh; exact Or.inr ⟨by linarith, hp⟩

example : Ind.bop (bars 3 fun _ => (2 : ℚ)) (bars 3 fun i => 2 + 2 * i) (bars 3 fun _ => 2) (bars 3 fun i => if i = 1 then 3 else 2)
    = ⟨[.nan, .fin (1/2), .fin 0], 1⟩ := by decide +kernel

/-! ## C77 Chaikin oscillator -/

/-- as `IsMA`, without a claim about the bars before the minimum period -/
def IsMAW (f : MA (Ext K)) (F : ℕ → (ℕ → K) → ℕ → ℕ → K) (e : ℕ → ℕ) : Prop :=
  ∀ p, 1 ≤ p → ∀ (a : Line (Ext K)) (n m : ℕ) (x : ℕ → K), Holds a n m x → m + e p ≤ n →
    Gives (f p a) fun r => Holds r n (m + e p) (F p x (m - 1))

theorem IsMA.weak {f : MA (Ext K)} {F : ℕ → (ℕ → K) → ℕ → ℕ → K} {e : ℕ → ℕ} (hf : IsMA f F e) : IsMAW f F e :=
  fun p hp a n m x ha hn => (hf p hp a n m x ha hn).imp fun _ hr => hr.toRepW

/-- exponential average without mean as seed: it starts with the first value -/
def ewmaF (p : ℕ) (x : ℕ → K) (b i : ℕ) : K := Spec.expRec (2 / ((p : K) + 1)) x b (x b) (i - b)

theorem ewma_series (ha : Holds a n m x) {p : ℕ} (hp : 1 ≤ p) (hn : m ≤ n) :
    Ind.ewma p a = .ok ⟨setFrom n nan ((m : Int) - 1) (tail n (m - 1) fun i => fin (ewmaF p x (m - 1) i)), ((m + (p - 1) : ℕ) : Int)⟩ := by
  have hm := ha.pos
  unfold Ind.ewma Ind.ewmaG
  simp only [ewmMeanL]
  rw [ha.len, ha.mp, pyFrom_tail ha (le_refl m), tail_cons _ (by omega : m - 1 < n), alphaOfCom_span hp,
    ewmL_fin _ x (by omega : m - 1 < n)]
  rw [show max ((m : Int) + p - 1) 1 = ((m + (p - 1) : ℕ) : Int) from by omega, clone_mp_pos (by omega)]
  rfl

theorem ewma_isMAW : IsMAW (Ind.ewma : MA (Ext K)) ewmaF ext1 := by
  intro p hp a n m x ha hn
  unfold ext1 at *
  have hm := ha.pos
  refine ⟨_, ewma_series ha hp (by omega), ?_⟩
  constructor
  · simp only []; exact setFrom_length hm _
  · rfl
  · omega
  · intro i h1 h2
    exact setFrom_get_val hm _ (by omega) h2

theorem ad_shows (hh : Holds h n m H) (hl : Holds l n m L) (hc : Holds c n m C) (hw : Holds v n m W)
    (hv : ∀ i, m ≤ i + 1 → i < n → H i ≠ L i) :
    Shows (Ind.ad h l c v) n m fun i => ∑ j ∈ Finset.Ico (m - 1) (i + 1), (2 * C j - H j - L j) / (H j - L j) * W j := by
  have hm := hh.pos
  have hr : Shows (rmulS (lit 2) c - h - l) n m (fun i => 2 * C i - H i - L i) := by
    rw [show (lit 2 : Ext K) = fin 2 from by simp]
    exact shows_congr (Holds.sub (Holds.sub (Holds.rmulS hc 2).toRepW hh).toRepW hl) (by omega) fun _ _ _ => rfl
  have hf : Shows ((rmulS (lit 2) c - h - l) / (h - l) * v) n m
      (fun i => (2 * C i - H i - L i) / (H i - L i) * W i) := by
    refine (Holds.mul (Holds.div hr.toRepW (Holds.sub hh hl).toRepW fun i h1 h2 => ?_).toRepW hw).congr (by omega) fun _ _ _ => rfl
    exact sub_ne_zero.mpr (hv i (by omega) h2)
  exact Holds.cumsum hf.toRepW

/-- **C77** adosc: the fast average of the accumulation/distribution line minus the slow one, for any average (also `ewma`,
which is what `_talib=True` selects).  `A i` is the line itself: running total of `volume * ((close - low) - (high - close)) /
(high - low)`. -/
theorem C77_adosc {ma : MA (Ext K)} {F : ℕ → (ℕ → K) → ℕ → ℕ → K} {e : ℕ → ℕ} (hma : IsMAW ma F e)
    (hh : Holds h n m H) (hl : Holds l n m L) (hc : Holds c n m C) (hw : Holds v n m W)
    (hv : ∀ i, m ≤ i + 1 → i < n → H i ≠ L i) {pf ps : ℕ} (hpf : 1 ≤ pf) (hps : 1 ≤ ps)
    (hf : m + e pf ≤ n) (hs : m + e ps ≤ n) :
    ∃ A : ℕ → K, (∀ i, m ≤ i + 1 → i < n → (Ind.ad h l c v).series[i]? = some (fin (A i))) ∧
      (∀ i, A i = ∑ j ∈ Finset.Ico (m - 1) (i + 1), ((C j - L j) - (H j - C j)) / (H j - L j) * W j) ∧
      Gives (Ind.adosc ma pf ps h l c v) fun r =>
        Shows r n (max (m + e pf) (m + e ps)) fun i => F pf A (m - 1) i - F ps A (m - 1) i := by
  have had := ad_shows hh hl hc hw hv
  refine ⟨_, had.val, fun i => Finset.sum_congr rfl fun j _ => by ring, ?_⟩
  unfold Ind.adosc
  refine Gives.bind (hma pf hpf _ n m _ had.toRepW hf) fun r1 h1 => Gives.bind (hma ps hps _ n m _ had.toRepW hs) fun r2 h2 =>
    Gives.pure ?_
  exact Holds.sub h1 h2

example : Ind.adosc Ind.ewma 1 3 (bars 3 fun _ => (4 : ℚ)) (bars 3 fun _ => 0) (bars 3 fun i => 2 + i) (bars 3 fun i => 8 + 8 * i)
    = .ok ⟨[.nan, .nan, .fin 14], 3⟩ := by decide +kernel

example : Ind.adosc Ind.ema 1 3 (bars 3 fun _ => (4 : ℚ)) (bars 3 fun _ => 0) (bars 3 fun i => 2 + i) (bars 3 fun i => 8 + 8 * i)
    = .ok ⟨[.nan, .nan, .fin (56/3)], 3⟩ := by decide +kernel

/-! ## C78 unseeded exponential average -/

/-- **C78** (violated as stated: nothing before the minimum period): on every input with at least `m ≥ 1` bars, `ewma` with
period `p ≥ 2` declares a minimum period `m + p - 1`, but holds a number in bar `m - 1` already: the input value. -/
theorem C78_early (ha : Holds a n m x) {p : ℕ} (hp : 2 ≤ p) (hn : m ≤ n) :
    Gives (Ind.ewma p a) fun r => r.minperiod = (m + (p - 1) : ℕ) ∧ m - 1 < (m + (p - 1)) - 1 ∧
      r.series[m - 1]? = some (fin (x (m - 1))) := by
  have hm := ha.pos
  refine ⟨_, ewma_series ha (by omega) hn, rfl, by omega, ?_⟩
  simp only []
  rw [setFrom_get_val hm _ (by omega) (by omega)]
  congr 2
  unfold ewmaF
  rw [Nat.sub_self]
  rfl

/-- **C78** (the rest of it): values from bar `m - 1` on follow the recursion `e := e + 2/(p+1) (x_i - e)` from the first
value of the input; before there is NaN; the number of bars is kept. -/
theorem C78_partial (ha : Holds a n m x) {p : ℕ} (hp : 1 ≤ p) (hn : m ≤ n) :
    Gives (Ind.ewma p a) fun r => r.series.length = n ∧ ∃ e : ℕ → K,
      (∀ i, i + 1 < m → r.series[i]? = some nan) ∧ (∀ i, m ≤ i + 1 → i < n → r.series[i]? = some (fin (e i))) ∧
      e (m - 1) = x (m - 1) ∧ ∀ i, m ≤ i → e i = e (i - 1) + 2 / ((p : K) + 1) * (x i - e (i - 1)) := by
  have hm := ha.pos
  refine ⟨_, ewma_series ha hp hn, setFrom_length hm _, ewmaF p x (m - 1), fun i hi => ?_, fun i h1 h2 => ?_, ?_, fun i hi => ?_⟩
  · exact setFrom_get_pre hm _ hi (by omega)
  · exact setFrom_get_val hm _ h1 h2
  · unfold ewmaF; rw [Nat.sub_self]; rfl
  · unfold ewmaF
    obtain ⟨k, rfl⟩ : ∃ k, i = m - 1 + k + 1 := ⟨i - m, by omega⟩
    rw [show m - 1 + k + 1 - (m - 1) = k + 1 from by omega, show m - 1 + k + 1 - 1 - (m - 1) = k from by omega]
    rfl

example : Ind.ewma 3 exData = .ok ⟨[.fin 1, .fin (3/2), .fin (11/4), .fin (39/8), .fin (127/16), .fin (383/32)], 3⟩ := by
  decide +kernel

/-- total weight of the bars `b .. b + k` when a bar counts `q` times as much as the one after it -/
def decSum (q : K) (k : ℕ) : K := ∑ j ∈ Finset.range (k + 1), q ^ (k - j)

/-- weighted total of the bars `b .. b + k` -/
def decTot (q : K) (x : ℕ → K) (b k : ℕ) : K := ∑ j ∈ Finset.range (k + 1), q ^ (k - j) * x (b + j)

theorem decSum_succ (q : K) (k : ℕ) : decSum q (k + 1) = decSum q k * q + 1 := by
  unfold decSum
  rw [Finset.sum_range_succ, Nat.sub_self, pow_zero, Finset.sum_mul]
  congr 1
  refine Finset.sum_congr rfl fun j hj => ?_
  rw [← pow_succ]; congr 1
  have := Finset.mem_range.mp hj
  omega

theorem decTot_succ (q : K) (x : ℕ → K) (b k : ℕ) : decTot q x b (k + 1) = decTot q x b k * q + x (b + (k + 1)) := by
  unfold decTot
  rw [Finset.sum_range_succ, Nat.sub_self, pow_zero, one_mul, Finset.sum_mul]
  congr 1
  refine Finset.sum_congr rfl fun j hj => ?_
  have := Finset.mem_range.mp hj
  rw [show k + 1 - j = k - j + 1 by omega, pow_succ]; ring

theorem decSum_pos {q : K} (hq : 0 ≤ q) (k : ℕ) : 0 < decSum q k := by
  induction k with
  | zero => simp [decSum]
  | succ k ih => rw [decSum_succ]; positivity

theorem ewmAdjGo_fin {q : K} (hq : 0 ≤ q) (x : ℕ → K) (n s : ℕ) : ∀ (r j : ℕ), n - (s + j + 1) = r →
    ewmAdjGo (fin (1 - q) : Ext K) (fin (decTot q x s j / decSum q j)) (fin (decSum q j)) (tail n (s + j + 1) fun i => fin (x i))
      = tail n (s + j + 1) fun i => fin (decTot q x s (i - s) / decSum q (i - s)) := by
  intro r
  induction r with
  | zero =>
    intro j hr
    have h0 : ∀ g : ℕ → Ext K, tail n (s + j + 1) g = [] := by
      intro g; apply List.eq_nil_of_length_eq_zero; simp [hr]
    rw [h0, h0]; rfl
  | succ r ih =>
    intro j hr
    rw [tail_cons _ (by omega : s + j + 1 < n), tail_cons _ (by omega : s + j + 1 < n)]
    have hw := decSum_pos hq j
    have hne := hw.ne'
    have hq1 : (fin (decSum q j) * (lit 1 - fin (1 - q)) : Ext K) = fin (decSum q j * q) := by simp
    have hs : decSum q j * q + 1 ≠ 0 := by positivity
    have hv : (if eqv (fin (decTot q x s j / decSum q j) : Ext K) (fin (x (s + j + 1))) = true then fin (decTot q x s j / decSum q j)
        else (fin (decSum q j * q) * fin (decTot q x s j / decSum q j) + lit 1 * fin (x (s + j + 1))) / (fin (decSum q j * q) + lit 1))
        = (fin (decTot q x s (j + 1) / decSum q (j + 1)) : Ext K) := by
      rw [decTot_succ, decSum_succ, ← add_assoc s j 1]
      split
      · rename_i he
        have he' : decTot q x s j / decSum q j = x (s + j + 1) := by simpa using he
        rw [← he']
        congr 1
        field_simp
      · simp only [Ext.lit_def, Ext.fin_mul, Ext.fin_add, Rat.cast_one, one_mul]
        rw [Ext.fin_div _ hs]
        congr 1
        field_simp
    have hw1 : (fin (decSum q j * q) + lit 1 : Ext K) = fin (decSum q (j + 1)) := by rw [decSum_succ]; simp
    simp only [ewmAdjGo, Ext.isNaN_fin, Bool.false_eq_true, if_false, hq1]
    rw [hv, hw1, show s + j + 1 - s = j + 1 by omega]
    exact congrArg _ (ih (j + 1) (by omega))

theorem ewmAdjL_fin {q : K} (hq : 0 ≤ q) (x : ℕ → K) {n s : ℕ} (hs : s < n) :
    ewmAdjL (fin (1 - q) : Ext K) (tail n s fun i => fin (x i))
      = tail n s fun i => fin (decTot q x s (i - s) / decSum q (i - s)) := by
  unfold ewmAdjL
  rw [show (tail n s fun i => (fin (x i) : Ext K)) = (tail n s x).map fin by rw [map_tail], prepL_fin, map_tail,
    tail_cons _ hs, tail_cons _ hs]
  have h := ewmAdjGo_fin hq x n s (n - (s + 0 + 1)) 0 rfl
  have e0 : decTot q x s 0 / decSum q 0 = x s := by simp [decTot, decSum]
  have e1 : (fin (decSum q 0) : Ext K) = lit 1 := by simp [decSum]
  rw [e0, e1, Nat.add_zero] at h
  simp only []
  rw [h, Nat.sub_self, e0]

/-- **C78** with `adjust=True`: the number in bar `i` is the weighted mean of all input values up to it, where a bar counts
`1 - 2/(p+1)` times as much as the one after it.  The declared minimum period is that of `adjust=False`; the numbers start
with the first value of the input here, too. -/
theorem C78_adjusted (ha : Holds a n m x) {p : ℕ} (hp : 1 ≤ p) (hn : m ≤ n) :
    Gives (Ind.ewmaG true p a) fun r => r.series.length = n ∧ r.minperiod = (m + (p - 1) : ℕ) ∧
      (∀ i, i + 1 < m → r.series[i]? = some nan) ∧
      (∀ i, m ≤ i + 1 → i < n → r.series[i]? = some (fin (
        (∑ j ∈ Finset.Ico (m - 1) (i + 1), (1 - 2 / ((p : K) + 1)) ^ (i - j) * x j) /
          ∑ j ∈ Finset.Ico (m - 1) (i + 1), (1 - 2 / ((p : K) + 1)) ^ (i - j)))) := by
  have hm := ha.pos
  have hp1 : (1 : K) ≤ p := by exact_mod_cast hp
  have hq : 0 ≤ 1 - 2 / ((p : K) + 1) := by
    rw [sub_nonneg, div_le_one (by positivity)]; linarith
  have hs : Ind.ewmaG true p a = .ok ⟨setFrom n nan ((m : Int) - 1) (tail n (m - 1) fun i =>
      fin (decTot (1 - 2 / ((p : K) + 1)) x (m - 1) (i - (m - 1)) / decSum (1 - 2 / ((p : K) + 1)) (i - (m - 1)))),
      ((m + (p - 1) : ℕ) : Int)⟩ := by
    unfold Ind.ewmaG
    simp only [ewmMeanL]
    have h := ewmAdjL_fin hq x (show m - 1 < n by omega)
    rw [sub_sub_cancel] at h
    rw [ha.len, ha.mp, pyFrom_tail ha (le_refl m), alphaOfCom_span hp, h,
      show max ((m : Int) + p - 1) 1 = ((m + (p - 1) : ℕ) : Int) from by omega, clone_mp_pos (by omega)]
  refine ⟨_, hs, setFrom_length hm _, rfl, fun i hi => setFrom_get_pre hm _ hi (by omega), fun i h1 h2 => ?_⟩
  simp only []
  rw [setFrom_get_val hm _ h1 h2]
  congr 2
  unfold decTot decSum
  rw [Finset.sum_Ico_eq_sum_range, Finset.sum_Ico_eq_sum_range, show i + 1 - (m - 1) = i - (m - 1) + 1 by omega]
  congr 1
  · refine Finset.sum_congr rfl fun j _ => ?_
    rw [show i - (m - 1 + j) = i - (m - 1) - j by omega]
  · refine Finset.sum_congr rfl fun j _ => ?_
    rw [show i - (m - 1 + j) = i - (m - 1) - j by omega]

example : Ind.ewmaG true 3 exData
    = .ok ⟨[.fin 1, .fin (5/3), .fin (3 : ℚ), .fin (77/15), .fin (253/31), .fin (85/7)], 3⟩ := by
  decide +kernel

/-! ## C79 arithmetic of two inputs, element-wise functions -/

/-- **C79** add, sub, mult, div: bar by bar, from the larger of the two minimum periods on; NaN before. -/
theorem C79_arith {mb : ℕ} (ha : Holds a n m x) (hb : Holds b n mb y) :
    Shows (Ind.add a b) n (max m mb) (fun i => x i + y i) ∧ Shows (Ind.sub a b) n (max m mb) (fun i => x i - y i) ∧
    Shows (Ind.mult a b) n (max m mb) (fun i => x i * y i) ∧
    Delivers (Ind.div a b) n (max m mb) (fun i => fin (x i) / fin (y i)) :=
  ⟨Holds.add ha hb, Holds.sub ha hb, Holds.mul ha hb, rep_div ha hb⟩

/-- **C79** div undoes mult: wherever the divisor is not zero -/
theorem C79_div_mult {mb : ℕ} (ha : Holds a n m x) (hb : Holds b n mb y) (h0 : ∀ i, y i ≠ 0) :
    Shows (Ind.div (Ind.mult a b) b) n (max m mb) x ∧ Shows (Ind.sub (Ind.add a b) b) n (max m mb) x :=
  ⟨(Holds.div (Holds.mul ha hb).toRepW hb fun i _ _ => h0 i).congr (by omega) fun i _ _ => by
      simp only []; rw [mul_div_cancel_right₀ _ (h0 i)],
    (Holds.sub (Holds.add ha hb).toRepW hb).congr (by omega) fun i _ _ => by simp only []; rw [add_sub_cancel_right]⟩

/-- **C79** mult undoes div, wherever the divisor is not zero, and add undoes sub -/
theorem C79_mult_div {mb : ℕ} (ha : Holds a n m x) (hb : Holds b n mb y) (h0 : ∀ i, y i ≠ 0) :
    Shows (Ind.mult (Ind.div a b) b) n (max m mb) x ∧ Shows (Ind.add (Ind.sub a b) b) n (max m mb) x :=
  ⟨(Holds.mul (Holds.div ha hb fun i _ _ => h0 i).toRepW hb).congr (by omega) fun i _ _ => by
      simp only []; rw [div_mul_cancel₀ _ (h0 i)],
    (Holds.add (Holds.sub ha hb).toRepW hb).congr (by omega) fun i _ _ => by simp only []; rw [sub_add_cancel]⟩

example : Ind.mult (Ind.div exData (bars 6 fun i => ((i + 1 : ℕ) : ℚ))) (bars 6 fun i => ((i + 1 : ℕ) : ℚ)) = exData := by decide +kernel

/-- **C79** mathematical functions (sin, cos, ..., sqrt): bar by bar; the minimum period is kept. -/
theorem C79_fn (ha : Holds a n m x) (f : Ext K → Ext K) : Delivers (Ind.mathFn f a) n m (fun i => f (fin (x i))) :=
  rep_mapOp ha

example : Ind.div exData (bars 6 fun i => (i : ℚ)) = ⟨[.pinf, .fin 2, .fin 2, .fin (7/3), .fin (11/4), .fin (16/5)], 1⟩ := by
  decide +kernel

end Bta
