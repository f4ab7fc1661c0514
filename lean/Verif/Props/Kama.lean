import Verif.Lemmas.Ewm2
import Verif.Lemmas.Mas
import Verif.Lemmas.Avg
import Verif.Props.Ma
import Mathlib.Tactic.Positivity

/-!
# Kaufman's adaptive moving average (C19)
-/

set_option linter.unusedSectionVars false
set_option linter.unusedVariables false

namespace Spec
variable {K : Type} [Field K] [LinearOrder K]

/-- sum of the last `p` absolute changes over `q` bars -/
def volatility (x : ℕ → K) (p q i : ℕ) : K := ∑ j ∈ Finset.range p, |x (i - j) - x (i - j - q)|

/-- smoothing factor of Kaufman's average: the square of a value between those of the slow and the fast exponential average,
according to the efficiency ratio (net change over the sum of changes) -/
def kamaFactor (fast slow : K) (x : ℕ → K) (p q i : ℕ) : K :=
  (|x i - x (i - p)| / volatility x p q i * (2 / (fast + 1) - 2 / (slow + 1)) + 2 / (slow + 1)) ^ 2

/-- smoothing with a factor which changes from bar to bar: `k := k + c_i (x_i - k)`, started with `v` at bar `s`; value `j`
bars after `s` -/
def adaptive (c x : ℕ → K) (s : ℕ) (v : K) : ℕ → K
  | 0 => v
  | j + 1 => adaptive c x s v j + c (s + j + 1) * (x (s + j + 1) - adaptive c x s v j)

end Spec

namespace Bta
open Line

section generic
variable {V : Type} [PyFloat V] {a : Line V} {n m p q : ℕ} {g : ℕ → V}

/-- smoothing with changing factor, any arithmetic -/
def adaptV (c x : ℕ → V) (s : ℕ) (v : V) : ℕ → V
  | 0 => v
  | j + 1 => adaptV c x s v j + c (s + j + 1) * (x (s + j + 1) - adaptV c x s v j)

theorem dynGo_short : ∀ (alphas vals : List V) (prev : V), vals.length < alphas.length →
    dynGo prev vals alphas = .error .indexError
  | [], vals, _, h => by simp at h
  | al :: alphas, [], prev, _ => rfl
  | al :: alphas, v :: vals, prev, h => by
    unfold dynGo
    simp only []
    rw [dynGo_short alphas vals _ (by simpa using h)]

theorem dynGo_tail (c x : ℕ → V) (s : ℕ) (v : V) {n : ℕ} : ∀ k j, s + j + 1 + k = n →
    dynGo (adaptV c x s v j) (tail n (s + j + 1) x) (tail n (s + j + 1) c) =
      .ok (tail n (s + j + 1) fun i => adaptV c x s v (i - s)) := by
  intro k
  induction k with
  | zero => intro j h; rw [tail_nil x (by omega), tail_nil c (by omega), tail_nil (fun i => adaptV c x s v (i - s)) (by omega)]; rfl
  | succ k ih =>
    intro j h
    rw [tail_cons x (k := s + j + 1) (by omega), tail_cons c (k := s + j + 1) (by omega),
      tail_cons (fun i => adaptV c x s v (i - s)) (k := s + j + 1) (by omega)]
    unfold dynGo
    simp only []
    have := ih (j + 1) (by omega)
    rw [show s + (j + 1) + 1 = s + j + 1 + 1 from by omega] at this
    rw [show adaptV c x s v j + c (s + j + 1) * (x (s + j + 1) - adaptV c x s v j) = adaptV c x s v (j + 1) from rfl, this]
    simp only []
    rw [show s + j + 1 - s = j + 1 from by omega]

theorem kama_sc_rep (fast slow : V) (ha : RepW a n m g) (hp : 1 ≤ p) (hq : 1 ≤ q) :
    Rep nan (mapOp (fun x => x * x) ((((diff p a) / (Ind.sumN p (diff q a).abs)).abs.mulS
        (lit 2 / (fast + lit 1) - lit 2 / (slow + lit 1))).addS (lit 2 / (slow + lit 1)))) n (m + p + q - 1)
      fun i =>
        let e := absv ((g i - g (i - p)) / aggSum (wnd (fun i => absv (g i - g (i - q))) p i)) *
          (lit 2 / (fast + lit 1) - lit 2 / (slow + lit 1)) + lit 2 / (slow + lit 1)
        e * e := by
  have hpos := ha.pos
  have h1 := rep_diff (s := p) ha
  have h2 := rep_rolling (agg := aggSum) hp (rep_abs (rep_diff (s := q) ha).toRepW).toRepW
  have h3 := rep_abs (rep_div h1.toRepW h2.toRepW).toRepW
  exact (rep_mapOp (rep_addS (rep_mulS h3.toRepW _).toRepW _).toRepW).congr (by omega) fun i _ _ => rfl

/-- **C19** fails for every line with a minimum period above 1, whatever its data, length and the parameters (with any of the
seeds which store a value; the default is among them): `kama` raises IndexError. -/
theorem C19_raises (fast slow : V) (ha : RepW a n m g) (hm : 2 ≤ m) (hp : 1 ≤ p) (hq : 1 ≤ q) {seed : Seed}
    (hs : seed = .avg ∨ seed = .sum ∨ seed = .last ∨ seed = .zero) :
    Ind.kama fast slow q seed p a = .error .indexError := by
  have hsc := kama_sc_rep fast slow ha hp hq
  unfold Ind.kama
  simp only []
  generalize mapOp (fun x : V => x * x) _ = sc at *
  unfold ewmDyn
  simp only [hsc.mp]
  have hp2 : ({ pval := (p : Int), seed := seed, alphaP := ((m + p + q - 1 : ℕ) : Int) } : EwmCfg).p2 a.minperiod =
      ((m + m + p + q - 3 : ℕ) : Int) := by
    unfold EwmCfg.p2
    simp only [ha.mp]
    split_ifs <;> omega
  by_cases hn : m + m + p + q - 3 ≤ n
  · rw [ewmNew_ok hp2 (by omega) (by rw [ha.len]; exact hn)]
    simp only []
    unfold ewmCall
    simp only []
    have : dynAlpha (pyFrom sc.series (((m + p + q - 1 : ℕ) : Int) - 1)) (prepL
        (seedVal seed a.series (((m + m + p + q - 3 : ℕ) : Int) - p) (((m + m + p + q - 3 : ℕ) : Int) - 1)
          ((m + m + p + q - 3 : ℕ) : Int) :: a.series.drop (m + m + p + q - 3))) = .error .indexError := by
      unfold prepL
      rw [List.map_cons]
      unfold dynAlpha
      simp only []
      rw [dynGo_short _ _ _ ?_]
      rw [show (((m + p + q - 1 : ℕ) : Int) - 1) = ((m + p + q - 2 : ℕ) : Int) from by omega]
      unfold pyFrom
      rw [pyStart_nat, List.length_map, List.length_drop, List.length_drop, hsc.len, ha.len]
      omega
    rw [this]
  · rw [ewmNew_short hp2 (by rw [ha.len]; omega) hs]

end generic

section exact
variable {K : Type} [Field K] [LinearOrder K] [IsStrictOrderedRing K]
variable {a : Line (Ext K)} {n p q : ℕ} {x : ℕ → K}
open Ext

theorem adaptV_fin (c x : ℕ → K) (d : ℕ → Ext K) (s : ℕ) (v : K) : ∀ j, (∀ k, k < j → d (s + k + 1) = fin (c (s + k + 1))) →
    adaptV d (fun i => (fin (x i) : Ext K)) s (fin v) j = fin (Spec.adaptive c x s v j) := by
  intro j
  induction j with
  | zero => intro _; rfl
  | succ j ih =>
    intro h
    unfold adaptV Spec.adaptive
    rw [ih fun k hk => h k (by omega), h j (by omega)]
    simp

theorem adaptV_nan (d g : ℕ → Ext K) (s : ℕ) (v : Ext K) {k : ℕ} (hk : d (s + k + 1) = nan) :
    ∀ j, k < j → adaptV d g s v j = nan := by
  intro j
  induction j with
  | zero => intro h; omega
  | succ j ih =>
    intro h
    unfold adaptV
    rcases Nat.lt_or_ge k j with h' | h'
    · rw [ih h']; rfl
    · rw [show j = k from by omega, hk]
      generalize adaptV d g s v k = u
      generalize g (s + k + 1) - u = w
      cases u <;> cases w <;> rfl

/-- the seed of kama: the mean of the first `p` (usual case) values known before the first smoothing factor, or the last one -/
def _root_.Spec.kamaSeed (last : Bool) (x : ℕ → K) (p s : ℕ) : K := if last then x s else Spec.winMean x p s

theorem kama_rep (fast slow : Ext K) (ha : Holds a n 1 x) (hp : 1 ≤ p) (hq : 1 ≤ q) (hn : p + q - 1 ≤ n) (last : Bool) :
    ∃ d : ℕ → Ext K, (∀ i, d i =
        let e := absv ((fin (x i) - fin (x (i - p))) / aggSum (wnd (fun i => absv ((fin (x i) : Ext K) - fin (x (i - q)))) p i)) *
          (lit 2 / (fast + lit 1) - lit 2 / (slow + lit 1)) + lit 2 / (slow + lit 1)
        e * e) ∧
    Gives (Ind.kama fast slow q (if last then .last else .avg) p a) fun r => Delivers r n (p + q) fun i =>
      adaptV d (fun i => fin (x i)) (p + q - 2) (fin (Spec.kamaSeed last x p (p + q - 2))) (i - (p + q - 2)) := by
  have hsc := kama_sc_rep fast slow ha hp hq
  refine ⟨_, fun i => rfl, ?_⟩
  unfold Ind.kama
  simp only []
  generalize mapOp (fun x : Ext K => x * x) _ = sc at *
  revert hsc
  generalize (fun i => _ : ℕ → Ext K) = d
  intro hsc
  unfold ewmDyn
  simp only [hsc.mp]
  have hp2 : ∀ seed, ({ pval := (p : Int), seed := seed, alphaP := ((1 + p + q - 1 : ℕ) : Int) } : EwmCfg).p2 a.minperiod =
      ((p + q - 1 : ℕ) : Int) := by
    intro seed
    unfold EwmCfg.p2
    simp only [ha.mp]
    split_ifs <;> omega
  rw [ewmNew_ok (hp2 _) (by omega) (by rw [ha.len]; exact hn)]
  have hseed : seedVal (if last then Seed.last else Seed.avg) a.series (((p + q - 1 : ℕ) : Int) - p)
      (((p + q - 1 : ℕ) : Int) - 1) ((p + q - 1 : ℕ) : Int) = fin (Spec.kamaSeed last x p (p + q - 2)) := by
    cases last
    · simp only [Bool.false_eq_true, if_false, Spec.kamaSeed]
      rw [seedVal_avg ha hp (by omega) hn]; congr 2
    · simp only [if_true, Spec.kamaSeed]
      rw [seedVal_last ha (by omega) hn]; congr 2
  simp only [hseed]
  have hal : pyFrom sc.series (((1 + p + q - 1 : ℕ) : Int) - 1) = tail n (p + q - 1) d := by
    rw [show (((1 + p + q - 1 : ℕ) : Int) - 1) = ((p + q - 1 : ℕ) : Int) from by omega]
    unfold pyFrom
    rw [pyStart_nat, hsc.len, Nat.min_eq_left hn]
    exact drop_tail hsc.toRepW (by omega)
  have hdyn : dynAlpha (pyFrom sc.series (((1 + p + q - 1 : ℕ) : Int) - 1))
      (prepL (fin (Spec.kamaSeed last x p (p + q - 2)) :: a.series.drop (p + q - 1))) =
      .ok (tail n (p + q - 2) fun i => if i = p + q - 2 then nan else
        adaptV d (fun i => fin (x i)) (p + q - 2) (fin (Spec.kamaSeed last x p (p + q - 2))) (i - (p + q - 2))) := by
    rw [drop_tail ha (by omega), prepL_cons_tail, hal]
    unfold dynAlpha
    simp only []
    have := dynGo_tail d (fun i => (fin (x i) : Ext K)) (p + q - 2) (fin (Spec.kamaSeed last x p (p + q - 2))) (n := n)
      (n - (p + q - 1)) 0 (by omega)
    rw [show p + q - 2 + 0 + 1 = p + q - 1 from by omega] at this
    rw [show (fin (Spec.kamaSeed last x p (p + q - 2)) : Ext K) = adaptV d (fun i => (fin (x i) : Ext K)) (p + q - 2)
      (fin (Spec.kamaSeed last x p (p + q - 2))) 0 from rfl, this]
    simp only []
    rw [tail_cons (k := p + q - 2) _ (by omega), if_pos rfl, show p + q - 2 + 1 = p + q - 1 from by omega]
    congr 2
    refine tail_ext (by simp) fun j hj => ?_
    rw [if_neg (by omega), tail_get _ _ _ _ hj]; rfl
  unfold ewmCall
  simp only [hdyn]
  rw [if_pos (by rw [pyStart_pred _ (by omega), ha.len, tail_length]; omega)]
  refine Gives.ok ?_
  rw [ha.mp, show max (((1 : ℕ) : Int) + ((p : Int) - 0 - 1)) ((1 + p + q - 1 : ℕ) : Int) = ((p + q : ℕ) : Int) from by omega,
    clone_mp_pos (by omega), ha.len]
  refine (Rep.build (M := p + q - 1) (m := p + q) (by omega) (by omega) (fun i h1 h2 _ => ?_) rfl rfl).congr rfl
    fun i h1 h2 => if_neg (by omega)
  exact if_pos (by omega)

theorem kama_d {fast slow : K} (hf : fast + 1 ≠ 0) (hs : slow + 1 ≠ 0) {i : ℕ} (hi : p ≤ i + 1) {d : Ext K}
    (hd : d = let e := absv ((fin (x i) - fin (x (i - p))) / aggSum (wnd (fun i => absv ((fin (x i) : Ext K) - fin (x (i - q)))) p i)) *
          (lit 2 / (fin fast + lit 1) - lit 2 / (fin slow + lit 1)) + lit 2 / (fin slow + lit 1)
        e * e) :
    (Spec.volatility x p q i ≠ 0 → d = fin (Spec.kamaFactor fast slow x p q i)) ∧
    (Spec.volatility x p q i = 0 → x i = x (i - p) → d = nan) := by
  have hw : aggSum (wnd (fun i => absv ((fin (x i) : Ext K) - fin (x (i - q)))) p i) = fin (Spec.volatility x p q i) := by
    have := aggSum_wnd (fun i => |x i - x (i - q)|) hi
    simp only [Ext.fin_sub, Ext.absv_fin]
    exact this
  rw [hw] at hd
  have h2 : (lit 2 : Ext K) = fin 2 := by simp
  have h1 : (lit 1 : Ext K) = fin 1 := by simp
  rw [h1, h2] at hd
  simp only [Ext.fin_add, Ext.fin_sub, Ext.fin_div _ hf, Ext.fin_div _ hs] at hd
  constructor
  · intro h
    rw [Ext.fin_div _ h] at hd
    simp only [Ext.absv_fin, Ext.fin_mul, Ext.fin_add] at hd
    rw [hd]
    unfold Spec.kamaFactor
    have hv : 0 ≤ Spec.volatility x p q i := Finset.sum_nonneg fun _ _ => abs_nonneg _
    rw [abs_div, abs_of_nonneg hv, pow_two]
  · intro h he
    rw [h, Ext.fin_div_zero, he, sub_self] at hd
    rw [hd]
    simp [infSign]
    rfl

/-- **C19** (raw data, minimum period 1): if prices move in each window, kama follows the recursion
`k[i] = k[i-1] + sc[i] (x[i] - k[i-1])` from the seed before its first bar (mean or last value).  Missing: inputs with a
minimum period above 1, see `C19_raises`. -/
theorem C19_kama_partial {fast slow : K} (hf : fast + 1 ≠ 0) (hs : slow + 1 ≠ 0) (ha : Holds a n 1 x) (hp : 1 ≤ p)
    (hq : 1 ≤ q) (hn : p + q - 1 ≤ n) (last : Bool)
    (hv : ∀ i, p + q ≤ i + 1 → i < n → Spec.volatility x p q i ≠ 0) :
    Gives (Ind.kama (fin fast) (fin slow) q (if last then .last else .avg) p a) fun r => Shows r n (p + q) fun i =>
      Spec.adaptive (Spec.kamaFactor fast slow x p q) x (p + q - 2) (Spec.kamaSeed last x p (p + q - 2)) (i - (p + q - 2)) := by
  obtain ⟨d, hd, h⟩ := kama_rep (fin fast) (fin slow) ha hp hq hn last
  refine h.imp fun r hr => hr.congr rfl fun i h1 h2 => adaptV_fin _ _ _ _ _ _ fun k hk => ?_
  exact (kama_d hf hs (by omega) (hd _)).1 (hv _ (by omega) (by omega))

/-- **C19** (unchanged prices): if prices do not move at all in the window of one bar, the value is NaN at this bar and at all
later bars, also after prices start to move again. -/
theorem C19_flat_window {fast slow : K} (hf : fast + 1 ≠ 0) (hs : slow + 1 ≠ 0) (ha : Holds a n 1 x) (hp : 1 ≤ p)
    (hq : 1 ≤ q) (hn : p + q - 1 ≤ n) (last : Bool) {i : ℕ} (hi : p + q ≤ i + 1) (hin : i < n)
    (hflat : ∀ j, j < p + q → x (i - j) = x i) :
    Gives (Ind.kama (fin fast) (fin slow) q (if last then .last else .avg) p a) fun r =>
      ∀ j, i ≤ j → j < n → r.series[j]? = some nan := by
  obtain ⟨d, hd, h⟩ := kama_rep (fin fast) (fin slow) ha hp hq hn last
  refine h.imp fun r hr j h1 h2 => ?_
  rw [hr.val j (by omega) h2]
  congr 1
  refine adaptV_nan _ _ _ _ (k := i - (p + q - 1)) ?_ _ (by omega)
  rw [show p + q - 2 + (i - (p + q - 1)) + 1 = i from by omega]
  refine (kama_d hf hs (by omega) (hd _)).2 ?_ ?_
  · refine Finset.sum_eq_zero fun k hk => ?_
    have := Finset.mem_range.mp hk
    rw [hflat k (by omega), show i - k - q = i - (k + q) from by omega, hflat (k + q) (by omega)]
    simp
  · exact (hflat p (by omega)).symm

theorem sum_back_telescope (x : ℕ → K) (i : ℕ) : ∀ p, p ≤ i → ∑ j ∈ Finset.range p, (x (i - j) - x (i - j - 1)) = x i - x (i - p) := by
  intro p
  induction p with
  | zero => intro _; simp
  | succ p ih => intro h; rw [Finset.sum_range_succ, ih (by omega), show i - (p + 1) = i - p - 1 from by omega]; ring

/-- the factor lies in `[0, 1]` (volatility of one bar changes, as by default) -/
theorem kamaFactor_mem {fast slow : K} (hf : 1 ≤ fast) (hs : 1 ≤ slow) {i : ℕ} (hi : p ≤ i) :
    0 ≤ Spec.kamaFactor fast slow x p 1 i ∧ Spec.kamaFactor fast slow x p 1 i ≤ 1 := by
  have hle : |x i - x (i - p)| ≤ Spec.volatility x p 1 i := by
    rw [← sum_back_telescope x i p hi]
    exact Finset.abs_sum_le_sum_abs _ _
  have hv : 0 ≤ Spec.volatility x p 1 i := (abs_nonneg _).trans hle
  have he0 : 0 ≤ |x i - x (i - p)| / Spec.volatility x p 1 i := div_nonneg (abs_nonneg _) hv
  have he1 : |x i - x (i - p)| / Spec.volatility x p 1 i ≤ 1 := div_le_one_of_le₀ hle hv
  unfold Spec.kamaFactor
  generalize |x i - x (i - p)| / Spec.volatility x p 1 i = e at *
  have hA0 : 0 ≤ 2 / (fast + 1) := by positivity
  have hB0 : 0 ≤ 2 / (slow + 1) := by positivity
  have hA1 : 2 / (fast + 1) ≤ 1 := by rw [div_le_one (by linarith)]; linarith
  have hB1 : 2 / (slow + 1) ≤ 1 := by rw [div_le_one (by linarith)]; linarith
  generalize 2 / (fast + 1) = A at *
  generalize 2 / (slow + 1) = B at *
  have h0 : 0 ≤ e * (A - B) + B := by nlinarith
  have h1 : e * (A - B) + B ≤ 1 := by nlinarith
  exact ⟨by positivity, by nlinarith⟩

theorem adaptive_bounds {c x : ℕ → K} {s : ℕ} {v lo hi : K} (hv : lo ≤ v ∧ v ≤ hi) : ∀ j,
    (∀ k, s < k → k ≤ s + j → (0 ≤ c k ∧ c k ≤ 1) ∧ lo ≤ x k ∧ x k ≤ hi) →
    lo ≤ Spec.adaptive c x s v j ∧ Spec.adaptive c x s v j ≤ hi := by
  intro j
  induction j with
  | zero => intro _; exact hv
  | succ j ih =>
    intro h
    obtain ⟨h1, h2⟩ := ih fun k h1 h2 => h k h1 (by omega)
    obtain ⟨⟨h3, h4⟩, h5, h6⟩ := h (s + j + 1) (by omega) (by omega)
    unfold Spec.adaptive
    constructor <;> nlinarith

/-- **C19** (range): with the default volatility look-back and smoothing periods of at least 1, each value lies between the
bounds of the prices seen so far. -/
theorem C19_range {fast slow : K} (hf : 1 ≤ fast) (hs : 1 ≤ slow) (ha : Holds a n 1 x) (hp : 1 ≤ p) (hn : p ≤ n) (last : Bool)
    (hv : ∀ i, p + 1 ≤ i + 1 → i < n → Spec.volatility x p 1 i ≠ 0) :
    Gives (Ind.kama (fin fast) (fin slow) 1 (if last then .last else .avg) p a) fun r =>
      ∀ i, p ≤ i → i < n → ∃ v, r.series[i]? = some (fin v) ∧
        ∀ lo hi, (∀ j, j ≤ i → lo ≤ x j ∧ x j ≤ hi) → lo ≤ v ∧ v ≤ hi := by
  refine (C19_kama_partial (by linarith) (by linarith) ha hp (le_refl _) (by omega) last hv).imp fun r hr i h1 h2 =>
    ⟨_, hr.val i (by omega) h2, fun lo hi h => ?_⟩
  refine adaptive_bounds ?_ _ fun k h3 h4 => ⟨kamaFactor_mem hf hs (by omega), h k (by omega)⟩
  unfold Spec.kamaSeed
  cases last
  · simp only [Bool.false_eq_true, if_false]
    exact smaF_averages p hp x 0 (p + 1 - 2) lo hi (by unfold ext1; omega) fun j _ hj => h j (by omega)
  · simp only [if_true]
    exact h _ (by omega)

theorem adaptV_bounds {d : ℕ → Ext K} {x : ℕ → K} {s : ℕ} {v lo hi : K} (hv : lo ≤ v ∧ v ≤ hi) : ∀ j,
    (∀ k, s < k → k ≤ s + j → (d k = nan ∨ ∃ c, d k = fin c ∧ 0 ≤ c ∧ c ≤ 1) ∧ lo ≤ x k ∧ x k ≤ hi) →
    adaptV d (fun i => fin (x i)) s (fin v) j = nan ∨
      ∃ u, adaptV d (fun i => fin (x i)) s (fin v) j = fin u ∧ lo ≤ u ∧ u ≤ hi := by
  intro j
  induction j with
  | zero => intro _; exact .inr ⟨v, rfl, hv⟩
  | succ j ih =>
    intro h
    obtain ⟨hd, h5, h6⟩ := h (s + j + 1) (by omega) (by omega)
    rcases hd with hd | ⟨c, hd, h3, h4⟩
    · exact .inl (adaptV_nan d _ s _ hd _ (by omega))
    · rcases ih fun k h1 h2 => h k h1 (by omega) with hn | ⟨u, hu, h1, h2⟩
      · left; unfold adaptV; rw [hn]; rfl
      · right
        refine ⟨u + c * (x (s + j + 1) - u), ?_, by nlinarith, by nlinarith⟩
        unfold adaptV
        rw [hu, hd]
        simp

/-- **C13** kama (partial: plain data and the default volatility look-back of one bar; see `C13_kama_pvol_fails` for others,
`C19_raises` for the output of another indicator): each delivered value is NaN (from the first window without any change on,
`C19_flat_window`) or between the bounds of the prices seen so far. -/
theorem C13_kama_partial {fast slow : K} (hf : 1 ≤ fast) (hs : 1 ≤ slow) (ha : Holds a n 1 x) (hp : 1 ≤ p) (hn : p ≤ n)
    (last : Bool) :
    Gives (Ind.kama (fin fast) (fin slow) 1 (if last then .last else .avg) p a) fun r =>
      ∀ i, p ≤ i → i < n → ∀ lo hi, (∀ j, j ≤ i → lo ≤ x j ∧ x j ≤ hi) →
        r.series[i]? = some nan ∨ ∃ v, r.series[i]? = some (fin v) ∧ lo ≤ v ∧ v ≤ hi := by
  obtain ⟨d, hd, h⟩ := kama_rep (fin fast) (fin slow) ha hp (le_refl 1) (by omega) last
  refine h.imp fun r hr i h1 h2 lo hi hb => ?_
  rw [hr.val i (by omega) h2]
  have hseed : lo ≤ Spec.kamaSeed last x p (p + 1 - 2) ∧ Spec.kamaSeed last x p (p + 1 - 2) ≤ hi := by
    unfold Spec.kamaSeed
    cases last
    · simp only [Bool.false_eq_true, if_false]
      exact smaF_averages p hp x 0 (p + 1 - 2) lo hi (by unfold ext1; omega) fun j _ hj => hb j (by omega)
    · simp only [if_true]
      exact hb _ (by omega)
  have hfac : ∀ k, p ≤ k → d k = nan ∨ ∃ c, d k = fin c ∧ 0 ≤ c ∧ c ≤ 1 := by
    intro k hk
    obtain ⟨d1, d2⟩ := kama_d (p := p) (q := 1) (x := x) (i := k) (fast := fast) (slow := slow) (by linarith) (by linarith)
      (by omega) (hd k)
    by_cases hv : Spec.volatility x p 1 k = 0
    · left
      refine d2 hv ?_
      have hle : |x k - x (k - p)| ≤ Spec.volatility x p 1 k := by
        rw [← sum_back_telescope x k p hk]
        exact Finset.abs_sum_le_sum_abs _ _
      rw [hv] at hle
      exact sub_eq_zero.1 (abs_nonpos_iff.1 hle)
    · exact .inr ⟨_, d1 hv, kamaFactor_mem hf hs hk⟩
  rcases adaptV_bounds (d := d) (x := x) (s := p + 1 - 2) hseed (i - (p + 1 - 2)) (fun k h3 h4 => ⟨hfac k (by omega), hb k (by omega)⟩) with h | ⟨u, hu, h⟩
  · exact .inl (congrArg some h)
  · exact .inr ⟨u, congrArg some hu, h⟩

end exact

/-- rising prices: the efficiency ratio is 1, the factor 4/9 -/
example : Ind.kama (.fin 2) (.fin 30) 1 .avg 2 exData =
    .ok ⟨[.nan, .nan, .fin (47/18), .fin (739/162), .fin (10823/1458), .fin (147427/13122)], 3⟩ := by decide +kernel
/-- the same data as output of another indicator (minimum period 2) -/
example : Ind.kama (.fin 2) (.fin 30) 1 .avg 2 (exData.shift 1) = .error .indexError := by decide +kernel
/-- **C13** (negation, kama with `_pvol=2`): the prices 0.9, 0, 1 lie in [0, 1], kama does not. -/
theorem C13_kama_pvol_fails : ∃ r : Line (Ext ℚ), ∃ v : ℚ,
    Ind.kama (.fin 2) (.fin 30) 2 .last 1 (ofSeries [.fin (9/10), .fin 0, .fin 1]) = .ok r ∧
      r.minperiod = 3 ∧ r.series[2]? = some (.fin v) ∧ 1 < v := by
  refine ⟨⟨[.nan, .nan, .fin (320356/8649)], 3⟩, 320356/8649, ?_, rfl, rfl, by norm_num⟩
  decide +kernel

/-- C13, a case with a window without changes: NaN from there on, in range before -/
example : Ind.kama (.fin 2) (.fin 30) 1 .avg 1 (ofSeries [.fin 1, .fin 2, .fin 2, (.fin 5 : Ext ℚ)]) =
    .ok ⟨[.nan, .fin (13/9), .nan, .nan], 2⟩ := by decide +kernel

/-- three equal prices are enough to lose all later values (period 2) -/
example : Ind.kama (.fin 2) (.fin 30) 1 .last 2 (bars 6 fun i => if i = 0 then 1 else if i < 4 then 2 else (i : ℚ)) =
    .ok ⟨[.nan, .nan, .fin 2, .nan, .nan, .nan], 3⟩ := by decide +kernel

end Bta
