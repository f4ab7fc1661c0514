import Verif.Spec.Stat
import Verif.Lemmas.Osc
import Mathlib.Algebra.Order.BigOperators.Ring.Finset
import Mathlib.Tactic.LinearCombination

/-!
# Statistics
-/

set_option linter.unusedSectionVars false
set_option linter.unusedVariables false

namespace Bta
open Line Ext Finset

variable {K : Type} [Field K] [LinearOrder K] [IsStrictOrderedRing K]

/-! ### least squares -/

/-- determinant of the normal equations -/
def lsDet (X : ℕ → K) (p : ℕ) : K := p * ∑ k ∈ range p, X k ^ 2 - (∑ k ∈ range p, X k) ^ 2

/-- slope from the normal equations -/
def lsSlope (X Y : ℕ → K) (p : ℕ) : K :=
  (p * ∑ k ∈ range p, X k * Y k - (∑ k ∈ range p, X k) * ∑ k ∈ range p, Y k) / lsDet X p

/-- intercept from the normal equations -/
def lsIcpt (X Y : ℕ → K) (p : ℕ) : K := (∑ k ∈ range p, Y k - lsSlope X Y p * ∑ k ∈ range p, X k) / p

theorem sse_split (X Y : ℕ → K) (p : ℕ) (s b s' b' : K)
    (h0 : ∑ k ∈ range p, (Y k - (s * X k + b)) = 0) (h1 : ∑ k ∈ range p, (Y k - (s * X k + b)) * X k = 0) :
    Spec.sse X Y p s' b' = Spec.sse X Y p s b + ∑ k ∈ range p, ((s - s') * X k + (b - b')) ^ 2 := by
  have e : Spec.sse X Y p s' b' = ∑ k ∈ range p, ((Y k - (s * X k + b)) ^ 2 + ((s - s') * X k + (b - b')) ^ 2
      + 2 * (s - s') * ((Y k - (s * X k + b)) * X k) + 2 * (b - b') * (Y k - (s * X k + b))) :=
    sum_congr rfl fun k _ => by ring
  rw [e, sum_add_distrib, sum_add_distrib, sum_add_distrib, ← mul_sum, ← mul_sum, h0, h1]
  unfold Spec.sse
  ring

theorem ls_normal {X : ℕ → K} (Y : ℕ → K) {p : ℕ} (hp : 1 ≤ p) (hD : lsDet X p ≠ 0) :
    ∑ k ∈ range p, (Y k - (lsSlope X Y p * X k + lsIcpt X Y p)) = 0 ∧
    ∑ k ∈ range p, (Y k - (lsSlope X Y p * X k + lsIcpt X Y p)) * X k = 0 := by
  have hpk : (p : K) ≠ 0 := by exact_mod_cast (by omega : p ≠ 0)
  have e1 : ∑ k ∈ range p, (Y k - (lsSlope X Y p * X k + lsIcpt X Y p))
      = ∑ k ∈ range p, Y k - lsSlope X Y p * ∑ k ∈ range p, X k - p * lsIcpt X Y p := by
    rw [sum_sub_distrib, sum_add_distrib, ← mul_sum, sum_const, card_range, nsmul_eq_mul]; ring
  have e2 : ∑ k ∈ range p, (Y k - (lsSlope X Y p * X k + lsIcpt X Y p)) * X k
      = ∑ k ∈ range p, X k * Y k - lsSlope X Y p * ∑ k ∈ range p, X k ^ 2 - lsIcpt X Y p * ∑ k ∈ range p, X k := by
    rw [mul_sum, mul_sum, ← sum_sub_distrib, ← sum_sub_distrib]
    exact sum_congr rfl fun k _ => by ring
  have hs : lsSlope X Y p * lsDet X p = p * ∑ k ∈ range p, X k * Y k - (∑ k ∈ range p, X k) * ∑ k ∈ range p, Y k := by
    unfold lsSlope; rw [div_mul_cancel₀ _ hD]
  have hb : lsIcpt X Y p * p = ∑ k ∈ range p, Y k - lsSlope X Y p * ∑ k ∈ range p, X k := by
    unfold lsIcpt; rw [div_mul_cancel₀ _ hpk]
  unfold lsDet at hs
  rw [e1, e2]
  constructor
  · linear_combination -hb
  · apply mul_left_cancel₀ hpk
    linear_combination -hs - (∑ k ∈ range p, X k) * hb

theorem ls_best {X : ℕ → K} (Y : ℕ → K) {p : ℕ} (hp : 1 ≤ p) (hD : lsDet X p ≠ 0) :
    Spec.LeastSquares X Y p (lsSlope X Y p) (lsIcpt X Y p) := by
  intro s' b'
  obtain ⟨h0, h1⟩ := ls_normal Y hp hD
  rw [sse_split X Y p _ _ s' b' h0 h1]
  exact le_add_of_nonneg_right (sum_nonneg fun k _ => sq_nonneg _)

theorem ls_unique {X : ℕ → K} (Y : ℕ → K) {p : ℕ} (hp : 1 ≤ p) (hD : lsDet X p ≠ 0) {s b : K}
    (h : Spec.LeastSquares X Y p s b) : s = lsSlope X Y p ∧ b = lsIcpt X Y p := by
  obtain ⟨h0, h1⟩ := ls_normal Y hp hD
  have h2 := h (lsSlope X Y p) (lsIcpt X Y p)
  rw [sse_split X Y p _ _ s b h0 h1] at h2
  set u := lsSlope X Y p - s with hu
  set w := lsIcpt X Y p - b with hw
  have h3 : ∑ k ∈ range p, (u * X k + w) ^ 2 = 0 :=
    le_antisymm (by linarith) (sum_nonneg fun k _ => sq_nonneg _)
  have h4 : ∀ k ∈ range p, u * X k + w = 0 := fun k hk => by
    have := (sum_eq_zero_iff_of_nonneg fun k _ => sq_nonneg (u * X k + w)).mp h3 k hk
    exact pow_eq_zero_iff (two_ne_zero) |>.mp this
  have hz : u = 0 := by
    by_contra hne
    apply hD
    have h5 : ∀ k ∈ range p, X k = -w / u := fun k hk => by
      have := h4 k hk
      field_simp
      linear_combination this
    unfold lsDet
    rw [sum_congr rfl h5, sum_congr rfl (g := fun _ => (-w / u) ^ 2) fun k hk => by rw [h5 k hk]]
    simp only [sum_const, card_range, nsmul_eq_mul]
    ring
  have hz2 : w = 0 := by
    have := h4 0 (mem_range.mpr hp)
    rw [hz] at this
    simpa using this
  constructor <;> linarith

/-! ### sums of positions -/

theorem sum_pos_lin (q : ℕ) : ∀ p : ℕ, ∑ k ∈ range p, ((q + k : ℕ) : K) = p * q + p * (p - 1) / 2 := by
  intro p
  induction p with
  | zero => simp
  | succ p ih => rw [sum_range_succ, ih]; push_cast; ring

theorem sum_pos_sq (q : ℕ) : ∀ p : ℕ, ∑ k ∈ range p, ((q + k : ℕ) : K) ^ 2
    = p * q ^ 2 + q * p * (p - 1) + (p - 1) * p * (2 * p - 1) / 6 := by
  intro p
  induction p with
  | zero => simp
  | succ p ih => rw [sum_range_succ, ih]; push_cast; ring

/-- position of the value `k` bars back -/
def posBack (q p k : ℕ) : ℕ := q + (p - 1 - k)

theorem sum_posBack {M : Type} [AddCommMonoid M] (f : ℕ → M) (q p : ℕ) :
    ∑ k ∈ range p, f (posBack q p k) = ∑ k ∈ range p, f (q + k) :=
  sum_range_reflect (fun k => f (q + k)) p

theorem det_pos (q : ℕ) {p : ℕ} (hp : 2 ≤ p) : lsDet (fun k => (posBack q p k : K)) p ≠ 0 := by
  have h1 : (2 : K) ≤ p := by exact_mod_cast hp
  unfold lsDet
  rw [sum_posBack (fun k => (k : K) ^ 2), sum_posBack (fun k => (k : K)), sum_pos_lin, sum_pos_sq]
  have : (p : K) * (p * q ^ 2 + q * p * (p - 1) + (p - 1) * p * (2 * p - 1) / 6) - (p * q + p * (p - 1) / 2) ^ 2
      = p ^ 2 * ((p - 1) * (p + 1)) / 12 := by ring
  rw [this]
  have h2 : (0 : K) < p - 1 := by linarith
  positivity

/-! ### windows -/

theorem map_wnd {α β : Type} (f : α → β) (x : ℕ → α) (w i : ℕ) : (wnd x w i).map f = wnd (fun i => f (x i)) w i := by
  simp [wnd, Function.comp_def]

theorem aggVar_wnd (ddof : ℕ) (x : ℕ → K) {w i : ℕ} (hd : ddof < w) (hw : w ≤ i + 1) :
    aggVar ddof (wnd (fun i => (fin (x i) : Ext K)) w i) = fin (Spec.winVar ddof x w i) := by
  have hwk : (w : K) ≠ 0 := by exact_mod_cast (by omega : w ≠ 0)
  have hdk : (ddof : K) < w := by exact_mod_cast hd
  unfold aggVar whenAllFin
  rw [wnd_fin, if_pos (all_fin _)]
  simp only []
  rw [List.length_map, wnd_length, if_pos hd, sumV_fin, wnd_sum x hw]
  rw [show (lit (w : ℚ) : Ext K) = fin (w : K) from by simp, Ext.fin_div _ hwk]
  have hm : ((wnd x w i).map (fin : K → Ext K)).map (fun y => (y - fin (Spec.winSum x w i / w)) * (y - fin (Spec.winSum x w i / w)))
      = (wnd (fun j => (x j - Spec.winMean x w i) ^ 2) w i).map fin := by
    rw [← map_wnd (fun z => (z - Spec.winMean x w i) ^ 2), List.map_map, List.map_map]
    refine List.map_congr_left fun z _ => ?_
    simp only [Function.comp, Ext.fin_sub, Ext.fin_mul, pow_two]
    rfl
  rw [hm, sumV_fin, wnd_sum _ hw]
  rw [show (lit ((w : ℚ) - ddof) : Ext K) = fin ((w : K) - ddof) from by simp, Ext.fin_div _ (by linarith)]
  rfl

theorem ffillGo_fin (l : List K) : ∀ p : Ext K, ffillGo p (l.map (fin : K → Ext K)) = l.map fin := by
  induction l with
  | nil => intro p; rfl
  | cons y ys ih => intro p; simp [ffillGo, ih]

theorem Holds.pctChange {a : Line (Ext K)} {n m : ℕ} {x : ℕ → K} (ha : Holds a n m x) (s : ℕ)
    (h0 : ∀ i, m ≤ i + 1 → i < n → x i ≠ 0) :
    Shows (Line.pctChange s a) n (m + s) (fun i => x i / x (i - s) - 1) := by
  have hpos := ha.pos
  unfold Line.pctChange
  have hff : ffillL (tail n (m - 1) fun i => (fin (x i) : Ext K)) = tail n (m - 1) fun i => fin (x i) := by
    rw [← map_tail (fin : K → Ext K)]
    exact ffillGo_fin _ _
  have hF : pctChangeL s (tail n (m - 1) fun i => (fin (x i) : Ext K)) = tail n (m - 1) fun i =>
      if i < m - 1 + s then nan else fin (x i) / fin (x (i - s)) - lit 1 := by
    unfold pctChangeL
    rw [hff]
    refine tail_ext ?_ fun j hj => ?_
    · simp only [List.length_append, List.length_replicate, List.length_zipWith, List.length_drop, tail_length]; omega
    · by_cases h : j < s
      · rw [List.getElem?_append_left (by simp; omega), if_pos (by omega)]
        rw [List.getElem?_replicate, if_pos (by simp; omega)]
      · rw [List.getElem?_append_right (by simp; omega), if_neg (by omega)]
        simp only [List.length_replicate, tail_length]
        rw [List.getElem?_zipWith, List.getElem?_drop, tail_get _ _ _ _ (by omega), tail_get _ _ _ _ (by omega)]
        simp only [Option.some.injEq]
        have e1 : s + (j - min s (n - (m - 1))) + (m - 1) = j + (m - 1) := by omega
        have e2 : j - min s (n - (m - 1)) + (m - 1) = j + (m - 1) - s := by omega
        rw [e1, e2]
  have := rep_stdop (fill := (nan : Ext K)) (inc := s) ha hF (by
    intro i h1 h2 _; rw [if_pos (by omega)])
  refine this.congr rfl fun i h1 h2 => ?_
  rw [if_neg (by omega), Ext.fin_div _ (h0 _ (by omega) (by omega)), show (lit 1 : Ext K) = fin 1 from by simp, Ext.fin_sub]

end Bta
