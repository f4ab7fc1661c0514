import Verif.Lemmas.Ranges
import Verif.Props.Price

/-!
# Directional movement: C28, C29, C63
-/

set_option linter.unusedSectionVars false
set_option linter.unusedVariables false

namespace Bta
open Line Ext

variable {K : Type} [Field K] [LinearOrder K] [IsStrictOrderedRing K]
variable {a h l c v : Line (Ext K)} {n m mh ml mc : ℕ} {x H L C : ℕ → K}

/-! ## C63 -/

/-- Wilder's accumulation: starts with `seed` at bar `s`, then previous - previous/p + new value; `j` bars after `s` -/
def _root_.Spec.wilderAcc (p : ℕ) (x : ℕ → K) (s : ℕ) (seed : K) : ℕ → K
  | 0 => seed
  | j + 1 => Spec.wilderAcc p x s seed j - Spec.wilderAcc p x s seed j / p + x (s + j + 1)

theorem accRec_wilder {p : ℕ} (hp : 1 ≤ p) (x : ℕ → K) (s : ℕ) (v : K) (j : ℕ) :
    accRec 1 (((p : K) - 1) / p) x s v j = Spec.wilderAcc p x s v j := by
  have hpk : (p : K) ≠ 0 := by exact_mod_cast (by omega : p ≠ 0)
  induction j with
  | zero => rfl
  | succ j ih => simp only [accRec, Spec.wilderAcc, ih]; field_simp

theorem wilder_smma {p : ℕ} (hp : 1 ≤ p) (x : ℕ → K) (s : ℕ) (v : K) (j : ℕ) :
    Spec.wilderAcc p x s (p * v) j = p * Spec.expRec (1 / (p : K)) x s v j := by
  have hpk : (p : K) ≠ 0 := by exact_mod_cast (by omega : p ≠ 0)
  induction j with
  | zero => rfl
  | succ j ih => simp only [Spec.wilderAcc, Spec.expRec, ih]; field_simp; ring

theorem beta_lit {p : ℕ} (hp : 1 ≤ p) : (lit ((p : ℚ) - 1) / lit (p : ℚ) : Ext K) = fin (((p : K) - 1) / p) := by
  have hpk : (p : K) ≠ 0 := by exact_mod_cast (by omega : p ≠ 0)
  rw [show (lit ((p : ℚ) - 1) : Ext K) = fin ((p : K) - 1) from by simp, show (lit (p : ℚ) : Ext K) = fin (p : K) from by simp,
    Ext.fin_div _ hpk]

theorem beta_ok {p : ℕ} (hp : 1 ≤ p) : ((p : K) - 1) / p ≠ 0 ∨ ((p : K) - 1) / p = 1 - 1 := by
  rcases Nat.lt_or_ge 1 p with h | h
  · left
    have h1 : (1 : K) < p := by exact_mod_cast h
    exact div_ne_zero (by linarith) (by linarith)
  · right
    rw [show p = 1 from by omega]; simp

/-- **C63** (recursion): `smacc` starts with the sum of the first `p` values and goes on with
previous - previous/p + new value. -/
theorem C63_recursion (scipy : Bool) (ha : Holds a n m x) {p : ℕ} (hp : 1 ≤ p) (hn : m + p - 1 ≤ n) :
    ∃ y : ℕ → K, (Gives (Ind.smacc scipy false .sum p a) fun r => Shows r n (m + p - 1) y) ∧
      y (m + p - 2) = ∑ j ∈ Finset.range p, x (m - 1 + j) ∧
      ∀ i, m + p - 1 ≤ i → y i = y (i - 1) - y (i - 1) / p + x i := by
  have hpos := ha.pos
  have hp2 : EwmCfg.p2 { pval := (p : Int), pearly := (0 : Int), seed := .sum } a.minperiod = ((m + p - 1 : ℕ) : Int) := by
    unfold EwmCfg.p2
    simp only [ha.mp, ne_eq, not_true_eq_false, if_false]
    rw [if_neg (by omega)]
    omega
  obtain ⟨r, h1, h2⟩ := rep_ewmLfilter (c := { pval := (p : Int), pearly := (0 : Int), seed := .sum }) ha scipy hp2
    (by omega) hn (by simp only; omega) (seedVal_sum ha hp (by omega) hn) one_ne_zero (beta_ok hp)
  refine ⟨fun i => Spec.wilderAcc p x (m + p - 2) (Spec.winSum x p (m + p - 2)) (i - (m + p - 2)),
    ⟨r, ?_, shows_congr h2 rfl fun i _ _ => ?_⟩, ?_, fun i hi => ?_⟩
  · rw [← h1]
    unfold Ind.smacc
    rw [beta_lit hp, show (lit 1 : Ext K) = fin 1 from by simp]
    rfl
  · rw [accRec_wilder hp, show m + p - 1 - 1 = m + p - 2 from by omega]
  · simp only [Nat.sub_self]
    unfold Spec.wilderAcc Spec.winSum
    rw [← Finset.sum_range_reflect]
    refine Finset.sum_congr rfl fun j hj => ?_
    have := Finset.mem_range.mp hj
    congr 1; omega
  · obtain ⟨j, rfl⟩ : ∃ j, i = m + p - 2 + (j + 1) := ⟨i - (m + p - 1), by omega⟩
    simp only [show m + p - 2 + (j + 1) - (m + p - 2) = j + 1 from by omega,
      show m + p - 2 + (j + 1) - 1 - (m + p - 2) = j from by omega]
    rfl

/-- the accumulation as a moving average formula: `p` times Wilder's average -/
def accF (p : ℕ) (x : ℕ → K) (b i : ℕ) : K := p * Spec.smma x b p i

theorem smacc_isMA (scipy : Bool) : IsMA (Ind.smacc scipy false .sum : MA (Ext K)) accF ext1 := by
  intro p hp a n m x ha hn
  have hpos := ha.pos
  have hpk : (p : K) ≠ 0 := by exact_mod_cast (by omega : p ≠ 0)
  unfold ext1 at hn
  obtain ⟨y, hy, h0, hs⟩ := C63_recursion scipy ha hp (by omega)
  refine hy.imp fun r hr => shows_congr hr (by unfold ext1; omega) fun i h1 _ => ?_
  unfold accF Spec.smma Spec.expAvg
  rw [← wilder_smma hp, show m - 1 + p - 1 = m + p - 2 from by omega]
  have e : (p : K) * Spec.winMean x p (m + p - 2) = y (m + p - 2) := by
    unfold Spec.winMean Spec.winSum
    rw [h0, mul_div_cancel₀ _ hpk, ← Finset.sum_range_reflect]
    refine Finset.sum_congr rfl fun j hj => ?_
    have := Finset.mem_range.mp hj
    congr 1; omega
  rw [e]
  have : ∀ j, y (m + p - 2 + j) = Spec.wilderAcc p x (m + p - 2) (y (m + p - 2)) j := by
    intro j
    induction j with
    | zero => rfl
    | succ j ih =>
      rw [hs _ (by omega), show m + p - 2 + (j + 1) - 1 = m + p - 2 + j from by omega, ih]
      rfl
  unfold ext1 at h1
  rw [← this (i - (m + p - 2)), show m + p - 2 + (i - (m + p - 2)) = i from by omega]

/-- **C63**: bar by bar, `smacc` is `p` times the Wilder average `smma` of the same data. -/
theorem C63_smacc (scipy : Bool) (ha : Holds a n m x) {p : ℕ} (hp : 1 ≤ p) (hn : m + (p - 1) ≤ n) :
    Gives (Ind.smacc scipy false .sum p a) fun r => Gives (Ind.smma p a) fun s =>
      ∃ y, Shows s n (m + (p - 1)) y ∧ Shows r n (m + (p - 1)) fun i => p * y i :=
  (smacc_isMA scipy p hp a n m x ha hn).imp fun r hr => (smma_isMA p hp a n m x ha hn).imp fun s hs => ⟨_, hs, hr⟩

example : Ind.smacc true false .sum 2 exData = .ok ⟨[.nan, .fin 3, .fin (11/2), .fin (39/4), .fin (127/8), .fin (383/16)], 2⟩ ∧
    Ind.smma 2 exData = .ok ⟨[.nan, .fin (3/2), .fin (11/4), .fin (39/8), .fin (127/16), .fin (383/32)], 2⟩ := by
  decide +kernel

/-! ## smoothers of directional movement -/

/-- What `_smoother` with its arguments is used for: applied to a line with minimum period at least 2 (movements compare
with an earlier bar) and NaN before it. Formula `G x b i`; `d` more bars are needed. -/
def IsSmoother (S : Line (Ext K) → Except Err (Line (Ext K))) (G : (ℕ → K) → ℕ → ℕ → K) (d : ℕ) : Prop :=
  ∀ (a : Line (Ext K)) (n m : ℕ) (x : ℕ → K), Shows a n m x → 2 ≤ m → m + d ≤ n →
    Gives (S a) fun r => Shows r n (m + d) (G x (m - 1))

/-- The smoothing of greater data is greater, that of 0 is 0. -/
structure Sums (G : (ℕ → K) → ℕ → ℕ → K) (d : ℕ) : Prop where
  mono : ∀ (x y : ℕ → K) (b i : ℕ), b + d ≤ i → (∀ j, b ≤ j → j ≤ i → x j ≤ y j) → G x b i ≤ G y b i
  zero : ∀ b i, b + d ≤ i → G (fun _ => 0) b i = 0

theorem IsMA.smoother {f : MA (Ext K)} {F : ℕ → (ℕ → K) → ℕ → ℕ → K} {e : ℕ → ℕ} (hf : IsMA f F e) {p : ℕ} (hp : 1 ≤ p) :
    IsSmoother (f p) (F p) (e p) := fun a n m x ha _ hn => hf p hp a n m x ha.toRepW hn

theorem Mono.sums {F : ℕ → (ℕ → K) → ℕ → ℕ → K} {e : ℕ → ℕ} (hM : Mono F e) (hA : Affine F e) {p : ℕ} (hp : 1 ≤ p) :
    Sums (F p) (e p) := ⟨fun x y b i h1 h2 => hM p hp x y b i h1 h2, fun b i h => hA.zero p hp b i h⟩

theorem accF_sums {p : ℕ} (hp : 1 ≤ p) : Sums (accF p : (ℕ → K) → ℕ → ℕ → K) (ext1 p) := by
  refine ⟨fun x y b i h1 h2 => ?_, fun b i h => ?_⟩
  · exact mul_le_mul_of_nonneg_left (smmaF_mono p hp x y b i h1 h2) (Nat.cast_nonneg p)
  · have := smmaF_affine.zero p hp b i h (K := K)
    unfold smmaF at this
    unfold accF
    rw [this, mul_zero]

/-- accumulation seeded one bar earlier, with the sum of the first `p - 1` values (`_pearly`) -/
def accEarlyF (p : ℕ) (x : ℕ → K) (b i : ℕ) : K :=
  Spec.wilderAcc p x (b + (p - 2)) (∑ j ∈ Finset.range (p - 1), x (b + j)) (i - (b + (p - 2)))

theorem smacc_early (scipy : Bool) {p : ℕ} (hp : 2 ≤ p) :
    IsSmoother (Ind.smacc scipy true .sum p : Line (Ext K) → _) (accEarlyF p) (p - 2) := by
  intro a n m x ha hm hn
  have hp2 : EwmCfg.p2 { pval := (p : Int), pearly := (1 : Int), seed := .sum } a.minperiod = ((m + (p - 2) : ℕ) : Int) := by
    unfold EwmCfg.p2
    simp only [ha.mp, ne_eq, not_true_eq_false, if_false]
    rw [if_neg (by omega)]
    omega
  have hseed : seedVal .sum a.series (((m + (p - 2) : ℕ) : Int) - p) (((m + (p - 2) : ℕ) : Int) - 1) ((m + (p - 2) : ℕ) : Int)
      = fin (∑ j ∈ Finset.range (p - 1), x (m - 1 + j)) := by
    unfold seedVal
    simp only []
    have hsl : pySlice a.series (((m + (p - 2) : ℕ) : Int) - p) ((m + (p - 2) : ℕ) : Int)
        = nan :: wnd (fun i => (fin (x i) : Ext K)) (p - 1) (m + (p - 2) - 1) := by
      rw [← slice_wnd ha.toRepW (p := p - 1) (P2 := m + (p - 2)) (by omega) (by omega) (by omega)]
      unfold pySlice
      rw [show (((m + (p - 2) : ℕ) : Int) - p) = ((m - 2 : ℕ) : Int) from by omega,
        show (((m + (p - 2) : ℕ) : Int) - ((p - 1 : ℕ) : Int)) = ((m - 1 : ℕ) : Int) from by omega, pyStart_nat, pyStart_nat,
        pyStart_nat, ha.len, Nat.min_eq_left (by omega : m - 2 ≤ n), Nat.min_eq_left (by omega : m - 1 ≤ n),
        Nat.min_eq_left (by omega : m + (p - 2) ≤ n)]
      have h0 := ha.pre (m - 2) (by omega) (by omega)
      have hlt : m - 2 < a.series.length := by rw [ha.len]; omega
      have hlt' : m - 2 < (a.series.take (m + (p - 2))).length := by rw [List.length_take, ha.len]; omega
      rw [List.drop_eq_getElem_cons hlt', show m - 2 + 1 = m - 1 from by omega]
      congr 1
      rw [List.getElem?_eq_getElem hlt] at h0
      rw [List.getElem_take]
      exact Option.some.inj h0
    rw [hsl]
    unfold sumSkipNa
    rw [List.filter_cons_of_neg (by simp)]
    have := sumSkipNa_wnd x (w := p - 1) (i := m + (p - 2) - 1) (by omega)
    unfold sumSkipNa at this
    rw [this]
    congr 1
    unfold Spec.winSum
    rw [← Finset.sum_range_reflect]
    refine Finset.sum_congr rfl fun j hj => ?_
    have := Finset.mem_range.mp hj
    congr 1; omega
  obtain ⟨r, h1, h2⟩ := rep_ewmLfilter (c := { pval := (p : Int), pearly := (1 : Int), seed := .sum }) ha.toRepW scipy hp2
    (by omega) (by omega) (by simp only; omega) hseed one_ne_zero (beta_ok (p := p) (by omega))
  refine ⟨r, ?_, shows_congr h2 rfl fun i _ _ => ?_⟩
  · rw [← h1]
    unfold Ind.smacc
    rw [beta_lit (by omega), show (lit 1 : Ext K) = fin 1 from by simp]
    rfl
  · rw [accRec_wilder (p := p) (by omega)]
    unfold accEarlyF
    rw [show m + (p - 2) - 1 = m - 1 + (p - 2) from by omega]

theorem wilder_mono {p : ℕ} (hp : 1 ≤ p) {x y : ℕ → K} {s : ℕ} {v w : K} (hv : v ≤ w) : ∀ k,
    (∀ j, s ≤ j → j ≤ s + k → x j ≤ y j) → Spec.wilderAcc p x s v k ≤ Spec.wilderAcc p y s w k := by
  intro k
  have hpk : (1 : K) ≤ p := by exact_mod_cast hp
  induction k with
  | zero => intro _; exact hv
  | succ k ih =>
    intro h
    have h1 := ih fun j q1 q2 => h j q1 (by omega)
    have h2 := h (s + k + 1) (by omega) (by omega)
    simp only [Spec.wilderAcc]
    have e : ∀ z : K, z - z / p = z * (1 - 1 / p) := fun z => by ring
    rw [e (Spec.wilderAcc p x s v k), e (Spec.wilderAcc p y s w k)]
    have h3 : 0 ≤ 1 - 1 / (p : K) := by
      rw [sub_nonneg, div_le_one (by linarith)]; exact hpk
    linarith [mul_le_mul_of_nonneg_right h1 h3]

theorem accEarlyF_sums {p : ℕ} (hp : 2 ≤ p) : Sums (accEarlyF p : (ℕ → K) → ℕ → ℕ → K) (p - 2) := by
  refine ⟨fun x y b i h1 h2 => wilder_mono (by omega) ?_ _ fun j q1 q2 => h2 j (by omega) (by omega), fun b i h => ?_⟩
  · refine Finset.sum_le_sum fun j hj => ?_
    have := Finset.mem_range.mp hj
    exact h2 _ (by omega) (by omega)
  · unfold accEarlyF
    rw [Finset.sum_const_zero]
    generalize i - (b + (p - 2)) = k
    induction k with
    | zero => rfl
    | succ k ih => simp only [Spec.wilderAcc, ih]; simp

/-! ## C28 -/

/-- +DM of a bar: the rise of the high, if it is positive and exceeds the fall of the low -/
def _root_.Spec.plusDM (H L : ℕ → K) (q i : ℕ) : K :=
  if L (i - q) - L i < H i - H (i - q) ∧ 0 < H i - H (i - q) then H i - H (i - q) else 0
/-- -DM of a bar: the fall of the low, if it is positive and exceeds the rise of the high -/
def _root_.Spec.minusDM (H L : ℕ → K) (q i : ℕ) : K :=
  if H i - H (i - q) < L (i - q) - L i ∧ 0 < L (i - q) - L i then L (i - q) - L i else 0

theorem dmV {u d : K} : (fin (max u 0) * ofBool (lt (fin d) (fin u)) : Ext K) = fin (if d < u ∧ 0 < u then u else 0) := by
  simp only [Ext.lt_fin]
  by_cases h1 : d < u
  · rw [decide_eq_true h1, ofBool_true, Ext.fin_mul, mul_one]
    congr 1
    by_cases h2 : 0 < u
    · rw [if_pos ⟨h1, h2⟩, max_eq_left h2.le]
    · rw [if_neg (by tauto), max_eq_right (not_lt.mp h2)]
  · rw [decide_eq_false h1, ofBool_false, Ext.fin_mul, mul_zero, if_neg (by tauto)]

theorem dm1_shows (hh : Holds h n m H) (hl : Holds l n m L) {q : ℕ} (hq : 1 ≤ q) :
    Shows (Ind.pdm1 q h l) n (m + q) (Spec.plusDM H L q) ∧ Shows (Ind.mdm1 q h l) n (m + q) (Spec.minusDM H L q) := by
  have hu := hh.diff q
  have hd : Shows (ago (-(q : Int)) l - l) n (m + q) (fun i => L (i - q) - L i) :=
    shows_congr (Holds.sub (hl.ago hq).toRepW hl) (by omega) fun _ _ _ => rfl
  have z : (lit 0 : Ext K) = fin 0 := by simp
  constructor
  · unfold Ind.pdm1 Ind.dmMoves
    simp only [z]
    exact (rep_mulB (Holds.clipLoS hu.toRepW 0).toRepW (rep_gtL hu.toRepW hd.toRepW).toRepW).congr (by omega) fun i _ _ => dmV
  · unfold Ind.mdm1 Ind.dmMoves
    simp only [z]
    exact (rep_mulB (Holds.clipLoS hd.toRepW 0).toRepW (rep_gtL hd.toRepW hu.toRepW).toRepW).congr (by omega) fun i _ _ => dmV

theorem plusDM_nonneg (H L : ℕ → K) (q i : ℕ) : 0 ≤ Spec.plusDM H L q i := by
  unfold Spec.plusDM; split
  · rename_i h; exact h.2.le
  · exact le_refl _
theorem minusDM_nonneg (H L : ℕ → K) (q i : ℕ) : 0 ≤ Spec.minusDM H L q i := by
  unfold Spec.minusDM; split
  · rename_i h; exact h.2.le
  · exact le_refl _

/-- **C28** (movement of one bar): the model's +DM and -DM before smoothing are the formulas above, never negative, and
never both positive.  With the period 1 the smoothing is the identity, so that this is `plus_dm(period=1)`. -/
theorem C28_exclusive (hh : Holds h n m H) (hl : Holds l n m L) {q : ℕ} (hq : 1 ≤ q) :
    ∃ P M : ℕ → K, Shows (Ind.pdm1 q h l) n (m + q) P ∧ Shows (Ind.mdm1 q h l) n (m + q) M ∧
      ∀ i, 0 ≤ P i ∧ 0 ≤ M i ∧ ¬ (0 < P i ∧ 0 < M i) ∧
        (0 < P i → P i = H i - H (i - q)) ∧ (0 < M i → M i = L (i - q) - L i) := by
  obtain ⟨h1, h2⟩ := dm1_shows hh hl hq
  refine ⟨_, _, h1, h2, fun i => ⟨plusDM_nonneg H L q i, minusDM_nonneg H L q i, ?_, ?_, ?_⟩⟩
  · unfold Spec.plusDM Spec.minusDM
    rintro ⟨a1, a2⟩
    split at a1
    · split at a2
      · rename_i b1 b2; exact lt_asymm b1.1 b2.1
      · exact lt_irrefl _ a2
    · exact lt_irrefl _ a1
  · unfold Spec.plusDM; intro a1; split at a1
    · rename_i b; rw [if_pos b]
    · exact absurd a1 (lt_irrefl _)
  · unfold Spec.minusDM; intro a1; split at a1
    · rename_i b; rw [if_pos b]
    · exact absurd a1 (lt_irrefl _)

section smooth
variable {S : Line (Ext K) → Except Err (Line (Ext K))} {G : (ℕ → K) → ℕ → ℕ → K} {d : ℕ}

/-- **C28** (dm): smoothed movements are never negative. -/
theorem C28_dm (hS : IsSmoother S G d) (hG : Sums G d) (hh : Holds h n m H) (hl : Holds l n m L) {q : ℕ} (hq : 1 ≤ q)
    (hn : m + q + d ≤ n) :
    Gives (Ind.dm S q h l) fun r => ∃ P M : ℕ → K, Shows r.1 n (m + q + d) P ∧ Shows r.2 n (m + q + d) M ∧
      (∀ i, m + q + d ≤ i + 1 → P i = G (Spec.plusDM H L q) (m + q - 1) i ∧ M i = G (Spec.minusDM H L q) (m + q - 1) i) ∧
      ∀ i, m + q + d ≤ i + 1 → 0 ≤ P i ∧ 0 ≤ M i := by
  have hpos := hh.pos
  obtain ⟨h1, h2⟩ := dm1_shows hh hl hq
  unfold Ind.dm Ind.plusDm Ind.minusDm
  refine Gives.bind (hS _ n _ _ h1 (by omega) hn) fun r hr => Gives.bind (hS _ n _ _ h2 (by omega) hn) fun s hs => Gives.pure
    ⟨_, _, hr, hs, fun i _ => ⟨rfl, rfl⟩, fun i hi => ⟨?_, ?_⟩⟩
  · rw [← hG.zero (m + q - 1) i (by omega)]
    exact hG.mono _ _ _ _ (by omega) fun j _ _ => plusDM_nonneg H L q j
  · rw [← hG.zero (m + q - 1) i (by omega)]
    exact hG.mono _ _ _ _ (by omega) fun j _ _ => minusDM_nonneg H L q j

theorem dm_le_range (H L C : ℕ → K) (q i : ℕ) (hv : L (i - q) ≤ C (i - q) ∧ C (i - q) ≤ H (i - q)) :
    Spec.plusDM H L q i ≤ Spec.trueRange H L C q i ∧ Spec.minusDM H L q i ≤ Spec.trueRange H L C q i := by
  unfold Spec.plusDM Spec.minusDM
  have h0 := trueRange_nonneg H L C q i
  have h1 : H i - C (i - q) ≤ Spec.trueRange H L C q i :=
    le_max_of_le_right (le_max_of_le_left (le_abs_self _))
  have h2 : -(L i - C (i - q)) ≤ Spec.trueRange H L C q i :=
    le_max_of_le_right (le_max_of_le_right (neg_le_abs _))
  constructor
  · split
    · linarith
    · exact h0
  · split
    · linarith
    · exact h0

/-- the directional indicators: exact values, and the minimum period, one more than that of the operands -/
theorem di_core (hS : IsSmoother S G d) (hh : Holds h n m H) (hl : Holds l n m L) (hc : Holds c n m C) {q : ℕ} (hq : 1 ≤ q)
    (hv : ∀ i, m ≤ i + 1 → i < n → L i ≤ H i) (hn : m + q + d ≤ n) (talib : Bool) :
    (Gives (Ind.plusDi S q talib h l c) fun r => Delivers r n (m + q + d + 1) fun i =>
      fin (100 * G (Spec.plusDM H L q) (m + q - 1) i) / fin (G (Spec.trueRange H L C q) (m + q - 1) i)) ∧
    (Gives (Ind.minusDi S q talib h l c) fun r => Delivers r n (m + q + d + 1) fun i =>
      fin (100 * G (Spec.minusDM H L q) (m + q - 1) i) / fin (G (Spec.trueRange H L C q) (m + q - 1) i)) := by
  have hpos := hh.pos
  obtain ⟨h1, h2⟩ := dm1_shows hh hl hq
  obtain ⟨t1, -⟩ := C27_truerange hh hl hc hq fun i h1 h2 => hv i (by omega) h2
  have ht : Shows (Ind.truerange q h l c) n (m + q) (Spec.trueRange H L C q) := shows_congr t1 (by omega) fun _ _ _ => rfl
  have core : ∀ (z : Line (Ext K)) (Z : ℕ → K), Shows z n (m + q) Z →
      Gives (do let pdm ← S z; let trp ← Ind.diTrp S q talib h l c; return (rmulS (lit 100) pdm).op (· / ·) nan (.holder trp))
        fun r => Delivers r n (m + q + d + 1) fun i =>
          fin (100 * G Z (m + q - 1) i) / fin (G (Spec.trueRange H L C q) (m + q - 1) i) := by
    intro z Z hz
    refine Gives.bind (hS _ n _ _ hz (by omega) hn) fun r hr => ?_
    unfold Ind.diTrp
    refine Gives.bind (Gives.bind (hS _ n _ _ ht (by omega) hn)
      (Q := fun t : Holder (Ext K) => Holds ⟨t.first.series, t.minperiod⟩ n (m + q + d + 1) (G (Spec.trueRange H L C q) (m + q - 1)))
      fun t ht' => Gives.pure ?_) fun t ht' => Gives.pure ?_
    · exact ⟨ht'.len, by simp only [Holder.period, Holder.ofOutputs, List.foldl_nil, ht'.mp]; push_cast; ring, by omega,
        fun i i1 i2 => ht'.val i (by omega) i2⟩
    · unfold Line.op
      rw [show (lit 100 : Ext K) = fin 100 from by simp]
      exact (rep_binop (Holds.rmulS hr.toRepW 100).toRepW ht').congr (by omega) fun _ _ _ => rfl
  exact ⟨core _ _ h1, core _ _ h2⟩

theorem diV {u t : K} (h0 : 0 ≤ u) (h1 : u ≤ t) : NaNOrIn 0 100 (fin (100 * u) / fin t : Ext K) := by
  rcases (h0.trans h1).eq_or_lt with h | h
  · left
    rw [← h, show u = 0 from by linarith]; simp
  · right
    refine ⟨_, Ext.fin_div _ h.ne', by positivity, ?_⟩
    rw [div_le_iff₀ h]; linarith

theorem dxV {u w : Ext K} (h1 : NaNOrIn 0 100 u) (h2 : NaNOrIn 0 100 w) :
    NaNOrIn 0 100 ((fin 100 * absv (u - w)) / (u + w)) := by
  rcases h1 with rfl | ⟨u, rfl, a1, a2⟩
  · left; rfl
  rcases h2 with rfl | ⟨w, rfl, b1, b2⟩
  · left
    rfl
  have e : (absv (fin u - fin w) : Ext K) = fin |u - w| := by rw [Ext.fin_sub]; rfl
  rw [e, Ext.fin_mul, Ext.fin_add]
  rcases (add_nonneg a1 b1).eq_or_lt with h | h
  · left
    rw [← h, show u = 0 from by linarith, show w = 0 from by linarith]; simp
  · right
    refine ⟨_, Ext.fin_div _ h.ne', by positivity, ?_⟩
    rw [div_le_iff₀ h]
    have : |u - w| ≤ u + w := abs_le.mpr ⟨by linarith, by linarith⟩
    linarith

/-- **C28** (di, dx): +DI, -DI and DX are NaN or in `[0, 100]`, for valid bars and every smoothing. -/
theorem C28_di (hS : IsSmoother S G d) (hG : Sums G d) (hh : Holds h n m H) (hl : Holds l n m L) (hc : Holds c n m C)
    {q : ℕ} (hq : 1 ≤ q) (hv : ∀ i, m ≤ i + 1 → i < n → L i ≤ C i ∧ C i ≤ H i) (hn : m + q + d ≤ n) (talib : Bool) :
    (Gives (Ind.plusDi S q talib h l c) fun r => RangesIn 0 100 r n (m + q + d + 1)) ∧
    (Gives (Ind.minusDi S q talib h l c) fun r => RangesIn 0 100 r n (m + q + d + 1)) ∧
    (Gives (Ind.dx S q talib h l c) fun r => RangesIn 0 100 r n (m + q + d + 1)) := by
  have hpos := hh.pos
  obtain ⟨h1, h2⟩ := di_core hS hh hl hc hq (fun i i1 i2 => (hv i i1 i2).1.trans (hv i i1 i2).2) hn talib
  have hle : ∀ i, m + q + d + 1 ≤ i + 1 → i < n →
      (0 ≤ G (Spec.plusDM H L q) (m + q - 1) i ∧
        G (Spec.plusDM H L q) (m + q - 1) i ≤ G (Spec.trueRange H L C q) (m + q - 1) i) ∧
      (0 ≤ G (Spec.minusDM H L q) (m + q - 1) i ∧
        G (Spec.minusDM H L q) (m + q - 1) i ≤ G (Spec.trueRange H L C q) (m + q - 1) i) := by
    intro i i1 i2
    have hb : ∀ j, m + q - 1 ≤ j → j ≤ i → _ := fun j j1 j2 => dm_le_range H L C q j (hv (j - q) (by omega) (by omega))
    refine ⟨⟨?_, hG.mono _ _ _ _ (by omega) fun j j1 j2 => (hb j j1 j2).1⟩, ?_,
      hG.mono _ _ _ _ (by omega) fun j j1 j2 => (hb j j1 j2).2⟩
    · rw [← hG.zero (m + q - 1) i (by omega)]
      exact hG.mono _ _ _ _ (by omega) fun j _ _ => plusDM_nonneg H L q j
    · rw [← hG.zero (m + q - 1) i (by omega)]
      exact hG.mono _ _ _ _ (by omega) fun j _ _ => minusDM_nonneg H L q j
  refine ⟨h1.imp fun r hr => ⟨_, hr, fun i i1 i2 => diV (hle i i1 i2).1.1 (hle i i1 i2).1.2⟩,
    h2.imp fun r hr => ⟨_, hr, fun i i1 i2 => diV (hle i i1 i2).2.1 (hle i i1 i2).2.2⟩, ?_⟩
  unfold Ind.dx
  refine Gives.bind h1 fun r hr => Gives.bind h2 fun s hs => Gives.pure ?_
  rw [show (lit 100 : Ext K) = fin 100 from by simp]
  refine ⟨_, (rep_div (rep_rmulS (rep_abs (rep_sub hr.toRepW hs.toRepW).toRepW).toRepW _).toRepW
      (rep_add hr.toRepW hs.toRepW).toRepW).congr (m' := m + q + d + 1) (by omega) fun _ _ _ => rfl, fun i i1 i2 => ?_⟩
  · exact dxV (diV (hle i i1 i2).1.1 (hle i i1 i2).1.2) (diV (hle i i1 i2).2.1 (hle i i1 i2).2.2)

/-- **C28** (adx): NaN or in `[0, 100]` for every average which keeps ranges. -/
theorem C28_adx {ma : MA (Ext K)} {e : ℕ → ℕ} (hma : KeepsRange ma e) (hS : IsSmoother S G d) (hG : Sums G d)
    (hh : Holds h n m H) (hl : Holds l n m L) (hc : Holds c n m C) {q p : ℕ} (hq : 1 ≤ q) (hp : 1 ≤ p)
    (hv : ∀ i, m ≤ i + 1 → i < n → L i ≤ C i ∧ C i ≤ H i) (hn : m + q + d + 1 + e p ≤ n) (talib : Bool) :
    Gives (Ind.adx S ma q talib p h l c) fun r => RangesIn 0 100 r n (m + q + d + 1 + e p) := by
  unfold Ind.adx
  exact Gives.bind (C28_di hS hG hh hl hc hq hv (by omega) talib).2.2 fun r hr => hma p hp 0 100 r n _ hr hn

theorem RangesIn.avg2 {lo hi : K} {r : Line (Ext K)} {M : ℕ} (hr : RangesIn lo hi r n M) {s : ℕ} (hs : 1 ≤ s) :
    RangesIn lo hi ((r + ago (-(s : Int)) r).divS (lit 2)) n (M + s) := by
  obtain ⟨g, h1, h2⟩ := hr
  have hpos := h1.pos
  refine ⟨_, (rep_divS (rep_add h1.toRepW (rep_ago hs h1.toRepW).toRepW).toRepW _).congr (m' := M + s) (by omega)
    fun _ _ _ => rfl, fun i i1 i2 => ?_⟩
  rcases h2 i (by omega) i2 with e1 | ⟨u, e1, a1, b1⟩
  · left; rw [e1]; simp
  rcases h2 (i - s) (by omega) (by omega) with e2 | ⟨w, e2, a2, b2⟩
  · left; rw [e1, e2]; simp
  right
  rw [e1, e2, show (lit 2 : Ext K) = fin 2 from by simp, Ext.fin_add]
  refine ⟨_, Ext.fin_div _ (by norm_num), ?_, ?_⟩
  · rw [le_div_iff₀ (by norm_num)]; linarith
  · rw [div_le_iff₀ (by norm_num)]; linarith

/-- **C28** (adxr), without ta-lib compatibility -/
theorem C28_adxr {ma : MA (Ext K)} {e : ℕ → ℕ} (hma : KeepsRange ma e) (hS : IsSmoother S G d) (hG : Sums G d)
    (hh : Holds h n m H) (hl : Holds l n m L) (hc : Holds c n m C) {q p : ℕ} (hq : 1 ≤ q) (hp : 1 ≤ p)
    (hv : ∀ i, m ≤ i + 1 → i < n → L i ≤ C i ∧ C i ≤ H i) (hn : m + q + d + 1 + e p ≤ n) :
    Gives (Ind.adxr S ma q false p none h l c) fun r => RangesIn 0 100 r n (m + q + d + 1 + e p + p) := by
  unfold Ind.adxr
  refine Gives.bind (C28_adx hma hS hG hh hl hc hq hp hv hn false) fun r hr => Gives.pure ?_
  simp only [Bool.false_eq_true, if_false, sub_zero]
  exact hr.avg2 hp

/-- **C28** (adxr), with ta-lib compatibility: one bar less, hence for periods of at least 2 -/
theorem C28_adxr_talib {ma : MA (Ext K)} {e : ℕ → ℕ} (hma : KeepsRange ma e) (hS : IsSmoother S G d) (hG : Sums G d)
    (hh : Holds h n m H) (hl : Holds l n m L) (hc : Holds c n m C) {q p : ℕ} (hq : 1 ≤ q) (hp : 2 ≤ p)
    (hv : ∀ i, m ≤ i + 1 → i < n → L i ≤ C i ∧ C i ≤ H i) (hn : m + q + d + 1 + e p ≤ n) :
    Gives (Ind.adxr S ma q true p none h l c) fun r => RangesIn 0 100 r n (m + q + d + 1 + e p + (p - 1)) := by
  unfold Ind.adxr
  refine Gives.bind (C28_adx hma hS hG hh hl hc hq (by omega) hv hn true) fun r hr => Gives.pure ?_
  simp only [if_true]
  rw [show -((p : Int) - 1) = -((p - 1 : ℕ) : Int) from by omega]
  exact hr.avg2 (by omega)

end smooth

/-- C28: the default smoothing (with and without ta-lib compatibility, with and without scipy) and the alternative (`_alt`)
meet the hypotheses; so does the default average of adx. -/
example (scipy : Bool) : IsSmoother (Ind.smacc scipy false .sum 14 : Line (Ext ℚ) → _) (accF 14) 13 ∧ Sums (accF 14 : (ℕ → ℚ) → _) 13 :=
  ⟨(smacc_isMA scipy).smoother (by omega), accF_sums (by omega)⟩
example (scipy : Bool) : IsSmoother (Ind.smacc scipy true .sum 14 : Line (Ext ℚ) → _) (accEarlyF 14) 12 ∧
    Sums (accEarlyF 14 : (ℕ → ℚ) → _) 12 := ⟨smacc_early scipy (by omega), accEarlyF_sums (by omega)⟩
example : IsSmoother (Ind.smma 14 : Line (Ext ℚ) → _) (smmaF 14) 13 ∧ Sums (smmaF 14 : (ℕ → ℚ) → _) 13 :=
  ⟨smma_isMA.smoother (by omega), smmaF_mono.sums smmaF_affine (by omega)⟩
example : KeepsRange (Ind.smma : MA (Ext ℚ)) ext1 := smma_keeps

/-! ## C29 -/

/-- **C29** fails, for all data: without ta-lib compatibility the operands of +DI (the accumulated movement and the
accumulated true range) have minimum period `m + q + p - 1`, but +DI has `m + q + p`: the value which the operands yield in
the bar before is replaced by NaN. -/
theorem C29_one_bar_late (scipy : Bool) (hh : Holds h n m H) (hl : Holds l n m L) (hc : Holds c n m C) {q p : ℕ} (hq : 1 ≤ q)
    (hp : 1 ≤ p) (hv : ∀ i, m ≤ i + 1 → i < n → L i ≤ H i) (hn : m + q + p - 1 ≤ n) :
    Gives (Ind.plusDm (Ind.smacc scipy false .sum p) q h l) fun dm =>
    Gives (Ind.smacc scipy false .sum p (Ind.truerange q h l c)) fun tr =>
    Gives (Ind.plusDi (Ind.smacc scipy false .sum p) q false h l c) fun di =>
      dm.minperiod = ((m + q + p - 1 : ℕ) : Int) ∧ tr.minperiod = ((m + q + p - 1 : ℕ) : Int) ∧
      di.minperiod = ((m + q + p : ℕ) : Int) ∧ di.series[m + q + p - 2]? = some nan := by
  have hpos := hh.pos
  have hS := (smacc_isMA (K := K) scipy).smoother hp
  obtain ⟨h1, -⟩ := dm1_shows hh hl hq
  obtain ⟨t1, -⟩ := C27_truerange hh hl hc hq fun i h1 h2 => hv i (by omega) h2
  have ht : Shows (Ind.truerange q h l c) n (m + q) (Spec.trueRange H L C q) := shows_congr t1 (by omega) fun _ _ _ => rfl
  unfold ext1 at hS
  refine (hS _ n _ _ h1 (by omega) (by omega)).imp fun r hr => (hS _ n _ _ ht (by omega) (by omega)).imp fun s hs =>
    (di_core hS hh hl hc hq hv (by omega) false).1.imp fun t ht' => ⟨?_, ?_, ?_, ?_⟩
  · rw [hr.mp]; congr 1; omega
  · rw [hs.mp]; congr 1; omega
  · rw [ht'.mp]; congr 1; omega
  · exact ht'.pre _ (by omega) (by omega)

/-- **C29** (part that holds): from the bar after on, +DI and -DI are the quotient of the operands, in percent; what is
missing is the first value, which the operands would allow. -/
theorem C29_values_partial (scipy : Bool) (hh : Holds h n m H) (hl : Holds l n m L) (hc : Holds c n m C) {q p : ℕ}
    (hq : 1 ≤ q) (hp : 1 ≤ p) (hv : ∀ i, m ≤ i + 1 → i < n → L i ≤ H i) (hn : m + q + p - 1 ≤ n) :
    Gives (Ind.di (Ind.smacc scipy false .sum p) q false h l c) fun r =>
      (Delivers r.1 n (m + q + p) fun i => fin (100 * accF p (Spec.plusDM H L q) (m + q - 1) i) /
        fin (accF p (Spec.trueRange H L C q) (m + q - 1) i)) ∧
      (Delivers r.2 n (m + q + p) fun i => fin (100 * accF p (Spec.minusDM H L q) (m + q - 1) i) /
        fin (accF p (Spec.trueRange H L C q) (m + q - 1) i)) := by
  have hpos := hh.pos
  have hS := (smacc_isMA (K := K) scipy).smoother hp
  unfold ext1 at hS
  obtain ⟨h1, h2⟩ := di_core hS hh hl hc hq hv (by omega) false
  unfold Ind.di
  exact Gives.bind h1 fun r hr => Gives.bind h2 fun s hs => Gives.pure
    ⟨hr.congr (by omega) fun _ _ _ => rfl, hs.congr (by omega) fun _ _ _ => rfl⟩

/-- a rising market: +DI(2) has minimum period 4 rather than 3 -/
example : Ind.plusDi (Ind.smacc true false .sum 2) 1 false (bars 5 fun i => (i + 1 : ℚ)) (bars 5 fun i => (i : ℚ))
    (bars 5 fun i => (i + 1/2 : ℚ)) = .ok ⟨[.nan, .nan, .nan, .fin (200/3), .fin (200/3)], 4⟩ := by decide +kernel

end Bta
