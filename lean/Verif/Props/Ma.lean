import Verif.Lemmas.Mas

/-!
# Moving averages and what is directly built on them: C09, C10, C13 - C18, C20, C48

All theorems are about an arbitrary input line with `n` bars and minimum period `m` whose values from bar `m - 1` on are
the finite numbers `x i` (`Holds`); `m = 1` is the case of raw data, `m > 1` that of the output of another indicator.
-/

set_option linter.unusedSectionVars false
set_option linter.unusedVariables false

namespace Bta
open Line Ext

variable {K : Type} [Field K] [LinearOrder K] [IsStrictOrderedRing K]
variable {a : Line (Ext K)} {n m : ℕ} {x : ℕ → K}

/-- raw data used in the examples: 1, 2, 4, 7, 11, 16, ... -/
def exData : Line (Ext ℚ) := bars 6 fun i => 1 + (i * (i + 1) / 2 : ℕ)

/-- non-vacuity: the data satisfy the hypothesis about inputs used throughout -/
theorem exData_holds : Holds exData 6 1 (fun i => 1 + (i * (i + 1) / 2 : ℕ)) := bars_holds _ _

/-! ## C09 -/

/-- **C09** (sma): from the `p`-th bar with data on the sum of the last `p` values divided by `p`, NaN before. -/
theorem C09_sma (ha : Holds a n m x) {p : ℕ} (hp : 1 ≤ p) :
    Gives (Ind.sma p a) fun r => Shows r n (m + p - 1) (fun i => (∑ j ∈ Finset.range p, x (i - j)) / p) :=
  Gives.ok (ha.rollMean hp)

/-- **C09** (rolling sum) -/
theorem C09_sum (ha : Holds a n m x) {p : ℕ} (hp : 1 ≤ p) :
    Shows (Ind.sumN p a) n (m + p - 1) (fun i => ∑ j ∈ Finset.range p, x (i - j)) := ha.rollSum hp

/-- **C09** (rolling maximum): the greatest of the last `p` values -/
theorem C09_max (ha : Holds a n m x) {p : ℕ} (hp : 1 ≤ p) :
    ∃ M : ℕ → K, Shows (Ind.highest p a) n (m + p - 1) M ∧ ∀ i, IsGreatest {y | ∃ j, j < p ∧ y = x (i - j)} (M i) :=
  ⟨_, ha.rollMax hp, fun i => Spec.winMax_isGreatest x hp i⟩

/-- **C09** (rolling minimum): the least of the last `p` values -/
theorem C09_min (ha : Holds a n m x) {p : ℕ} (hp : 1 ≤ p) :
    ∃ M : ℕ → K, Shows (Ind.lowest p a) n (m + p - 1) M ∧ ∀ i, IsLeast {y | ∃ j, j < p ∧ y = x (i - j)} (M i) :=
  ⟨_, ha.rollMin hp, fun i => Spec.winMin_isLeast x hp i⟩

/-- **C09** (minmax): both at once, the least first -/
theorem C09_minmax (ha : Holds a n m x) {p : ℕ} (hp : 1 ≤ p) :
    ∃ B T : ℕ → K, Shows (Ind.minmax p a).1 n (m + p - 1) B ∧ Shows (Ind.minmax p a).2 n (m + p - 1) T ∧
      ∀ i, IsLeast {y | ∃ j, j < p ∧ y = x (i - j)} (B i) ∧ IsGreatest {y | ∃ j, j < p ∧ y = x (i - j)} (T i) :=
  ⟨_, _, ha.rollMin hp, ha.rollMax hp, fun i => ⟨Spec.winMin_isLeast x hp i, Spec.winMax_isGreatest x hp i⟩⟩

/-- C09, a case: the inputs are possible, and the third value is `(1 + 2 + 4) / 3` -/
example : Ind.sma 3 exData = .ok ⟨[.nan, .nan, .fin (7/3), .fin (13/3), .fin (22/3), .fin (34/3)], 3⟩ ∧
    Ind.highest 2 exData = ⟨[.nan, .fin 2, .fin 4, .fin 7, .fin 11, .fin 16], 2⟩ := by decide +kernel

/-! ## C10 -/

/-- **C10** (ema): there is a sequence `e` which the result shows, with the mean of the first `p` values as first value and
the recursion with factor `2/(p+1)`. -/
theorem C10_ema (ha : Holds a n m x) {p : ℕ} (hp : 1 ≤ p) (hn : m + p - 1 ≤ n) :
    ∃ e : ℕ → K, (Gives (Ind.ema p a) fun r => Shows r n (m + p - 1) e) ∧
      e (m + p - 2) = (∑ j ∈ Finset.range p, x (m + p - 2 - j)) / p ∧
      ∀ i, m + p - 2 < i → e i = e (i - 1) + 2 / ((p : K) + 1) * (x i - e (i - 1)) := by
  have hpos := ha.pos
  refine ⟨emaF p x (m - 1), (ema_isMA p hp a n m x ha (by unfold ext1; omega)).imp fun r hr =>
    shows_congr hr (by unfold ext1; omega) fun _ _ _ => rfl, ?_, ?_⟩
  · unfold emaF Spec.ema Spec.expAvg
    rw [show m - 1 + p - 1 = m + p - 2 from by omega, Nat.sub_self]
    rfl
  · intro i hi
    unfold emaF Spec.ema Spec.expAvg
    rw [show m - 1 + p - 1 = m + p - 2 from by omega]
    obtain ⟨k, rfl⟩ : ∃ k, i = m + p - 2 + (k + 1) := ⟨i - (m + p - 2) - 1, by omega⟩
    rw [show m + p - 2 + (k + 1) - (m + p - 2) = k + 1 from by omega,
      show m + p - 2 + (k + 1) - 1 - (m + p - 2) = k from by omega]
    rfl

/-- **C10** (smma): same with factor `1/p`. -/
theorem C10_smma (ha : Holds a n m x) {p : ℕ} (hp : 1 ≤ p) (hn : m + p - 1 ≤ n) :
    ∃ e : ℕ → K, (Gives (Ind.smma p a) fun r => Shows r n (m + p - 1) e) ∧
      e (m + p - 2) = (∑ j ∈ Finset.range p, x (m + p - 2 - j)) / p ∧
      ∀ i, m + p - 2 < i → e i = e (i - 1) + 1 / (p : K) * (x i - e (i - 1)) := by
  have hpos := ha.pos
  refine ⟨smmaF p x (m - 1), (smma_isMA p hp a n m x ha (by unfold ext1; omega)).imp fun r hr =>
    shows_congr hr (by unfold ext1; omega) fun _ _ _ => rfl, ?_, ?_⟩
  · unfold smmaF Spec.smma Spec.expAvg
    rw [show m - 1 + p - 1 = m + p - 2 from by omega, Nat.sub_self]
    rfl
  · intro i hi
    unfold smmaF Spec.smma Spec.expAvg
    rw [show m - 1 + p - 1 = m + p - 2 from by omega]
    obtain ⟨k, rfl⟩ : ∃ k, i = m + p - 2 + (k + 1) := ⟨i - (m + p - 2) - 1, by omega⟩
    rw [show m + p - 2 + (k + 1) - (m + p - 2) = k + 1 from by omega,
      show m + p - 2 + (k + 1) - 1 - (m + p - 2) = k from by omega]
    rfl

/-- **C10** (seed `SEED_LAST`): with the last value of the seed window as first value. -/
theorem C10_ema_last (ha : Holds a n m x) {p : ℕ} (hp : 1 ≤ p) (hn : m + p - 1 ≤ n) :
    Gives (Ind.emaG .last 0 p a) fun r =>
      Shows r n (m + p - 1) (fun i => Spec.expRec (2 / ((p : K) + 1)) x (m + p - 2) (x (m + p - 2)) (i - (m + p - 2))) := by
  have hpos := ha.pos
  have hp2 : EwmCfg.p2 { pval := (p : Int), seed := .last } a.minperiod = ((m + p - 1 : ℕ) : Int) := by
    unfold EwmCfg.p2
    simp only [ha.mp, ne_eq, not_true_eq_false, if_false]
    rw [if_neg (by omega)]
    omega
  obtain ⟨r, h1, h2⟩ := rep_ewmMean_off (c := { pval := (p : Int), seed := .last }) (M := m + p - 1) ha hp2 (by omega) hn
    (by omega) (le_refl _) (by simp only; omega) (seedVal_last ha (by omega) hn) (2 / ((p : K) + 1))
  refine ⟨r, ?_, h2.congr rfl ?_⟩
  · unfold Ind.emaG
    rw [alphaOfCom_span hp]
    exact h1
  · intro i h1 _
    rw [if_neg (by omega)]
    rfl

/-- C10, cases: raw data, and the output of another indicator (minimum period 2) as input -/
example : Ind.ema 3 exData = .ok ⟨[.nan, .nan, .fin (7/3), .fin (14/3), .fin (47/6), .fin (143/12)], 3⟩ ∧
    Ind.smma 2 (Line.diff 1 exData) = .ok ⟨[.nan, .nan, .fin (3/2), .fin (9/4), .fin (25/8), .fin (65/16)], 3⟩ := by
  decide +kernel

/-! ## C13 -/

/-- `f` delivers values which lie within any bounds of the data in the window -/
def StaysInWindow (f : MA (Ext K)) : Prop :=
  ∀ p, 1 ≤ p → ∀ (a : Line (Ext K)) (n m : ℕ) (x : ℕ → K), Holds a n m x → m + (p - 1) ≤ n →
    Gives (f p a) fun r => r.minperiod = ((m + (p - 1) : ℕ) : Int) ∧ ∀ i, m + (p - 1) ≤ i + 1 → i < n → ∀ lo hi : K,
      (∀ j, i + 1 ≤ j + p → j ≤ i → lo ≤ x j ∧ x j ≤ hi) → ∃ v, r.series[i]? = some (fin v) ∧ lo ≤ v ∧ v ≤ hi

/-- `f` delivers values which lie within any bounds of the data seen so far -/
def StaysInRange (f : MA (Ext K)) : Prop :=
  ∀ p, 1 ≤ p → ∀ (a : Line (Ext K)) (n m : ℕ) (x : ℕ → K), Holds a n m x → m + (p - 1) ≤ n →
    Gives (f p a) fun r => r.minperiod = ((m + (p - 1) : ℕ) : Int) ∧ ∀ i, m + (p - 1) ≤ i + 1 → i < n → ∀ lo hi : K,
      (∀ j, m ≤ j + 1 → j ≤ i → lo ≤ x j ∧ x j ≤ hi) → ∃ v, r.series[i]? = some (fin v) ∧ lo ≤ v ∧ v ≤ hi

theorem staysInRange_of {f : MA (Ext K)} {F : ℕ → (ℕ → K) → ℕ → ℕ → K} (hf : IsMA f F ext1) (hA : Averages F ext1) :
    StaysInRange f := by
  intro p hp a n m x ha hn
  have hpos := ha.pos
  refine (hf p hp a n m x ha hn).imp fun r hr => ⟨hr.mp, fun i (h1 : m + (p - 1) ≤ i + 1) h2 lo hi h => ?_⟩
  refine ⟨_, hr.val i h1 h2, hA p hp x (m - 1) i lo hi (by unfold ext1; omega) fun j h3 h4 => h j (by omega) h4⟩

theorem staysInWindow_of {f : MA (Ext K)} {F : ℕ → (ℕ → K) → ℕ → ℕ → K} (hf : IsMA f F ext1) (hA : Averages F ext1)
    (hloc : ∀ p x b b' i, F p x b i = F p x b' i) : StaysInWindow f := by
  intro p hp a n m x ha hn
  have hpos := ha.pos
  refine (hf p hp a n m x ha hn).imp fun r hr => ⟨hr.mp, fun i (h1 : m + (p - 1) ≤ i + 1) h2 lo hi h => ?_⟩
  refine ⟨_, hr.val i h1 h2, ?_⟩
  rw [hloc p x (m - 1) (i - (p - 1)) i]
  exact hA p hp x (i - (p - 1)) i lo hi (by unfold ext1; omega) fun j h3 h4 => h j (by omega) h4

/-- **C13** sma -/
theorem C13_sma : StaysInWindow (Ind.sma : MA (Ext K)) := staysInWindow_of sma_isMA smaF_averages fun _ _ _ _ _ => rfl
/-- **C13** wma -/
theorem C13_wma : StaysInWindow (Ind.wma : MA (Ext K)) := staysInWindow_of wma_isMA wmaF_averages fun _ _ _ _ _ => rfl
/-- **C13** trima -/
theorem C13_trima : StaysInWindow (Ind.trima : MA (Ext K)) :=
  staysInWindow_of trima_isMA trimaF_averages fun _ _ _ _ _ => rfl
/-- **C13** ema -/
theorem C13_ema : StaysInRange (Ind.ema : MA (Ext K)) := staysInRange_of ema_isMA emaF_averages
/-- **C13** smma -/
theorem C13_smma : StaysInRange (Ind.smma : MA (Ext K)) := staysInRange_of smma_isMA smmaF_averages

/-! ## C14 -/

/-- `ma(c*x + d) = c*ma(x) + d`, as operations on lines -/
def AffineMA (f : MA (Ext K)) (e : ℕ → ℕ) : Prop :=
  ∀ p, 1 ≤ p → ∀ (a : Line (Ext K)) (n m : ℕ) (x : ℕ → K), Holds a n m x → m + e p ≤ n → ∀ c d : K,
    ∃ r, f p a = .ok r ∧ f p ((rmulS (fin c) a).addS (fin d)) = .ok ((rmulS (fin c) r).addS (fin d))

theorem affineMA_of {f : MA (Ext K)} {F : ℕ → (ℕ → K) → ℕ → ℕ → K} {e : ℕ → ℕ} (hf : IsMA f F e) (hA : Affine F e) :
    AffineMA f e := by
  intro p hp a n m x ha hn c d
  have hpos := ha.pos
  obtain ⟨r, h1, h2⟩ := hf p hp a n m x ha hn
  have hb : Holds ((rmulS (fin c) a).addS (fin d)) n m (fun i => c * x i + d) :=
    (Holds.addS (ha.rmulS c).toRepW d).toRepW
  obtain ⟨r', h3, h4⟩ := hf p hp _ n m _ hb hn
  refine ⟨r, h1, ?_⟩
  rw [h3]
  congr 1
  refine Rep.ext h4 (Holds.addS (Holds.rmulS h2.toRepW c).toRepW d) fun i h5 _ => ?_
  rw [hA p hp x (m - 1) i c d (by omega)]

/-- constant data -/
theorem constant_of {f : MA (Ext K)} {F : ℕ → (ℕ → K) → ℕ → ℕ → K} {e : ℕ → ℕ} (hf : IsMA f F e) (hA : Affine F e)
    {d : K} (ha : Holds a n m fun _ => d) {p : ℕ} (hp : 1 ≤ p) (hn : m + e p ≤ n) :
    Gives (f p a) fun r => Shows r n (m + e p) fun _ => d := by
  have hpos := ha.pos
  refine (hf p hp a n m _ ha hn).imp fun r hr => shows_congr hr rfl fun i h1 _ => ?_
  have := hA p hp (fun _ => 0) (m - 1) i 0 d (by omega)
  simpa using this

/-- **C14** sma -/
theorem C14_sma : AffineMA (Ind.sma : MA (Ext K)) ext1 := affineMA_of sma_isMA smaF_affine
/-- **C14** wma -/
theorem C14_wma : AffineMA (Ind.wma : MA (Ext K)) ext1 := affineMA_of wma_isMA wmaF_affine
/-- **C14** trima -/
theorem C14_trima : AffineMA (Ind.trima : MA (Ext K)) ext1 := affineMA_of trima_isMA trimaF_affine
/-- **C14** ema -/
theorem C14_ema : AffineMA (Ind.ema : MA (Ext K)) ext1 := affineMA_of ema_isMA emaF_affine
/-- **C14** smma -/
theorem C14_smma : AffineMA (Ind.smma : MA (Ext K)) ext1 := affineMA_of smma_isMA smmaF_affine

/-- C14, a case of the identity: `3*x - 1` -/
example : Ind.ema 3 ((rmulS (fin 3) exData).addS (fin (-1))) =
    (Ind.ema 3 exData).map fun r => (rmulS (fin 3) r).addS (fin (-1)) := by decide +kernel

/-! ## C15 -/

/-- **C15**: weights `1 .. p`, newest bar heaviest, divided by `p(p+1)/2`, which is their sum. -/
theorem C15_wma (ha : Holds a n m x) {p : ℕ} (hp : 1 ≤ p) (hn : m + p - 1 ≤ n) :
    (Gives (Ind.wma p a) fun r => Shows r n (m + p - 1)
      fun i => (∑ j ∈ Finset.range p, ((p - j : ℕ) : K) * x (i - j)) / ((p : K) * (p + 1) / 2)) ∧
    (∑ j ∈ Finset.range p, ((p - j : ℕ) : K)) = (p : K) * (p + 1) / 2 := by
  have hpos := ha.pos
  refine ⟨(wma_isMA p hp a n m x ha (by unfold ext1; omega)).imp fun r hr =>
    shows_congr hr (by unfold ext1; omega) fun i _ _ => ?_, sum_linear p⟩
  unfold wmaF Spec.wma
  rw [sum_linear]

/-- C15, a case: (1*1 + 2*2 + 3*4)/6 = 17/6 -/
example : Ind.wma 3 exData = .ok ⟨[.nan, .nan, .fin (17/6), .fin (31/6), .fin (17/2), .fin (77/6)], 3⟩ := by decide +kernel

/-! ## C16 -/

section chain
variable {f : MA (Ext K)} {F : ℕ → (ℕ → K) → ℕ → ℕ → K} {e : ℕ → ℕ}

theorem dema_isMA (hf : IsMA f F e) : IsMA (Ind.dema f) (Spec.dema F e) (fun p => 2 * e p) := by
  intro p hp a n m x ha hn
  simp only [] at hn ⊢
  unfold Ind.dema
  refine Gives.bind (hf.iter1 hp ha (by omega)) fun r1 h1 => ?_
  refine Gives.bind (hf.step hp 1 ha.pos h1.toRepW (by omega)) fun r2 h2 => Gives.pure ?_
  simp only [Ext.lit_def]
  refine shows_congr (Holds.sub (Holds.rmulS h1.toRepW _).toRepW h2.toRepW) (by omega) fun i _ _ => ?_
  simp [Spec.dema]

theorem tema_isMA (hf : IsMA f F e) : IsMA (Ind.tema f) (Spec.tema F e) (fun p => 3 * e p) := by
  intro p hp a n m x ha hn
  simp only [] at hn ⊢
  unfold Ind.tema
  refine Gives.bind (hf.iter1 hp ha (by omega)) fun r1 h1 => ?_
  refine Gives.bind (hf.step hp 1 ha.pos h1.toRepW (by omega)) fun r2 h2 => ?_
  refine Gives.bind (hf.step hp 2 ha.pos h2.toRepW (by omega)) fun r3 h3 => Gives.pure ?_
  simp only [Ext.lit_def]
  refine shows_congr (Holds.add (Holds.sub (Holds.rmulS h1.toRepW _).toRepW (Holds.rmulS h2.toRepW _).toRepW).toRepW
    h3.toRepW) (by omega) fun i _ _ => ?_
  simp [Spec.tema]

/-- **C16** (dema): `2*ema - ema(ema)` with minimum period `m + 2(p-1)` (`2p-1` on raw data); `iter _ _ p x (m-1) k` is the
`k`-fold ema. -/
theorem C16_dema (ha : Holds a n m x) {p : ℕ} (hp : 1 ≤ p) (hn : m + 2 * (p - 1) ≤ n) :
    Gives (Ind.dema Ind.ema p a) fun r => Shows r n (m + 2 * (p - 1)) fun i =>
      2 * Spec.iter emaF ext1 p x (m - 1) 1 i - Spec.iter emaF ext1 p x (m - 1) 2 i :=
  dema_isMA ema_isMA p hp a n m x ha hn

/-- **C16** (tema): `3*ema - 3*ema(ema) + ema(ema(ema))` with minimum period `m + 3(p-1)` (`3p-2`). -/
theorem C16_tema (ha : Holds a n m x) {p : ℕ} (hp : 1 ≤ p) (hn : m + 3 * (p - 1) ≤ n) :
    Gives (Ind.tema Ind.ema p a) fun r => Shows r n (m + 3 * (p - 1)) fun i =>
      3 * Spec.iter emaF ext1 p x (m - 1) 1 i - 3 * Spec.iter emaF ext1 p x (m - 1) 2 i
        + Spec.iter emaF ext1 p x (m - 1) 3 i :=
  tema_isMA ema_isMA p hp a n m x ha hn

/-- **C16** (trix): percentage change of the triple ema (IEEE division), from the second bar of the triple ema on. -/
theorem C16_trix (ha : Holds a n m x) {p : ℕ} (hp : 1 ≤ p) (hn : m + 3 * (p - 1) ≤ n) :
    Gives (Ind.trix Ind.ema p a) fun r => Delivers r n (m + 3 * (p - 1) + 1) fun i =>
      fin 100 * (fin (Spec.iter emaF ext1 p x (m - 1) 3 i) / fin (Spec.iter emaF ext1 p x (m - 1) 3 (i - 1)) - fin 1) := by
  have hf : IsMA (Ind.ema : MA (Ext K)) emaF ext1 := ema_isMA
  have hext : ext1 p = p - 1 := rfl
  unfold Ind.trix
  refine Gives.bind (hf.iter1 hp ha (by omega)) fun r1 h1 => ?_
  refine Gives.bind (hf.step hp 1 ha.pos h1.toRepW (by omega)) fun r2 h2 => ?_
  refine Gives.bind (hf.step hp 2 ha.pos h2.toRepW (by omega)) fun r3 h3 => Gives.pure ?_
  have h4 := Holds.ago h3.toRepW (s := 1) (le_refl _)
  refine (rep_rmulS (rep_subS (rep_div h3.toRepW h4.toRepW).toRepW _).toRepW _).congr (by omega) fun i _ _ => ?_
  simp

/-- C14 for the composed averages -/
theorem dema_affine (hA : Affine F e) (hM : Mono F e) : Affine (Spec.dema F e) (fun p => 2 * e p) := by
  intro p hp x b i c d hi
  simp only [] at hi
  simp only [Spec.dema]
  rw [iter_affine hA hM hp x b c d 1 i (by omega), iter_affine hA hM hp x b c d 2 i (by omega)]
  ring

theorem tema_affine (hA : Affine F e) (hM : Mono F e) : Affine (Spec.tema F e) (fun p => 3 * e p) := by
  intro p hp x b i c d hi
  simp only [] at hi
  simp only [Spec.tema]
  rw [iter_affine hA hM hp x b c d 1 i (by omega), iter_affine hA hM hp x b c d 2 i (by omega),
    iter_affine hA hM hp x b c d 3 i (by omega)]
  ring

/-- **C14** dema -/
theorem C14_dema : AffineMA (Ind.dema Ind.ema : MA (Ext K)) (fun p => 2 * (p - 1)) :=
  affineMA_of (dema_isMA ema_isMA) (dema_affine emaF_affine emaF_mono)
/-- **C14** tema -/
theorem C14_tema : AffineMA (Ind.tema Ind.ema : MA (Ext K)) (fun p => 3 * (p - 1)) :=
  affineMA_of (tema_isMA ema_isMA) (tema_affine emaF_affine emaF_mono)

/-- C16, a case: on raw data dema(2) starts with the third bar, tema(2) with the fourth -/
example : (Ind.dema Ind.ema 2 exData).map (fun r => (r.minperiod, r.series[1]?, r.series[2]?)) =
    .ok (3, some .nan, some (.fin 4)) ∧
    (Ind.tema Ind.ema 2 exData).map (fun r => (r.minperiod, r.series[2]?)) = .ok (4, some .nan) := by decide +kernel

/-! ## C17 -/

/-- **C17**: symmetric triangular weights over the last `p` bars, odd or even, and minimum period `m + p - 1`. -/
theorem C17_trima (ha : Holds a n m x) {p : ℕ} (hp : 1 ≤ p) (hn : m + p - 1 ≤ n) :
    Gives (Ind.trima p a) fun r => Shows r n (m + p - 1) fun i =>
      (∑ k ∈ Finset.range p, ((min (k + 1) (p - k) : ℕ) : K) * x (i - k)) /
        (∑ k ∈ Finset.range p, ((min (k + 1) (p - k) : ℕ) : K)) := by
  have hpos := ha.pos
  exact (trima_isMA p hp a n m x ha (by unfold ext1; omega)).imp fun r hr =>
    shows_congr hr (by unfold ext1; omega) fun i _ _ => rfl

/-- C17, cases: weights 1 2 2 1 and 1 2 1 -/
example : Ind.trima 4 exData = .ok ⟨[.nan, .nan, .nan, .fin (20/6), .fin (35/6), .fin (56/6)], 4⟩ ∧
    Ind.trima 3 exData = .ok ⟨[.nan, .nan, .fin (9/4), .fin (17/4), .fin (29/4), .fin (45/4)], 3⟩ := by decide +kernel

/-! ## C18 -/

theorem t3_isMA (v : K) : IsMA (Ind.t3 (fin v) : MA (Ext K)) (Spec.t3 v emaF ext1) (fun p => 6 * ext1 p) := by
  have hf : IsMA (Ind.ema : MA (Ext K)) emaF ext1 := ema_isMA
  intro p hp a n m x ha hn
  simp only [] at hn ⊢
  unfold Ind.t3
  refine Gives.bind (hf.iter1 hp ha (by omega)) fun r1 h1 => ?_
  refine Gives.bind (hf.step hp 1 ha.pos h1.toRepW (by omega)) fun r2 h2 => ?_
  refine Gives.bind (hf.step hp 2 ha.pos h2.toRepW (by omega)) fun r3 h3 => ?_
  refine Gives.bind (hf.step hp 3 ha.pos h3.toRepW (by omega)) fun r4 h4 => ?_
  refine Gives.bind (hf.step hp 4 ha.pos h4.toRepW (by omega)) fun r5 h5 => ?_
  refine Gives.bind (hf.step hp 5 ha.pos h5.toRepW (by omega)) fun r6 h6 => Gives.pure ?_
  simp only [Ext.lit_def, Ext.fin_mul, Ext.fin_add, Ext.fin_sub, Ext.fin_neg]
  refine shows_congr (Holds.add (Holds.add (Holds.add (Holds.rmulS h6.toRepW _).toRepW (Holds.rmulS h5.toRepW _).toRepW).toRepW
    (Holds.rmulS h4.toRepW _).toRepW).toRepW (Holds.rmulS h3.toRepW _).toRepW) (by omega) fun i _ _ => ?_
  unfold Spec.t3
  push_cast
  ring

/-- **C18**: T3 combines the 3- to 6-fold ema with weights which add up to 1; minimum period `m + 6(p-1)` (`6p-5`). -/
theorem C18_t3 (v : K) (ha : Holds a n m x) {p : ℕ} (hp : 1 ≤ p) (hn : m + 6 * (p - 1) ≤ n) :
    ∃ w3 w4 w5 w6 : K, w3 + w4 + w5 + w6 = 1 ∧ w6 = -v ^ 3 ∧ w5 = 3 * v ^ 2 + 3 * v ^ 3 ∧
      w4 = -6 * v ^ 2 - 3 * v - 3 * v ^ 3 ∧
      Gives (Ind.t3 (fin v) p a) fun r => Shows r n (m + 6 * (p - 1)) fun i =>
        w6 * Spec.iter emaF ext1 p x (m - 1) 6 i + w5 * Spec.iter emaF ext1 p x (m - 1) 5 i
          + w4 * Spec.iter emaF ext1 p x (m - 1) 4 i + w3 * Spec.iter emaF ext1 p x (m - 1) 3 i := by
  refine ⟨1 + 3 * v + v ^ 3 + 3 * v ^ 2, _, _, _, ?_, rfl, rfl, rfl, ?_⟩
  · ring
  · exact t3_isMA v p hp a n m x ha hn

/-- **C14** t3 -/
theorem C14_t3 (v : K) : AffineMA (Ind.t3 (fin v) : MA (Ext K)) (fun p => 6 * (p - 1)) := by
  refine affineMA_of (t3_isMA v) ?_
  intro p hp x b i c d hi
  simp only [] at hi
  have hext : ext1 p = p - 1 := rfl
  have hA : Affine (emaF : ℕ → (ℕ → K) → ℕ → ℕ → K) ext1 := emaF_affine
  have hM : Mono (emaF : ℕ → (ℕ → K) → ℕ → ℕ → K) ext1 := emaF_mono
  simp only [Spec.t3]
  rw [iter_affine hA hM hp x b c d 3 i (by omega), iter_affine hA hM hp x b c d 4 i (by omega),
    iter_affine hA hM hp x b c d 5 i (by omega), iter_affine hA hM hp x b c d 6 i (by omega)]
  ring

/-- gdema on any conforming average: `(1+v)*ma - v*ma(ma)`; `v = 1` is dema, `v = 0` the average itself -/
theorem gdema_isMA (hf : IsMA f F e) (v : K) : IsMA (Ind.gdema f (fin v))
    (fun p x b i => (1 + v) * Spec.iter F e p x b 1 i - v * Spec.iter F e p x b 2 i) (fun p => 2 * e p) := by
  intro p hp a n m x ha hn
  simp only [] at hn ⊢
  unfold Ind.gdema
  refine Gives.bind (hf.iter1 hp ha (by omega)) fun r1 h1 => ?_
  refine Gives.bind (hf.step hp 1 ha.pos h1.toRepW (by omega)) fun r2 h2 => Gives.pure ?_
  simp only [Ext.lit_def, Ext.fin_add]
  refine shows_congr (Holds.sub (Holds.rmulS h1.toRepW _).toRepW (Holds.rmulS h2.toRepW _).toRepW) (by omega) fun i _ _ => ?_
  push_cast; ring

/-- **C18** (`_gd=True`): three generalized demas in a row; same minimum period `m + 6(p-1)`. -/
theorem C18_t3_gd (v : K) (ha : Holds a n m x) {p : ℕ} (hp : 1 ≤ p) (hn : m + 6 * (p - 1) ≤ n) :
    Gives (Ind.t3gd Ind.ema (fin v) p a) fun r => Shows r n (m + 6 * (p - 1))
      (Spec.iter (fun p x b i => (1 + v) * Spec.iter emaF ext1 p x b 1 i - v * Spec.iter emaF ext1 p x b 2 i)
        (fun p => 2 * ext1 p) p x (m - 1) 3) := by
  have hg := gdema_isMA (f := (Ind.ema : MA (Ext K))) ema_isMA v
  have hext : ext1 p = p - 1 := rfl
  unfold Ind.t3gd
  refine Gives.bind (hg.iter1 hp ha (by omega)) fun r1 h1 => ?_
  refine Gives.bind (hg.step hp 1 ha.pos h1.toRepW (by omega)) fun r2 h2 => ?_
  refine (hg.step hp 2 ha.pos h2.toRepW (by omega)).imp fun r h => shows_congr h (by omega) fun _ _ _ => rfl

end chain

/-! ## C20 -/

/-- the three lines of a macd-like indicator: `d` from bar `M` on, its average, and their difference -/
structure MacdLike (G : ℕ → (ℕ → K) → ℕ → ℕ → K) (psig n M : ℕ) (d : ℕ → K)
    (r : Line (Ext K) × Line (Ext K) × Line (Ext K)) : Prop where
  /-- first output -/
  main : Shows r.1 n M d
  /-- signal: average of the first output, `psig - 1` bars later -/
  signal : Shows r.2.1 n (M + (psig - 1)) (G psig d (M - 1))
  /-- histogram: difference of the two -/
  histogram : Shows r.2.2 n (M + (psig - 1)) fun i => d i - G psig d (M - 1) i

/-- **C20**. For any moving averages `ma` (formula `F`) and `masig` (formula `G`) which need `p - 1` more bars (sma, ema,
smma, wma, trima, ...), `macd` is their difference from bar `m + pslow - 1` on, `signal` the average of `macd`, and
`histogram` their difference. -/
theorem C20_macd {ma masig : MA (Ext K)} {F G : ℕ → (ℕ → K) → ℕ → ℕ → K} (hma : IsMA ma F ext1) (hsig : IsMA masig G ext1)
    (ha : Holds a n m x) {pfast pslow psig : ℕ} (h1 : 1 ≤ pfast) (h2 : pfast ≤ pslow) (h3 : 1 ≤ psig)
    (hn : m + (pslow - 1) + (psig - 1) ≤ n) :
    Gives (Ind.macd ma ma masig pfast pslow psig a)
      (MacdLike G psig n (m + (pslow - 1)) fun i => F pfast x (m - 1) i - F pslow x (m - 1) i) := by
  have hpos := ha.pos
  unfold Ind.macd
  refine Gives.bind (hma pfast h1 a n m x ha (by unfold ext1; omega)) fun r1 e1 => ?_
  refine Gives.bind (hma pslow (by omega) a n m x ha (by unfold ext1; omega)) fun r2 e2 => ?_
  have hd : Shows (r1 - r2) n (m + (pslow - 1)) (fun i => F pfast x (m - 1) i - F pslow x (m - 1) i) :=
    shows_congr (Holds.sub e1.toRepW e2.toRepW) (by unfold ext1; omega) fun _ _ _ => rfl
  refine Gives.bind (hsig psig h3 (r1 - r2) n _ _ hd.toRepW (by unfold ext1; omega)) fun r3 e3 => Gives.pure ?_
  refine ⟨hd, ?_, ?_⟩
  · exact shows_congr e3 rfl fun _ _ _ => rfl
  · exact shows_congr (Holds.sub hd.toRepW e3.toRepW) (by unfold ext1; omega) fun _ _ _ => rfl

/-- **C20** (ta-lib mode): the fast average is seeded with the mean of the `pfast` values which end where the slow one is
seeded; the identities are the same. -/
theorem C20_macd_talib {masig : MA (Ext K)} {G : ℕ → (ℕ → K) → ℕ → ℕ → K} (hsig : IsMA masig G ext1)
    (ha : Holds a n m x) {pfast pslow psig : ℕ} (h1 : 1 ≤ pfast) (h2 : pfast ≤ pslow) (h3 : 1 ≤ psig)
    (hn : m + (pslow - 1) + (psig - 1) ≤ n) :
    Gives (Ind.macd (Ind.emaG .avg pslow) Ind.ema masig pfast pslow psig a)
      (MacdLike G psig n (m + (pslow - 1)) fun i =>
        Spec.expRec (2 / ((pfast : K) + 1)) x (m + pslow - 2) (Spec.winMean x pfast (m + pslow - 2)) (i - (m + pslow - 2))
          - Spec.ema x (m - 1) pslow i) := by
  have hpos := ha.pos
  have hp2 : EwmCfg.p2 { pval := (pfast : Int), poffset := (pslow : Int) } a.minperiod = ((m + pslow - 1 : ℕ) : Int) := by
    unfold EwmCfg.p2
    have h0 : (pslow : Int) ≠ 0 := by omega
    simp only [ha.mp, ne_eq, h0, not_false_eq_true, if_true]
    rw [if_neg (by omega)]
    omega
  obtain ⟨r1, e0, e1⟩ := rep_ewmMean_off (c := { pval := (pfast : Int), poffset := (pslow : Int) }) (M := m + pfast - 1)
    ha hp2 (by omega) (by omega) (by omega) (by omega) (by simp only; omega)
    (seedVal_avg ha h1 (by omega) (by omega)) (2 / ((pfast : K) + 1))
  have e0' : Ind.emaG .avg pslow pfast a = .ok r1 := by
    unfold Ind.emaG
    rw [alphaOfCom_span h1]
    exact e0
  unfold Ind.macd
  refine Gives.bind (P := fun r => r = r1) ⟨r1, e0', rfl⟩ fun r' he => ?_
  rw [he]
  refine Gives.bind (ema_isMA pslow (by omega) a n m x ha (by unfold ext1; omega)) fun r2 e2 => ?_
  have hd : Shows (r1 - r2) n (m + (pslow - 1)) (fun i =>
      Spec.expRec (2 / ((pfast : K) + 1)) x (m + pslow - 2) (Spec.winMean x pfast (m + pslow - 2)) (i - (m + pslow - 2))
        - Spec.ema x (m - 1) pslow i) := by
    refine (rep_sub e1.toRepW e2.toRepW).congr (by unfold ext1; omega) fun i hi _ => ?_
    rw [if_neg (by omega), Ext.fin_sub]
    rfl
  refine Gives.bind (hsig psig h3 (r1 - r2) n _ _ hd.toRepW (by unfold ext1; omega)) fun r3 e3 => Gives.pure ?_
  refine ⟨hd, ?_, ?_⟩
  · exact shows_congr e3 rfl fun _ _ _ => rfl
  · exact shows_congr (Holds.sub hd.toRepW e3.toRepW) (by unfold ext1; omega) fun _ _ _ => rfl

/-- C20, cases: 6 bars are enough for macd(2, 3, 2); ta-lib compatibility only changes the seed -/
example : (Ind.macd Ind.ema Ind.ema Ind.ema 2 3 2 exData).map (fun r => (r.1.minperiod, r.2.1.minperiod, r.2.2.minperiod))
    = .ok (3, 4, 4) := by decide +kernel
example : (Ind.macd (Ind.emaG .avg 3) Ind.ema Ind.ema 2 3 2 exData).map (fun r => (r.1.minperiod, r.1.series[2]?))
    = .ok (3, some (.fin (2/3))) := by decide +kernel

/-! ## C48 -/

/-- **C48** (apo) -/
theorem C48_apo {ma : MA (Ext K)} {F : ℕ → (ℕ → K) → ℕ → ℕ → K} (hma : IsMA ma F ext1)
    (ha : Holds a n m x) {pfast pslow : ℕ} (h1 : 1 ≤ pfast) (h2 : pfast ≤ pslow) (hn : m + (pslow - 1) ≤ n) :
    Gives (Ind.apo ma pfast pslow a) fun r =>
      Shows r n (m + (pslow - 1)) fun i => F pfast x (m - 1) i - F pslow x (m - 1) i := by
  unfold Ind.apo Ind.posc
  obtain ⟨r1, e0, e1⟩ := hma pfast h1 a n m x ha (by unfold ext1; omega)
  obtain ⟨r2, f0, f1⟩ := hma pslow (by omega) a n m x ha (by unfold ext1; omega)
  rw [e0, f0]
  exact Gives.ok (shows_congr (Holds.sub e1.toRepW f1.toRepW) (by unfold ext1; omega) fun _ _ _ => rfl)

/-- **C48** (ppo): `100*(fast/slow - 1)`, its signal and histogram, if the slow average is never 0 (e.g. positive prices) -/
theorem C48_ppo {ma masig : MA (Ext K)} {F G : ℕ → (ℕ → K) → ℕ → ℕ → K} (hma : IsMA ma F ext1) (hsig : IsMA masig G ext1)
    (ha : Holds a n m x) {pfast pslow psig : ℕ} (h1 : 1 ≤ pfast) (h2 : pfast ≤ pslow) (h3 : 1 ≤ psig)
    (hn : m + (pslow - 1) + (psig - 1) ≤ n)
    (h0 : ∀ i, m + (pslow - 1) ≤ i + 1 → i < n → F pslow x (m - 1) i ≠ 0) :
    Gives (Ind.ppo false ma masig pfast pslow psig a)
      (MacdLike G psig n (m + (pslow - 1)) fun i => 100 * (F pfast x (m - 1) i / F pslow x (m - 1) i - 1)) := by
  have hpos := ha.pos
  unfold Ind.ppo Ind.posc
  obtain ⟨r1, e0, e1⟩ := hma pfast h1 a n m x ha (by unfold ext1; omega)
  obtain ⟨r2, f0, f1⟩ := hma pslow (by omega) a n m x ha (by unfold ext1; omega)
  rw [e0, f0]
  have hmax : max (m + ext1 pfast) (m + ext1 pslow) = m + (pslow - 1) := by unfold ext1; omega
  have hd : Shows (rmulS (lit 100) ((r1 / r2).subS (lit 1))) n (m + (pslow - 1))
      (fun i => 100 * (F pfast x (m - 1) i / F pslow x (m - 1) i - 1)) := by
    simp only [Ext.lit_def]
    refine shows_congr (Holds.rmulS (Holds.subS (Holds.div e1.toRepW f1.toRepW fun i hi hn => h0 i (by omega) hn).toRepW
      _).toRepW _) hmax fun i _ _ => ?_
    push_cast; ring
  obtain ⟨r3, g0, e3⟩ := hsig psig h3 _ n _ _ hd.toRepW (by unfold ext1; omega)
  simp only [bind, Except.bind, pure, Except.pure, if_true, if_false, Bool.false_eq_true, g0]
  refine ⟨_, rfl, hd, ?_, ?_⟩
  · exact shows_congr e3 rfl fun _ _ _ => rfl
  · exact shows_congr (Holds.sub hd.toRepW e3.toRepW) (by unfold ext1; omega) fun _ _ _ => rfl

/-- **C68** (ppofast; negation of its documented formula `100*(1 - slow/fast)`): the delivered value is the opposite,
`100*(slow/fast - 1)`. -/
theorem C68_ppofast_sign {ma masig : MA (Ext K)} {F G : ℕ → (ℕ → K) → ℕ → ℕ → K} (hma : IsMA ma F ext1)
    (hsig : IsMA masig G ext1)
    (ha : Holds a n m x) {pfast pslow psig : ℕ} (h1 : 1 ≤ pfast) (h2 : pfast ≤ pslow) (h3 : 1 ≤ psig)
    (hn : m + (pslow - 1) + (psig - 1) ≤ n)
    (h0 : ∀ i, m + (pslow - 1) ≤ i + 1 → i < n → F pfast x (m - 1) i ≠ 0) :
    Gives (Ind.ppo true ma masig pfast pslow psig a)
      (MacdLike G psig n (m + (pslow - 1)) fun i => -(100 * (1 - F pslow x (m - 1) i / F pfast x (m - 1) i))) := by
  have hpos := ha.pos
  unfold Ind.ppo Ind.posc
  obtain ⟨r1, e0, e1⟩ := hma pfast h1 a n m x ha (by unfold ext1; omega)
  obtain ⟨r2, f0, f1⟩ := hma pslow (by omega) a n m x ha (by unfold ext1; omega)
  rw [e0, f0]
  have hmax : max (m + ext1 pslow) (m + ext1 pfast) = m + (pslow - 1) := by unfold ext1; omega
  have hd : Shows (rmulS (lit 100) ((r2 / r1).subS (lit 1))) n (m + (pslow - 1))
      (fun i => -(100 * (1 - F pslow x (m - 1) i / F pfast x (m - 1) i))) := by
    simp only [Ext.lit_def]
    refine shows_congr (Holds.rmulS (Holds.subS (Holds.div f1.toRepW e1.toRepW fun i hi hn => h0 i (by omega) hn).toRepW
      _).toRepW _) hmax fun i _ _ => ?_
    push_cast; ring
  obtain ⟨r3, g0, e3⟩ := hsig psig h3 _ n _ _ hd.toRepW (by unfold ext1; omega)
  simp only [bind, Except.bind, pure, Except.pure, if_true, if_false, Bool.false_eq_true, g0]
  refine ⟨_, rfl, hd, ?_, ?_⟩
  · exact shows_congr e3 rfl fun _ _ _ => rfl
  · exact shows_congr (Holds.sub hd.toRepW e3.toRepW) (by unfold ext1; omega) fun _ _ _ => rfl

/-- the values of the example data -/
def exVal (i : ℕ) : ℚ := 1 + (i * (i + 1) / 2 : ℕ)

/-- C48 and C68, a case: the averages of the example data are not 0, so that all hypotheses are met -/
example : Gives (Ind.ppo false Ind.sma Ind.ema 1 2 2 exData) (MacdLike emaF 2 6 2 fun i =>
    100 * (smaF 1 exVal 0 i / smaF 2 exVal 0 i - 1)) := by
  refine C48_ppo (m := 1) (x := exVal) sma_isMA ema_isMA exData_holds (by omega) (by omega) (by omega) (by omega)
    fun i _ h => ?_
  have : 0 < smaF 2 exVal 0 i := by
    unfold smaF Spec.winMean Spec.winSum exVal
    positivity
  exact this.ne'

end Bta
