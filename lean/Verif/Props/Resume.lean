import Verif.Props.Flat

/-!
# C113: when the market moves again
-/

set_option linter.unusedSectionVars false

namespace Bta
open Line Ext Spec

variable {K : Type} [Field K] [LinearOrder K] [IsStrictOrderedRing K]
variable {a o h l c : Line (Ext K)} {n m p q : ℕ} {x O H L C : ℕ → K}

/-- **C113** (values come back): cmo has a value at each bar which is preceded by a move within its period. -/
theorem C113_cmo_returns {ma : MA (Ext K)} {F : ℕ → (ℕ → K) → ℕ → ℕ → K} {e : ℕ → ℕ} (hma : IsMA ma F e) (hM : Mono F e) (hN : NonNeg F e)
    (hP : PosWin F e) (hx : Holds a n m x) (hp : 1 ≤ p) (hn : m + 1 + e p ≤ n) :
    Gives (Ind.cmo ma p a) fun r => ∀ i j, m + 1 + e p ≤ i + 1 → i < n → i + 1 ≤ j + p → m + 1 ≤ j + 1 → j ≤ i → x j ≠ x (j - 1) →
      ∃ v : K, r.series[i]? = some (fin v) ∧ -100 ≤ v ∧ v ≤ 100 := by
  have hpos := hx.pos
  obtain ⟨r, r1, r2⟩ := C24_formula hma hM hN hx hp hn
  obtain ⟨r', s1, g, s2, s3⟩ := C24_range hma hM hN hx hp hn
  rw [r1, Except.ok.injEq] at s1
  subst s1
  refine ⟨r, r1, fun i j h1 h2 h3 h4 h5 hne => ?_⟩
  have hv := s2.val i h1 h2
  have hw := r2.val i h1 h2
  have hu := upAvg_nonneg (x := x) hN hp hpos h1
  have hd := downAvg_nonneg (x := x) hN hp hpos h1
  have hs : upAvg F 1 p m x i + downAvg F 1 p m x i ≠ 0 := by
    rcases lt_or_gt_of_ne hne with hc | hc
    · have : 0 < downAvg F 1 p m x i := hP p hp _ _ i (by omega) (fun j _ _ => le_max_right _ _)
        ⟨j, h3, by omega, h5, lt_max_of_lt_left (by linarith)⟩
      linarith
    · have : 0 < upAvg F 1 p m x i := hP p hp _ _ i (by omega) (fun j _ _ => le_max_right _ _)
        ⟨j, h3, by omega, h5, lt_max_of_lt_left (by linarith)⟩
      linarith
  rw [if_neg hs] at hw
  rcases s3 i h1 h2 with hg | ⟨v, hg, v1, v2⟩
  · rw [hv, hg] at hw
    exact absurd hw (by simp)
  · exact ⟨v, by rw [hv, hg], v1, v2⟩

/-- **C113** (values come back): the fast stochastic and Williams' %R have a value at each bar which is preceded, within the period, by a
bar with another close or with a range.  (bop at each bar with a range: C76.) -/
theorem C113_stochastic_returns (hh : Holds h n m H) (hl : Holds l n m L) (hc : Holds c n m C) (hp : 1 ≤ p) {pf : ℕ} (hpf : 1 ≤ pf)
    (hv : ∀ i, m ≤ i + 1 → i < n → L i ≤ C i ∧ C i ≤ H i) :
    Gives (Ind.stochf Ind.sma p pf h l c) fun r => ∀ i j, m + (p - 1) ≤ i + 1 → i < n → i + 1 ≤ j + p → j ≤ i →
      (C j ≠ C i ∨ L j ≠ H j) →
      ∃ v : K, r.1.series[i]? = some (fin v) ∧ 0 ≤ v ∧ v ≤ 100 ∧ (Ind.williamsr p h l c).series[i]? = some (fin (v - 100)) := by
  have hpos := hh.pos
  have hv' : ValidBars H L C (max m (max m m + (p - 1))) n := fun i h1 h2 => hv i (by omega) h2
  obtain ⟨⟨k, d⟩, r1, r2, ⟨g, s2, s3⟩, -⟩ := C22_stochf hh hl hc hp hpf hv'
  obtain ⟨k', d', w1, w2⟩ := C23_complement hh hl hc hp pf
  rw [r1, Except.ok.injEq, Prod.mk.injEq] at w1
  obtain ⟨rfl, rfl⟩ := w1
  refine ⟨_, r1, fun i j h1 h2 h3 h4 hne => ?_⟩
  have e1 := r2.val i (by omega) h2
  have e2 := s2.val i (by omega) h2
  have lt : winMin L p i < winMax H p i := by
    have a1 := Spec.le_winMax H (p := p) (i := i) (j := i - j) (by omega)
    have a2 := Spec.winMin_le L (p := p) (i := i) (j := i - j) (by omega)
    have a3 := Spec.le_winMax H (p := p) (i := i) (j := 0) (by omega)
    have a4 := Spec.winMin_le L (p := p) (i := i) (j := 0) (by omega)
    rw [show i - (i - j) = j by omega] at a1 a2
    rw [Nat.sub_zero] at a3 a4
    obtain ⟨b1, b2⟩ := hv i (by omega) h2
    obtain ⟨b3, b4⟩ := hv j (by omega) (by omega)
    rcases hne with hne | hne
    · rcases lt_or_gt_of_ne hne with hlt | hlt <;> linarith
    · have := lt_of_le_of_ne (b3.trans b4) hne
      linarith
  unfold Spec.fastK at e1
  rw [if_neg lt.ne'] at e1
  rcases s3 i (by omega) h2 with hg | ⟨v, hg, v1, v2⟩
  · rw [e2, hg] at e1
    exact absurd e1 (by simp)
  · have e3 : k.series[i]? = some (fin v) := by rw [e2, hg]
    refine ⟨v, e3, v1, v2, ?_⟩
    rw [w2]
    have := (rep_subS s2.toRepW (lit 100)).val i (by omega) h2
    rw [this, hg]
    simp

/-- **C113** (values come back): cci has a value at each bar which is preceded by another typical price within the period. -/
theorem C113_cci_returns (hh : Holds h n m H) (hl : Holds l n m L) (hc : Holds c n m C) (hp : 1 ≤ p) (he : m + (p - 1) ≤ n)
    {factor : K} (hf : factor ≠ 0) :
    Gives (Ind.cci Ind.sma (fin factor) p h l c) fun r => ∀ i j, m + (p - 1) ≤ i + 1 → i < n → i + 1 ≤ j + p → j ≤ i →
      H j + L j + C j ≠ H i + L i + C i → ∃ v : K, r.series[i]? = some (fin v) := by
  refine (C75_cci_flat hh hl hc hp he hf).imp fun r ⟨g, s, e⟩ i j h1 h2 h3 h4 hne => ?_
  have := (e i).2 ⟨i - j, by omega, ?_⟩
  · exact ⟨_, by rw [s.val i h1 h2, this]⟩
  · rw [show i - (i - j) = j by omega]
    intro h
    unfold Spec.typical at h
    apply hne
    have h3 : (3 : K) ≠ 0 := by norm_num
    field_simp at h
    exact h

theorem accF_posWin : PosWin (accF : ℕ → (ℕ → K) → ℕ → ℕ → K) ext1 := by
  intro p hp x b i hb hx hj
  have : (0 : K) < p := by exact_mod_cast hp
  exact mul_pos this (smmaF_posWin p hp x b i hb hx hj)

/-- **C113** (values come back): the directional indicators have a value at each bar which is preceded, within the period, by a bar with a
range or with another close than the bar before; dx if there is a directional movement within the period. -/
theorem C113_directional_returns {ma : MA (Ext K)} {F : ℕ → (ℕ → K) → ℕ → ℕ → K} {e : ℕ → ℕ} (hma : IsMA ma F e) (hG : Sums (F p) (e p))
    (hP : PosWin F e) (hh : Holds h n m H) (hl : Holds l n m L) (hc : Holds c n m C) (hq : 1 ≤ q) (hp : 1 ≤ p)
    (hv : ∀ i, m ≤ i + 1 → i < n → L i ≤ C i ∧ C i ≤ H i) (hn : m + q + e p ≤ n) (talib : Bool) :
    ∃ r s t, Ind.plusDi (ma p) q talib h l c = .ok r ∧ Ind.minusDi (ma p) q talib h l c = .ok s ∧ Ind.dx (ma p) q talib h l c = .ok t ∧
      ∀ i j, m + q + e p + 1 ≤ i + 1 → i < n → i + 1 ≤ j + p → m + q ≤ j + 1 → j ≤ i →
        (L j ≠ H j ∨ C j ≠ C (j - q) → ∃ v w : K, r.series[i]? = some (fin v) ∧ s.series[i]? = some (fin w) ∧ 0 ≤ v ∧ v ≤ 100 ∧ 0 ≤ w ∧ w ≤ 100) ∧
        (Spec.plusDM H L q j ≠ 0 ∨ Spec.minusDM H L q j ≠ 0 → ∃ v : K, t.series[i]? = some (fin v) ∧ 0 ≤ v ∧ v ≤ 100) := by
  have hpos := hh.pos
  have hS := hma.smoother hp
  obtain ⟨⟨r, r1, r2⟩, ⟨s, s1, s2⟩⟩ := di_core hS hh hl hc hq (fun i i1 i2 => (hv i i1 i2).1.trans (hv i i1 i2).2) hn talib
  have ht : Ind.dx (ma p) q talib h l c = .ok ((rmulS (lit 100) (r - s).abs) / (r + s)) := by
    unfold Ind.dx
    rw [r1, s1]
    rfl
  refine ⟨r, s, _, r1, s1, ht, fun i j h1 h2 h3 h4 h5 => ?_⟩
  have hb : ∀ j, m + q - 1 ≤ j → j ≤ i → _ := fun j j1 j2 => dm_le_range H L C q j (hv (j - q) (by omega) (by omega))
  have hz := hG.zero (m + q - 1) i (by omega)
  have p0 : 0 ≤ F p (Spec.plusDM H L q) (m + q - 1) i := by
    rw [← hz]; exact hG.mono _ _ _ _ (by omega) fun j _ _ => plusDM_nonneg H L q j
  have p1 := hG.mono _ _ _ i (by omega) fun j j1 j2 => (hb j j1 j2).1
  have q0 : 0 ≤ F p (Spec.minusDM H L q) (m + q - 1) i := by
    rw [← hz]; exact hG.mono _ _ _ _ (by omega) fun j _ _ => minusDM_nonneg H L q j
  have q1 := hG.mono _ _ _ i (by omega) fun j j1 j2 => (hb j j1 j2).2
  have tr0 : ∀ k, m + q - 1 ≤ k → k ≤ i → 0 ≤ Spec.trueRange H L C q k := fun k _ _ =>
    le_max_of_le_right (le_max_of_le_left (abs_nonneg _))
  have key : (0 < Spec.trueRange H L C q j) → ∃ v w : K, r.series[i]? = some (fin v) ∧ s.series[i]? = some (fin w) ∧
      0 ≤ v ∧ v ≤ 100 ∧ 0 ≤ w ∧ w ≤ 100 ∧ (0 < F p (Spec.plusDM H L q) (m + q - 1) i ∨ 0 < F p (Spec.minusDM H L q) (m + q - 1) i →
        0 < v + w) := by
    intro htr
    have hT : 0 < F p (Spec.trueRange H L C q) (m + q - 1) i := hP p hp _ _ i (by omega) tr0 ⟨j, h3, by omega, h5, htr⟩
    refine ⟨_, _, by rw [r2.val i h1 h2, Ext.fin_div _ hT.ne'], by rw [s2.val i h1 h2, Ext.fin_div _ hT.ne'], by positivity, ?_,
      by positivity, ?_, fun hd => ?_⟩
    · rw [div_le_iff₀ hT]; linarith
    · rw [div_le_iff₀ hT]; linarith
    · rw [← add_div]
      refine div_pos ?_ hT
      rcases hd with hd | hd <;> linarith
  constructor
  · intro hne
    obtain ⟨v, w, k1, k2, k3, k4, k5, k6, -⟩ := key (by
      unfold Spec.trueRange
      rcases hne with hne | hne
      · obtain ⟨b1, b2⟩ := hv j (by omega) (by omega)
        have := lt_of_le_of_ne (b1.trans b2) hne
        exact lt_max_of_lt_left (by linarith)
      · obtain ⟨b1, b2⟩ := hv j (by omega) (by omega)
        rcases lt_or_gt_of_ne hne with hlt | hlt
        · exact lt_max_of_lt_right (lt_max_of_lt_right (abs_pos.2 (by linarith)))
        · exact lt_max_of_lt_right (lt_max_of_lt_left (abs_pos.2 (by linarith))))
    exact ⟨v, w, k1, k2, k3, k4, k5, k6⟩
  · intro hne
    have hdm := hb j (by omega) h5
    have n1 := plusDM_nonneg H L q j
    have n2 := minusDM_nonneg H L q j
    have htr : 0 < Spec.trueRange H L C q j := by
      rcases hne with hne | hne
      · exact (lt_of_le_of_ne n1 (Ne.symm hne)).trans_le hdm.1
      · exact (lt_of_le_of_ne n2 (Ne.symm hne)).trans_le hdm.2
    obtain ⟨v, w, k1, k2, k3, k4, k5, k6, k7⟩ := key htr
    have hs : 0 < v + w := k7 (by
      rcases hne with hne | hne
      · exact Or.inl (hP p hp _ _ i (by omega) (fun k _ _ => plusDM_nonneg H L q k) ⟨j, h3, by omega, h5, lt_of_le_of_ne n1 (Ne.symm hne)⟩)
      · exact Or.inr (hP p hp _ _ i (by omega) (fun k _ _ => minusDM_nonneg H L q k) ⟨j, h3, by omega, h5, lt_of_le_of_ne n2 (Ne.symm hne)⟩))
    have e1 := r2.val i h1 h2
    have e2 := s2.val i h1 h2
    rw [k1] at e1
    rw [k2] at e2
    have ev := (rep_div (rep_rmulS (rep_abs (rep_sub r2.toRepW s2.toRepW).toRepW).toRepW (lit 100)).toRepW
      (rep_add r2.toRepW s2.toRepW).toRepW).val i (by omega) h2
    rw [ev, ← Option.some.inj e1, ← Option.some.inj e2]
    have e : (absv (fin v - fin w) : Ext K) = fin |v - w| := by rw [Ext.fin_sub]; rfl
    rw [e, show (lit 100 : Ext K) = fin 100 from by simp, Ext.fin_mul, Ext.fin_add, Ext.fin_div _ hs.ne']
    refine ⟨_, rfl, by positivity, ?_⟩
    rw [div_le_iff₀ hs]
    have : |v - w| ≤ v + w := abs_le.mpr ⟨by linarith, by linarith⟩
    linarith

/-! ### concrete cases: five bars at 7, then rising prices -/

theorem haltData_holds : Holds haltData 8 1 (fun i => if i < 5 then (7 : ℚ) else i + 10) := bars_holds _ _

example : Gives (Ind.cmo Ind.smma 2 haltData) fun r => ∃ v : ℚ, r.series[5]? = some (fin v) ∧ -100 ≤ v ∧ v ≤ 100 :=
  (C113_cmo_returns smma_isMA smmaF_mono smmaF_nonneg smmaF_posWin haltData_holds (by omega) (by unfold ext1; omega)).imp
    fun r h => h 5 5 (by unfold ext1; omega) (by omega) (by omega) (by omega) (by omega) (by norm_num)
example : Gives (Ind.stochf Ind.sma 3 2 haltData haltData haltData) fun r => ∃ v : ℚ, r.1.series[6]? = some (fin v) ∧ 0 ≤ v ∧ v ≤ 100 ∧
    (Ind.williamsr 3 haltData haltData haltData).series[6]? = some (fin (v - 100)) :=
  (C113_stochastic_returns haltData_holds haltData_holds haltData_holds (by omega) (by omega) fun _ _ _ => ⟨le_refl _, le_refl _⟩).imp
    fun r h => h 6 5 (by omega) (by omega) (by omega) (by omega) (Or.inl (by norm_num))
example : (Ind.stochf Ind.sma 3 2 haltData haltData haltData).map (fun r => r.1.series) =
    .ok [.nan, .nan, .nan, .nan, .nan, .fin 100, .fin 100, .fin 100] := by decide +kernel
example : Gives (Ind.cci Ind.sma (.fin (3/200)) 3 haltData haltData haltData) fun r => ∃ v : ℚ, r.series[6]? = some (fin v) :=
  (C113_cci_returns haltData_holds haltData_holds haltData_holds (by omega) (by omega) (by norm_num)).imp
    fun r h => h 6 5 (by omega) (by omega) (by omega) (by omega) (by norm_num)
example : ∃ r s t, Ind.plusDi (Ind.smacc false false .sum 2) 1 false haltData haltData haltData = .ok r ∧
    Ind.minusDi (Ind.smacc false false .sum 2) 1 false haltData haltData haltData = .ok s ∧
    Ind.dx (Ind.smacc false false .sum 2) 1 false haltData haltData haltData = .ok t ∧ ∃ v : ℚ, t.series[6]? = some (fin v) ∧ 0 ≤ v ∧ v ≤ 100 := by
  obtain ⟨r, s, t, e1, e2, e3, e⟩ := C113_directional_returns (p := 2) (smacc_isMA false) (accF_sums (by omega)) accF_posWin
    haltData_holds haltData_holds haltData_holds (le_refl 1) (by omega) (fun _ _ _ => ⟨le_refl _, le_refl _⟩) (by unfold ext1; omega) false
  exact ⟨r, s, t, e1, e2, e3, (e 6 5 (by unfold ext1; omega) (by omega) (by omega) (by omega) (by omega)).2
    (Or.inl (by unfold Spec.plusDM; norm_num))⟩

end Bta
