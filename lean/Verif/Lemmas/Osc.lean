import Verif.Lemmas.Mas
import Verif.Lemmas.Avg
import Verif.Spec.Osc

/-!
# Lemmas for oscillators
-/

set_option linter.unusedSectionVars false
set_option linter.unusedVariables false

namespace Bta
open Line Ext Finset

variable {K : Type} [Field K] [LinearOrder K] [IsStrictOrderedRing K]

/-! ### positivity -/

theorem wsum_pos {w : ℕ → K} {p i b : ℕ} (hw : ∀ j < p, 0 < w j) (hb : b + (p - 1) ≤ i) (hp : 1 ≤ p) {x : ℕ → K}
    (hx : ∀ j, b ≤ j → j ≤ i → 0 ≤ x j) (hj : ∃ j, i + 1 ≤ j + p ∧ b ≤ j ∧ j ≤ i ∧ 0 < x j) :
    0 < ∑ j ∈ range p, w j * x (i - j) := by
  obtain ⟨j, h1, h2, h3, h4⟩ := hj
  refine sum_pos' (fun k hk => ?_) ⟨i - j, mem_range.mpr (by omega), ?_⟩
  · have := mem_range.mp hk
    exact mul_nonneg (hw k this).le (hx _ (by omega) (by omega))
  · rw [show i - (i - j) = j from by omega]
    exact mul_pos (hw _ (by omega)) h4

theorem sumF_posWin : PosWin (sumF : ℕ → (ℕ → K) → ℕ → ℕ → K) ext1 := by
  intro p hp x b i hb hx hj
  have := wsum_pos (w := fun _ => (1 : K)) (fun _ _ => one_pos) hb hp hx hj
  simpa [sumF, Spec.winSum] using this

theorem smaF_posWin : PosWin (smaF : ℕ → (ℕ → K) → ℕ → ℕ → K) ext1 := by
  intro p hp x b i hb hx hj
  have h1 : (0 : K) < p := by exact_mod_cast hp
  exact div_pos (sumF_posWin p hp x b i hb hx hj) h1

theorem wmaF_posWin : PosWin (wmaF : ℕ → (ℕ → K) → ℕ → ℕ → K) ext1 := by
  intro p hp x b i hb hx hj
  have hw : ∀ j < p, (0 : K) < ((p - j : ℕ) : K) := fun j h => by exact_mod_cast (by omega : 0 < p - j)
  exact div_pos (wsum_pos hw hb hp hx hj) (sum_pos (fun j h => hw j (mem_range.mp h)) ⟨0, mem_range.mpr (by omega)⟩)

theorem trimaF_posWin : PosWin (trimaF : ℕ → (ℕ → K) → ℕ → ℕ → K) ext1 := by
  intro p hp x b i hb hx hj
  have hw : ∀ j < p, (0 : K) < (Spec.triWeight p j : K) := fun j h => by
    have := triWeight_pos h
    exact_mod_cast this
  exact div_pos (wsum_pos hw hb hp hx hj) (sum_pos (fun j h => hw j (mem_range.mp h)) ⟨0, mem_range.mpr (by omega)⟩)

theorem expRec_nonneg {a : K} (h0 : 0 ≤ a) (h1 : a ≤ 1) {x : ℕ → K} {s : ℕ} {v : K} (hv : 0 ≤ v) :
    ∀ k, (∀ j, s ≤ j → j ≤ s + k → 0 ≤ x j) → 0 ≤ Spec.expRec a x s v k := by
  intro k
  induction k with
  | zero => intro _; exact hv
  | succ k ih =>
    intro h
    have i1 := ih fun j h1 h2 => h j h1 (by omega)
    have i2 := h (s + k + 1) (by omega) (by omega)
    simp only [Spec.expRec]
    nlinarith [mul_nonneg (sub_nonneg.mpr h1) i1, mul_nonneg h0 i2]

/-- a positive value anywhere in the data makes the exponential average positive (factor strictly between 0 and 1) -/
theorem expRec_pos {a : K} (h0 : 0 < a) (h1 : a < 1) {x : ℕ → K} {s : ℕ} {v : K} (hv : 0 ≤ v) :
    ∀ k, (∀ j, s ≤ j → j ≤ s + k → 0 ≤ x j) → (0 < v ∨ ∃ j, s < j ∧ j ≤ s + k ∧ 0 < x j) → 0 < Spec.expRec a x s v k := by
  intro k
  induction k with
  | zero =>
    intro _ h
    rcases h with h | ⟨j, h2, h3, _⟩
    · exact h
    · omega
  | succ k ih =>
    intro h hp
    have i0 := expRec_nonneg h0.le h1.le hv k fun j h1 h2 => h j h1 (by omega)
    have i2 := h (s + k + 1) (by omega) (by omega)
    simp only [Spec.expRec]
    by_cases hx : 0 < x (s + k + 1)
    · nlinarith [mul_nonneg (sub_nonneg.mpr h1.le) i0, mul_pos h0 hx]
    · have : 0 < Spec.expRec a x s v k := by
        refine ih (fun j h1 h2 => h j h1 (by omega)) ?_
        rcases hp with hp | ⟨j, h2, h3, h4⟩
        · exact Or.inl hp
        · refine Or.inr ⟨j, h2, ?_, h4⟩
          by_contra hc
          have : j = s + k + 1 := by omega
          exact hx (this ▸ h4)
      nlinarith [mul_pos (sub_pos.mpr h1) this, mul_nonneg h0.le i2]

theorem expAvg_posWin {a : K} {p : ℕ} (hp : 1 ≤ p) (h0 : 0 < a) (h1 : 2 ≤ p → a < 1) (h1' : a ≤ 1) {x : ℕ → K} {b i : ℕ} (hb : b + (p - 1) ≤ i)
    (hx : ∀ j, b ≤ j → j ≤ i → 0 ≤ x j) (hj : ∃ j, i + 1 ≤ j + p ∧ b ≤ j ∧ j ≤ i ∧ 0 < x j) :
    0 < Spec.expAvg a x b p i := by
  unfold Spec.expAvg
  have hv : 0 ≤ Spec.winMean x p (b + p - 1) :=
    smaF_nonneg p hp x b (b + p - 1) (by unfold ext1; omega) fun j h2 h3 => hx j h2 (by omega)
  obtain ⟨j, j1, j2, j3, j4⟩ := hj
  by_cases h2 : 2 ≤ p
  · refine expRec_pos h0 (h1 h2) hv _ (fun j h2 h3 => hx j (by omega) (by omega)) ?_
    by_cases hc : j ≤ b + p - 1
    · refine Or.inl (smaF_posWin p hp x b (b + p - 1) (by unfold ext1; omega) (fun j h2 h3 => hx j h2 (by omega)) ?_)
      exact ⟨j, by omega, j2, hc, j4⟩
    · exact Or.inr ⟨j, by omega, by omega, j4⟩
  · obtain rfl : p = 1 := by omega
    obtain rfl : j = i := by omega
    rw [show b + 1 - 1 = b from by omega] at hv ⊢
    rcases Nat.eq_or_lt_of_le j2 with hc | hc
    · subst hc
      simp only [Nat.sub_self, Spec.expRec]
      simpa [Spec.winMean, Spec.winSum] using j4
    · obtain ⟨k, hk⟩ : ∃ k, j - b = k + 1 := ⟨j - b - 1, by omega⟩
      rw [hk]
      simp only [Spec.expRec]
      have i0 := expRec_nonneg h0.le h1' hv k fun j h1 h2 => hx j (by omega) (by omega)
      rw [show b + k + 1 = j from by omega]
      nlinarith [mul_nonneg (sub_nonneg.mpr h1') i0, mul_pos h0 j4]

theorem emaF_posWin : PosWin (emaF : ℕ → (ℕ → K) → ℕ → ℕ → K) ext1 := by
  intro p hp x b i hb hx hj
  refine expAvg_posWin hp (by positivity) (fun h2 => ?_) (ema_alpha hp).2 hb hx hj
  have : (2 : K) ≤ p := by exact_mod_cast h2
  rw [div_lt_one (by positivity)]; linarith

theorem smmaF_posWin : PosWin (smmaF : ℕ → (ℕ → K) → ℕ → ℕ → K) ext1 := by
  intro p hp x b i hb hx hj
  have h1 : (0 : K) < p := by exact_mod_cast hp
  refine expAvg_posWin hp (by positivity) (fun h2 => ?_) (smma_alpha hp).2 hb hx hj
  have : (2 : K) ≤ p := by exact_mod_cast h2
  rw [div_lt_one h1]; linarith

/-! ### the rsi expression -/

theorem rsiV (u d : K) (hu : 0 ≤ u) (hd : 0 ≤ d) :
    (fin 100 - fin 100 / (fin 1 + fin u / fin d) : Ext K) = Spec.pct u d := by
  unfold Spec.pct
  rcases hd.eq_or_lt with h | h
  · subst h
    rcases hu.eq_or_lt with h' | h'
    · subst h'; simp
    · rw [Ext.fin_div_zero, Ext.infSign_pos h', if_neg (by rw [add_zero]; exact h'.ne')]
      show (fin 100 - fin 0 : Ext K) = _
      rw [Ext.fin_sub, add_zero, mul_div_assoc, div_self h'.ne']
      congr 1; ring
  · have h2 : u + d ≠ 0 := by positivity
    have h3 : 1 + u / d ≠ 0 := by positivity
    rw [Ext.fin_div _ h.ne', Ext.fin_add, Ext.fin_div _ h3, Ext.fin_sub, if_neg h2]
    congr 1
    field_simp
    ring

theorem pct_range {u d : K} (hu : 0 ≤ u) (hd : 0 ≤ d) : NaNOrIn 0 100 (Spec.pct u d) := by
  unfold Spec.pct
  by_cases h : u + d = 0
  · rw [if_pos h]; exact Or.inl rfl
  · rw [if_neg h]
    have : 0 < u + d := lt_of_le_of_ne (add_nonneg hu hd) (Ne.symm h)
    refine Or.inr ⟨_, rfl, by positivity, ?_⟩
    rw [div_le_iff₀ this]
    nlinarith

theorem pct_nan {u d : K} : Spec.pct u d = .nan ↔ u + d = 0 := by
  unfold Spec.pct
  by_cases h : u + d = 0
  · simp [h]
  · simp [h]

/-! ### windows on arbitrary values -/

/-- the number, or 0 -/
def toNum : Ext K → K
  | .fin x => x
  | _ => 0

theorem wnd_num {g : ℕ → Ext K} {w i : ℕ} (h : (wnd g w i).all isFin = true) :
    wnd g w i = wnd (fun i => (fin (toNum (g i)) : Ext K)) w i := by
  unfold wnd at *
  rw [List.all_eq_true] at h
  refine List.map_congr_left fun j hj => ?_
  have := h (g (i + 1 - w + j)) (List.mem_map.mpr ⟨j, hj, rfl⟩)
  cases hc : g (i + 1 - w + j) with
  | fin x => simp only [hc, toNum]
  | pinf => rw [hc] at this; simp at this
  | ninf => rw [hc] at this; simp at this
  | nan => rw [hc] at this; simp at this

theorem wnd_all_get {g : ℕ → Ext K} {w i : ℕ} (hw : w ≤ i + 1) (h : (wnd g w i).all isFin = true) {j : ℕ} (hj : j < w) :
    g (i - j) = fin (toNum (g (i - j))) := by
  rw [List.all_eq_true] at h
  have := h (g (i - j)) ((mem_wnd hw).mpr ⟨j, hj, rfl⟩)
  cases hc : g (i - j) with
  | fin x => simp only [hc, toNum]
  | pinf => rw [hc] at this; simp at this
  | ninf => rw [hc] at this; simp at this
  | nan => rw [hc] at this; simp at this

/-- the mean of a window over arbitrary values within a range is NaN or within this range -/
theorem aggMean_range {g : ℕ → Ext K} {w i : ℕ} (h1 : 1 ≤ w) (hw : w ≤ i + 1) {lo hi : K}
    (h : ∀ j, j < w → NaNOrIn lo hi (g (i - j))) : NaNOrIn lo hi (aggMean (wnd g w i)) := by
  by_cases hf : (wnd g w i).all isFin = true
  · rw [wnd_num hf, aggMean_wnd _ h1 hw]
    refine Or.inr ⟨_, rfl, ?_⟩
    refine smaF_averages w h1 _ (i + 1 - w) i lo hi (by unfold ext1; omega) fun j h2 h3 => ?_
    have hj := h (i - j) (by omega)
    have hg := wnd_all_get hw hf (j := i - j) (by omega)
    rw [show i - (i - j) = j from by omega] at hj hg
    rcases hj with hj | ⟨v, hv, h4⟩
    · rw [hj] at hg; exact absurd hg (by simp)
    · rw [hv]; exact h4
  · left
    unfold aggMean whenAllFin
    rw [if_neg hf]
    rfl

theorem sma_ranges {r : Line (Ext K)} {n m : ℕ} {lo hi : K} (h : RangesIn lo hi r n m) {p : ℕ} (hp : 1 ≤ p) :
    Gives (Ind.sma p r) fun d => RangesIn lo hi d n (m + (p - 1)) := by
  obtain ⟨g, h1, h2⟩ := h
  have hpos := h1.pos
  refine Gives.ok ⟨_, (rep_rolling hp h1.toRepW).congr (by omega) fun _ _ _ => rfl, fun i h3 h4 => ?_⟩
  exact aggMean_range hp (by omega) fun j hj => h2 _ (by omega) (by omega)

/-! ### positions of extremes -/

theorem argGo_spec (better : Ext K → Ext K → Bool) (B : K → K → Prop) [DecidableRel B]
    (hb : ∀ x y, better (fin x) (fin y) = decide (B x y)) (x : ℕ → K)
    (hirr : ∀ u v, B u v → ¬ B v u) (htr : ∀ u v w, ¬ B u v → B w v → ¬ B u w) (htr2 : ∀ u v w, ¬ B u v → ¬ B v w → ¬ B u w) :
    ∀ (l : List K) (bi i : ℕ), bi < i → (∀ k, k < l.length → l[k]? = some (x (i + k))) →
      (∀ j, j < i → ¬ B (x j) (x bi)) → (∀ j, j < bi → B (x bi) (x j)) →
      let r := argGo better (fin (x bi)) bi i (l.map fin)
      r < i + l.length ∧ (∀ j, j < i + l.length → ¬ B (x j) (x r)) ∧ ∀ j, j < r → B (x r) (x j) := by
  intro l
  induction l with
  | nil =>
    intro bi i h1 _ h3 h4
    exact ⟨by simpa [argGo] using h1, by simpa [argGo] using h3, by simpa [argGo] using h4⟩
  | cons y ys ih =>
    intro bi i h1 h2 h3 h4
    have hy : y = x i := by simpa using h2 0 (by simp)
    subst hy
    have h2' : ∀ k, k < ys.length → ys[k]? = some (x (i + 1 + k)) := by
      intro k hk
      have := h2 (k + 1) (by simpa using hk)
      rw [show i + 1 + k = i + (k + 1) from by omega]
      simpa using this
    simp only [List.map_cons, argGo, hb, decide_eq_true_eq]
    rw [show i + (x i :: ys).length = (i + 1) + ys.length from by simp; omega]
    by_cases hB : B (x i) (x bi)
    · rw [if_pos hB]
      refine ih i (i + 1) (by omega) h2' (fun j hj => ?_) (fun j hj => ?_)
      · rcases Nat.lt_or_ge j i with h | h
        · exact htr _ _ _ (h3 j h) hB
        · rw [show j = i from by omega]; exact fun h => hirr _ _ h h
      · by_contra hc
        exact htr2 _ _ _ hc (h3 j hj) hB
    · rw [if_neg hB]
      refine ih bi (i + 1) (by omega) h2' (fun j hj => ?_) h4
      rcases Nat.lt_or_ge j i with h | h
      · exact h3 j h
      · rw [show j = i from by omega]; exact hB

/-- `np.argmax` of a list of numbers: position of the first maximum -/
theorem argmaxV_spec (x : ℕ → K) {w : ℕ} (hw : 1 ≤ w) :
    let r := argmaxV ((List.range w).map fun j => (fin (x j) : Ext K))
    r < w ∧ (∀ j, j < w → x j ≤ x r) ∧ ∀ j, j < r → x j < x r := by
  obtain ⟨v, rfl⟩ : ∃ v, w = v + 1 := ⟨w - 1, by omega⟩
  have h := argGo_spec (K := K) (fun y b => lt b y) (fun u v => v < u) (by intro x y; simp) x
    (fun u v h => not_lt.mpr h.le) (fun u v w h1 h2 => not_lt.mpr ((not_lt.mp h1).trans h2.le))
    (fun u v w h1 h2 => not_lt.mpr ((not_lt.mp h1).trans (not_lt.mp h2)))
    ((List.range v).map fun j => x (1 + j)) 0 1 (by omega)
    (fun k hk => by simp at hk; simp [hk]) (fun j hj => by rw [show j = 0 from by omega]; exact lt_irrefl _)
    (fun j hj => by omega)
  simp only [List.length_map, List.length_range, not_lt] at h
  rw [List.range_succ_eq_map, List.map_cons, List.map_map]
  simp only [argmaxV]
  rw [show (List.map ((fun j => (fin (x j) : Ext K)) ∘ Nat.succ) (List.range v)) =
    (List.map fin (List.map (fun j => x (1 + j)) (List.range v))) from by
      rw [List.map_map]; refine List.map_congr_left fun j _ => ?_; simp [add_comm]]
  rw [show v + 1 = 1 + v from by omega]
  exact h

/-- `np.argmin` of a list of numbers: position of the first minimum -/
theorem argminV_spec (x : ℕ → K) {w : ℕ} (hw : 1 ≤ w) :
    let r := argminV ((List.range w).map fun j => (fin (x j) : Ext K))
    r < w ∧ (∀ j, j < w → x r ≤ x j) ∧ ∀ j, j < r → x r < x j := by
  obtain ⟨v, rfl⟩ : ∃ v, w = v + 1 := ⟨w - 1, by omega⟩
  have h := argGo_spec (K := K) (fun y b => lt y b) (fun u v => u < v) (by intro x y; simp) x
    (fun u v h => not_lt.mpr h.le) (fun u v w h1 h2 => not_lt.mpr (h2.le.trans (not_lt.mp h1)))
    (fun u v w h1 h2 => not_lt.mpr ((not_lt.mp h2).trans (not_lt.mp h1)))
    ((List.range v).map fun j => x (1 + j)) 0 1 (by omega)
    (fun k hk => by simp at hk; simp [hk]) (fun j hj => by rw [show j = 0 from by omega]; exact lt_irrefl _)
    (fun j hj => by omega)
  simp only [List.length_map, List.length_range, not_lt] at h
  rw [List.range_succ_eq_map, List.map_cons, List.map_map]
  simp only [argminV]
  rw [show (List.map ((fun j => (fin (x j) : Ext K)) ∘ Nat.succ) (List.range v)) =
    (List.map fin (List.map (fun j => x (1 + j)) (List.range v))) from by
      rw [List.map_map]; refine List.map_congr_left fun j _ => ?_; simp [add_comm]]
  rw [show v + 1 = 1 + v from by omega]
  exact h

end Bta
