import Verif.Lemmas.Osc

/-!
# Averages keep ranges, also of data with holes
-/

set_option linter.unusedSectionVars false
set_option linter.unusedVariables false

namespace Bta
open Line Ext

variable {K : Type} [Field K] [LinearOrder K] [IsStrictOrderedRing K]

theorem list_eq_tail {L : List (Ext K)} {n k : ℕ} (h : L.length = n - k) : L = tail n k (fun i => (L[i - k]?).getD nan) := by
  refine tail_ext h fun j hj => ?_
  rw [show j + k - k = j from by omega, List.getElem?_eq_getElem (by omega)]
  rfl

theorem ewmGo_length (al : Ext K) : ∀ (xs : List (Ext K)) (avg wt : Ext K), (ewmGo al avg wt xs).length = xs.length := by
  intro xs
  induction xs with
  | nil => intro avg wt; rfl
  | cons x xs ih =>
    intro avg wt
    unfold ewmGo
    split
    · simp [ih]
    · simp only []
      split <;> simp [ih]

theorem ewmL_length (al : Ext K) (xs : List (Ext K)) : (ewmL al xs).length = xs.length := by
  unfold ewmL
  have : (prepL xs).length = xs.length := by simp [prepL]
  cases h : prepL xs with
  | nil => rw [h] at this; simpa using this
  | cons y ys => rw [h] at this; simpa [ewmGo_length] using this

theorem NaNOrIn.convex {lo hi u v w a : K} (h1 : lo ≤ u ∧ u ≤ hi) (h2 : lo ≤ v ∧ v ≤ hi) (hw : 0 ≤ w) (ha : 0 < a) :
    NaNOrIn lo hi ((fin w * fin u + fin a * fin v) / (fin w + fin a) : Ext K) := by
  right
  have h0 : 0 < w + a := by linarith
  refine ⟨(w * u + a * v) / (w + a), ?_, ?_, ?_⟩
  · simp only [Ext.fin_mul, Ext.fin_add]
    exact Ext.fin_div _ h0.ne'
  · rw [le_div_iff₀ h0]; nlinarith [mul_le_mul_of_nonneg_left h1.1 hw, mul_le_mul_of_nonneg_left h2.1 ha.le]
  · rw [div_le_iff₀ h0]; nlinarith [mul_le_mul_of_nonneg_left h1.2 hw, mul_le_mul_of_nonneg_left h2.2 ha.le]

theorem ewmGo_range {lo hi a : K} (h0 : 0 < a) (h1 : a ≤ 1) : ∀ (xs : List (Ext K)) (avg : Ext K) (w : K), 0 ≤ w →
    NaNOrIn lo hi avg → (∀ v ∈ xs, NaNOrIn lo hi v) → ∀ v ∈ ewmGo (fin a) avg (fin w) xs, NaNOrIn lo hi v := by
  intro xs
  induction xs with
  | nil => intro avg w _ _ _ v hv; simp [ewmGo] at hv
  | cons x xs ih =>
    intro avg w hw havg hx v hv
    have hx0 := hx x List.mem_cons_self
    have hxs : ∀ v ∈ xs, NaNOrIn lo hi v := fun v hv => hx v (List.mem_cons_of_mem _ hv)
    have hw' : 0 ≤ w * (1 - a) := mul_nonneg hw (by linarith)
    unfold ewmGo at hv
    rcases havg with havg | ⟨u, havg, hu⟩
    · subst havg
      rw [if_pos (by simp)] at hv
      rcases List.mem_cons.mp hv with h | h
      · rw [h]; exact hx0
      · exact ih x w hw hx0 hxs v h
    · subst havg
      rw [if_neg (by simp)] at hv
      simp only [] at hv
      have hwt : (fin w * (lit 1 - fin a) : Ext K) = fin (w * (1 - a)) := by
        simp only [Ext.lit_def, Ext.fin_sub, Ext.fin_mul]; push_cast; rfl
      rw [hwt] at hv
      have hself : NaNOrIn lo hi (fin u : Ext K) := Or.inr ⟨u, rfl, hu⟩
      rcases hx0 with hx0 | ⟨z, hx0, hz⟩
      · subst hx0
        rw [if_pos (by simp)] at hv
        rcases List.mem_cons.mp hv with h | h
        · rw [h]; exact hself
        · exact ih _ _ hw' hself hxs v h
      · subst hx0
        rw [if_neg (by simp)] at hv
        have hnew : NaNOrIn lo hi (if eqv (fin u) (fin z) = true then fin u else
            (fin (w * (1 - a)) * fin u + fin a * fin z) / (fin (w * (1 - a)) + fin a) : Ext K) := by
          split
          · exact hself
          · exact NaNOrIn.convex hu hz hw' h0
        rcases List.mem_cons.mp hv with h | h
        · rw [h]; exact hnew
        · rw [show (lit 1 : Ext K) = fin 1 from by simp] at h
          exact ih _ 1 zero_le_one hnew hxs v h

theorem prep_range {lo hi : K} {xs : List (Ext K)} (h : ∀ v ∈ xs, NaNOrIn lo hi v) : prepL xs = xs := by
  unfold prepL
  conv_rhs => rw [← List.map_id xs]
  refine List.map_congr_left fun x hx => ?_
  rcases h x hx with e | ⟨w, e, -⟩ <;> simp [e]

theorem ewmL_range {lo hi a : K} (h0 : 0 < a) (h1 : a ≤ 1) {xs : List (Ext K)} (h : ∀ v ∈ xs, NaNOrIn lo hi v) :
    ∀ v ∈ ewmL (fin a) xs, NaNOrIn lo hi v := by
  unfold ewmL
  rw [prep_range h]
  cases xs with
  | nil => intro v hv; simp at hv
  | cons x xs =>
    intro v hv
    simp only [] at hv
    rcases List.mem_cons.mp hv with e | e
    · rw [e]; exact h x List.mem_cons_self
    · rw [show (lit 1 : Ext K) = fin 1 from by simp] at e
      exact ewmGo_range h0 h1 xs x 1 zero_le_one (h x List.mem_cons_self) (fun v hv => h v (List.mem_cons_of_mem _ hv)) v e

theorem meanSkipNa_range {lo hi : K} {xs : List (Ext K)} (h : ∀ v ∈ xs, NaNOrIn lo hi v) : NaNOrIn lo hi (meanSkipNa xs) := by
  unfold meanSkipNa
  simp only []
  split
  · left; rfl
  · rename_i hne
    right
    have hy : ∃ ys : List K, xs.filter (fun x => !isNaN x) = ys.map fin ∧ ∀ y ∈ ys, lo ≤ y ∧ y ≤ hi := by
      clear hne
      induction xs with
      | nil => exact ⟨[], rfl, by simp⟩
      | cons x xs ih =>
        obtain ⟨ys, e, hys⟩ := ih fun v hv => h v (List.mem_cons_of_mem _ hv)
        rcases h x List.mem_cons_self with hx | ⟨w, hx, hw⟩
        · exact ⟨ys, by simp [hx, e], hys⟩
        · refine ⟨w :: ys, by simp [hx, e], fun y hy => ?_⟩
          rcases List.mem_cons.mp hy with q | q
          · rw [q]; exact hw
          · exact hys y q
    obtain ⟨ys, e, hys⟩ := hy
    rw [e] at hne ⊢
    have hlen : (0 : K) < ys.length := by
      cases ys with
      | nil => simp at hne
      | cons y ys => simp only [List.length_cons]; positivity
    have hb : ∀ ys : List K, (∀ y ∈ ys, lo ≤ y ∧ y ≤ hi) → lo * ys.length ≤ ys.sum ∧ ys.sum ≤ hi * ys.length := by
      intro ys
      induction ys with
      | nil => simp
      | cons y ys ih =>
        intro hy
        obtain ⟨i1, i2⟩ := ih fun z hz => hy z (List.mem_cons_of_mem _ hz)
        obtain ⟨j1, j2⟩ := hy y List.mem_cons_self
        simp only [List.sum_cons, List.length_cons]
        push_cast
        constructor <;> linarith
    refine ⟨ys.sum / ys.length, ?_, ?_, ?_⟩
    · rw [sumV_fin, List.length_map]
      rw [show (lit ((ys.length : ℕ) : ℚ) : Ext K) = fin (ys.length : K) from by simp, Ext.fin_div _ hlen.ne']
    · rw [le_div_iff₀ hlen]; exact (hb ys hys).1
    · rw [div_le_iff₀ hlen]; exact (hb ys hys).2

/-- seeded exponential smoothing with factor in `(0, 1]` -/
theorem ewmMean_ranges {lo hi al : K} (h0 : 0 < al) (h1 : al ≤ 1) {a : Line (Ext K)} {n m p : ℕ} (hp : 1 ≤ p)
    (ha : RangesIn lo hi a n m) (hn : m + p - 1 ≤ n) :
    Gives (ewmMean { pval := p } (fin al) a) fun r => RangesIn lo hi r n (m + p - 1) := by
  obtain ⟨g, hr, hg⟩ := ha
  have hpos := hr.pos
  have hp2 : EwmCfg.p2 { pval := (p : Int) } a.minperiod = ((m + p - 1 : ℕ) : Int) := by
    unfold EwmCfg.p2
    simp only [hr.mp, ne_eq, not_true_eq_false, if_false]
    rw [if_neg (by omega)]
    omega
  set S := seedVal Seed.avg a.series (((m + p - 1 : ℕ) : Int) - p) (((m + p - 1 : ℕ) : Int) - 1) ((m + p - 1 : ℕ) : Int)
    with hS
  have hseed : NaNOrIn lo hi S := by
    rw [hS]
    unfold seedVal
    simp only []
    rw [slice_wnd hr.toRepW hp (by omega) hn]
    refine meanSkipNa_range fun v hv => ?_
    obtain ⟨j, hj, rfl⟩ := (mem_wnd (by omega)).mp hv
    exact hg _ (by omega) (by omega)
  have hall : ∀ v ∈ S :: tail n (m + p - 1) g, NaNOrIn lo hi v := by
    intro v hv
    rcases List.mem_cons.mp hv with e | e
    · rw [e]; exact hseed
    · unfold tail at e
      obtain ⟨j, hj, rfl⟩ := List.mem_map.mp e
      have := List.mem_range.mp hj
      exact hg _ (by omega) (by omega)
  have hlen : (ewmL (fin al) (S :: tail n (m + p - 1) g)).length = n - (m + p - 2) := by
    rw [ewmL_length, List.length_cons, tail_length]; omega
  obtain ⟨o, r, q1, q2, q3⟩ := rep_ewmCall (c := { pval := (p : Int) }) hr.toRepW hp2 (by omega) hn (by
      simp only; omega) (op := fun t => .ok (ewmL (fin al) t))
      (E := fun i => ((ewmL (fin al) (S :: tail n (m + p - 1) g))[i - (m + p - 2)]?).getD nan)
      (by
        simp only []
        rw [← hS]
        rw [show m + p - 1 - 1 = m + p - 2 from by omega]
        rw [← list_eq_tail hlen])
  refine ⟨r, by unfold ewmMean; rw [q1]; exact q2, _, q3, fun i i1 i2 => ?_⟩
  have hi' : i - (m + p - 2) < (ewmL (fin al) (S :: tail n (m + p - 1) g)).length := by rw [hlen]; omega
  rw [List.getElem?_eq_getElem hi']
  exact ewmL_range h0 h1 hall _ (List.getElem_mem hi')

theorem sma_keeps : KeepsRange (Ind.sma : MA (Ext K)) ext1 := fun p hp lo hi a n m h _ => sma_ranges h hp

theorem ema_keeps : KeepsRange (Ind.ema : MA (Ext K)) ext1 := by
  intro p hp lo hi a n m h hn
  have hpos := h.choose_spec.1.pos
  unfold Ind.ema Ind.emaG ext1 at *
  rw [alphaOfCom_span hp]
  have hpk : (1 : K) ≤ p := by exact_mod_cast hp
  refine (ewmMean_ranges (by positivity) (ema_alpha hp).2 hp h (by omega)).imp fun r hr => ?_
  rwa [show m + (p - 1) = m + p - 1 from by omega]

theorem smma_keeps : KeepsRange (Ind.smma : MA (Ext K)) ext1 := by
  intro p hp lo hi a n m h hn
  have hpos := h.choose_spec.1.pos
  unfold Ind.smma Ind.smmaG ext1 at *
  rw [alphaOfCom_com hp]
  have hpk : (1 : K) ≤ p := by exact_mod_cast hp
  refine (ewmMean_ranges (by positivity) (smma_alpha hp).2 hp h (by omega)).imp fun r hr => ?_
  rwa [show m + (p - 1) = m + p - 1 from by omega]

end Bta
