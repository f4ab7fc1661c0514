import Verif.Props.Price
import Verif.Props.Osc
import Verif.Lemmas.Mirror5

/-!
# C89: the ultimate oscillator, the money flow index, rates of change, stochrsi, natr, ppo and trix of a chart turned upside down
-/

set_option linter.unusedSectionVars false
set_option linter.unusedVariables false

namespace Bta
open Line Ext

variable {K : Type} [Field K] [LinearOrder K] [IsStrictOrderedRing K] {h l c v : Line (Ext K)} {n m : ℕ} {H L C W x : ℕ → K}

theorem Holds.mirror {a : Line (Ext K)} (ha : Holds a n m x) : Holds (Spec.neg a) n m (fun i => -x i) :=
  ⟨by simp [Spec.neg, ha.len], ha.mp, ha.pos, fun i h1 h2 => by simp only [Spec.neg, List.getElem?_map, ha.val i h1 h2]; rfl⟩

theorem mirror_pressure (H L C : ℕ → K) (i : ℕ) (hv : L i ≤ H i) :
    Spec.pressure (fun i => -H i) (fun i => -C i) i = Spec.trueRange H L C 1 i - Spec.pressure L C i ∧
    Spec.trueRange (fun i => -L i) (fun i => -H i) (fun i => -C i) 1 i = Spec.trueRange H L C 1 i := by
  unfold Spec.pressure Spec.trueRange
  rw [← trueRange_eq hv, ← trueRange_eq (neg_le_neg hv), min_neg_neg, max_neg_neg]
  constructor <;> ring

/-- the quotient of one of the three windows, in both charts -/
theorem mirror_share {B B' T : K} (h0 : 0 ≤ B) (h1 : B ≤ T) (hB : B' = T - B) :
    ((fin B / fin T : Ext K) = nan ∧ (fin B' / fin T : Ext K) = nan) ∨
    ∃ v : K, (fin B / fin T : Ext K) = fin v ∧ (fin B' / fin T : Ext K) = fin (1 - v) := by
  rcases (h0.trans h1).eq_or_lt with h | h
  · left
    have : B = 0 := by linarith
    rw [hB, ← h, this]
    simp
  · right
    refine ⟨B / T, fin_div _ h.ne', ?_⟩
    rw [fin_div _ h.ne', hB, sub_div, div_self h.ne']

/-- **C89** the ultimate oscillator of the turned chart is the complement to 100 (missing where it is missing, when no bar of a window had a range). -/
theorem C89_ultosc (hh : Holds h n m H) (hl : Holds l n m L) (hc : Holds c n m C) {p1 p2 p3 : ℕ} (h1 : 1 ≤ p1)
    (h2 : 1 ≤ p2) (h3 : 1 ≤ p3) {f1 f2 f3 : K} (qs : f1 + f2 + f3 ≠ 0) (hv : ∀ i, m ≤ i + 1 → i < n → L i ≤ C i ∧ C i ≤ H i) :
    ∃ u : ℕ → Ext K, Delivers (Ind.ultosc p1 p2 p3 (fin f1) (fin f2) (fin f3) h l c) n (m + max p1 (max p2 p3)) u ∧
      Delivers (Ind.ultosc p1 p2 p3 (fin f1) (fin f2) (fin f3) (Spec.neg l) (Spec.neg h) (Spec.neg c)) n (m + max p1 (max p2 p3))
        (fun i => fin 100 - u i) := by
  have hm := hh.pos
  have hh' := hh.mirror; have hl' := hl.mirror; have hc' := hc.mirror
  obtain ⟨t1, -⟩ := C27_truerange hh hl hc (le_refl 1) fun i h1 h2 => (hv i (by omega) h2).1.trans (hv i (by omega) h2).2
  obtain ⟨t2, -⟩ := C27_truerange hl' hh' hc' (le_refl 1) fun i h1 h2 => neg_le_neg ((hv i (by omega) h2).1.trans (hv i (by omega) h2).2)
  have ht : Shows (Ind.truerange 1 h l c) n (m + 1) (Spec.trueRange H L C 1) := shows_congr t1 (by omega) fun _ _ _ => rfl
  have ht' : Shows (Ind.truerange 1 (Spec.neg l) (Spec.neg h) (Spec.neg c)) n (m + 1) (Spec.trueRange H L C 1) :=
    shows_congr t2 (by omega) fun i i1 i2 => (mirror_pressure H L C i ((hv i (by omega) i2).1.trans (hv i (by omega) i2).2)).2
  have hb : Shows (c - Ind.truelow 1 l c) n (m + 1) (Spec.pressure L C) :=
    shows_congr (Holds.sub hc (Holds.clipHiL (hc.ago (le_refl 1)).toRepW hl).toRepW) (by omega) fun _ _ _ => rfl
  have hb' : Shows (Spec.neg c - Ind.truelow 1 (Spec.neg h) (Spec.neg c)) n (m + 1) (fun i => Spec.trueRange H L C 1 i - Spec.pressure L C i) :=
    shows_congr (Holds.sub hc' (Holds.clipHiL (hc'.ago (le_refl 1)).toRepW hh').toRepW) (by omega) fun i i1 i2 =>
      (mirror_pressure H L C i ((hv i (by omega) i2).1.trans (hv i (by omega) i2).2)).1
  have av : ∀ p, 1 ≤ p → ∃ g g', Delivers (Ind.sumN p (c - Ind.truelow 1 l c) / Ind.sumN p (Ind.truerange 1 h l c)) n (m + p) g ∧
      Delivers (Ind.sumN p (Spec.neg c - Ind.truelow 1 (Spec.neg h) (Spec.neg c)) /
        Ind.sumN p (Ind.truerange 1 (Spec.neg l) (Spec.neg h) (Spec.neg c))) n (m + p) g' ∧
      ∀ i, m + p ≤ i + 1 → i < n → (g i = nan ∧ g' i = nan) ∨ ∃ v : K, g i = fin v ∧ g' i = fin (1 - v) := by
    intro p hp
    refine ⟨_, _, (rep_div (Holds.rollSum hb.toRepW hp).toRepW (Holds.rollSum ht.toRepW hp).toRepW).congr (m' := m + p) (by omega)
      fun _ _ _ => rfl, (rep_div (Holds.rollSum hb'.toRepW hp).toRepW (Holds.rollSum ht'.toRepW hp).toRepW).congr (m' := m + p) (by omega)
      fun _ _ _ => rfl, fun i i1 i2 => mirror_share (Finset.sum_nonneg fun j hj => ?_) (Finset.sum_le_sum fun j hj => ?_)
      (Finset.sum_sub_distrib _ _)⟩
    all_goals
      have := Finset.mem_range.mp hj
      obtain ⟨b1, b2⟩ := hv (i - j) (by omega) (by omega)
      have := pressure_bounds H L C (i - j) b1 b2
    · exact this.1
    · exact this.2
  obtain ⟨g1, g1', r1, r1', s1⟩ := av p1 h1
  obtain ⟨g2, g2', r2, r2', s2⟩ := av p2 h2
  obtain ⟨g3, g3', r3, r3', s3⟩ := av p3 h3
  unfold Ind.ultosc
  simp only [Ext.lit_def, Ext.fin_add, Ext.fin_mul, Ext.fin_div _ qs]
  refine ⟨_, (rep_add (rep_add (rep_rmulS r1.toRepW _).toRepW (rep_rmulS r2.toRepW _).toRepW).toRepW
    (rep_rmulS r3.toRepW _).toRepW).congr (m' := m + max p1 (max p2 p3)) (by omega) fun _ _ _ => rfl,
    (rep_add (rep_add (rep_rmulS r1'.toRepW _).toRepW (rep_rmulS r2'.toRepW _).toRepW).toRepW
    (rep_rmulS r3'.toRepW _).toRepW).congr (m' := m + max p1 (max p2 p3)) (by omega) fun i i1 i2 => ?_⟩
  rcases s1 i (by omega) i2 with ⟨e1, e1'⟩ | ⟨v1, e1, e1'⟩
  · rw [e1, e1']; simp
  rcases s2 i (by omega) i2 with ⟨e2, e2'⟩ | ⟨v2, e2, e2'⟩
  · rw [e2, e2']; simp
  rcases s3 i (by omega) i2 with ⟨e3, e3'⟩ | ⟨v3, e3, e3'⟩
  · rw [e3, e3']; simp
  rw [e1, e2, e3, e1', e2', e3']
  simp only [Ext.fin_add, Ext.fin_mul, Ext.fin_sub]
  congr 1
  push_cast
  field_simp
  ring

/-- the flows of both charts -/
theorem mfi_flows {p : ℕ} (hh : Holds h n m H) (hl : Holds l n m L) (hc : Holds c n m C) (hv : Holds v n m W) (hp : 1 ≤ p) :
    Delivers (Ind.mfi p h l c v) n (m + p) fun i => fin 100 - fin 100 / (fin 1 + fin (Spec.winSum (Spec.flowUp H L C W) p i) /
      fin (Spec.winSum (Spec.flowDown H L C W) p i)) := by
  have hm := hh.pos
  have h3 : (3 : K) ≠ 0 := by norm_num
  have htp : Shows ((h + l + c).divS (lit 3)) n m (Spec.tp H L C) := by
    rw [show (lit 3 : Ext K) = fin 3 from by simp]
    exact shows_congr (Holds.divS (Holds.add (Holds.add hh hl).toRepW hc).toRepW h3) (by omega) fun i _ _ => rfl
  have htp1 := Holds.ago htp.toRepW (s := 1) (le_refl _)
  have hraw := Holds.mul htp.toRepW hv
  have hup : Shows (mulB ((h + l + c).divS (lit 3) * v) (gtL ((h + l + c).divS (lit 3)) (ago (-1) ((h + l + c).divS (lit 3)))))
      n (m + 1) (Spec.flowUp H L C W) := by
    refine (rep_mulB hraw.toRepW (rep_gtL htp.toRepW htp1.toRepW).toRepW).congr (by omega) fun i _ _ => ?_
    unfold Spec.flowUp
    by_cases hc : Spec.tp H L C (i - 1) < Spec.tp H L C i <;> simp [hc]
  have hdn : Shows (mulB ((h + l + c).divS (lit 3) * v) (ltL ((h + l + c).divS (lit 3)) (ago (-1) ((h + l + c).divS (lit 3)))))
      n (m + 1) (Spec.flowDown H L C W) := by
    refine (rep_mulB hraw.toRepW (rep_ltL htp.toRepW htp1.toRepW).toRepW).congr (by omega) fun i _ _ => ?_
    unfold Spec.flowDown
    by_cases hc : Spec.tp H L C i < Spec.tp H L C (i - 1) <;> simp [hc]
  have h1 := Holds.rollSum hup.toRepW hp
  have h2 := Holds.rollSum hdn.toRepW hp
  unfold Ind.mfi Ind.sumN
  exact (rep_rsubS (rep_rdivS (rep_raddS (rep_div h1.toRepW h2.toRepW).toRepW _).toRepW _).toRepW _).congr
    (by omega) fun i h4 h5 => by simp

theorem mirror_flows (H L C W : ℕ → K) (p i : ℕ) :
    Spec.winSum (Spec.flowUp (fun i => -L i) (fun i => -H i) (fun i => -C i) W) p i = -Spec.winSum (Spec.flowDown H L C W) p i ∧
    Spec.winSum (Spec.flowDown (fun i => -L i) (fun i => -H i) (fun i => -C i) W) p i = -Spec.winSum (Spec.flowUp H L C W) p i := by
  have e : ∀ j, Spec.tp (fun i => -L i) (fun i => -H i) (fun i => -C i) j = -Spec.tp H L C j := fun j => by unfold Spec.tp; ring
  unfold Spec.winSum
  rw [← Finset.sum_neg_distrib, ← Finset.sum_neg_distrib]
  refine ⟨Finset.sum_congr rfl fun j _ => ?_, Finset.sum_congr rfl fun j _ => ?_⟩
  · unfold Spec.flowUp Spec.flowDown
    rw [e, e]
    by_cases hc : Spec.tp H L C (i - j) < Spec.tp H L C (i - j - 1) <;> simp [hc]
  · unfold Spec.flowUp Spec.flowDown
    rw [e, e]
    by_cases hc : Spec.tp H L C (i - j - 1) < Spec.tp H L C (i - j) <;> simp [hc]

/-- **C89** the money flow index of the turned chart, with the volume as it is, is the complement to 100 (missing where it is missing, when there was no
flow), for prices and volumes which are not negative. -/
theorem C89_mfi {p : ℕ} (hh : Holds h n m H) (hl : Holds l n m L) (hc : Holds c n m C) (hv : Holds v n m W) (hp : 1 ≤ p)
    (hpos : ∀ i, m ≤ i + 1 → i < n → 0 ≤ H i ∧ 0 ≤ L i ∧ 0 ≤ C i ∧ 0 ≤ W i) :
    ∃ u : ℕ → Ext K, Delivers (Ind.mfi p h l c v) n (m + p) u ∧
      Delivers (Ind.mfi p (Spec.neg l) (Spec.neg h) (Spec.neg c) v) n (m + p) (fun i => fin 100 - u i) := by
  have hm := hh.pos
  refine ⟨_, mfi_flows hh hl hc hv hp, (mfi_flows hl.mirror hh.mirror hc.mirror hv hp).congr rfl fun i h4 h5 => ?_⟩
  have hf : ∀ j, m ≤ j + 1 → j < n → 0 ≤ Spec.tp H L C j * W j := by
    intro j h6 h7
    obtain ⟨q1, q2, q3, q4⟩ := hpos j h6 h7
    exact mul_nonneg (div_nonneg (by linarith) (by norm_num)) q4
  have hU : 0 ≤ Spec.winSum (Spec.flowUp H L C W) p i := by
    refine Finset.sum_nonneg fun j hj => ?_
    have := Finset.mem_range.mp hj
    unfold Spec.flowUp
    split
    · exact hf _ (by omega) (by omega)
    · exact le_refl _
  have hD : 0 ≤ Spec.winSum (Spec.flowDown H L C W) p i := by
    refine Finset.sum_nonneg fun j hj => ?_
    have := Finset.mem_range.mp hj
    unfold Spec.flowDown
    split
    · exact hf _ (by omega) (by omega)
    · exact le_refl _
  obtain ⟨e1, e2⟩ := mirror_flows H L C W p i
  rw [e1, e2]
  generalize Spec.winSum (Spec.flowUp H L C W) p i = U at *
  generalize Spec.winSum (Spec.flowDown H L C W) p i = D at *
  rcases hU.eq_or_lt with hU | hU <;> rcases hD.eq_or_lt with hD | hD
  · rw [← hU, ← hD]; simp
  · rw [← hU, neg_zero, fin_div_zero, fin_div _ hD.ne']
    rw [show infSign (-D) = (ninf : Ext K) by simp [infSign, hD, not_lt.mpr hD.le]]
    rw [show (fin 1 + ninf : Ext K) = ninf from rfl, show (fin 100 / ninf : Ext K) = fin 0 from rfl]
    rw [zero_div, fin_add, add_zero, fin_div _ one_ne_zero]
    simp
  · rw [← hD, neg_zero, fin_div_zero, fin_div _ (neg_ne_zero.mpr hU.ne')]
    rw [show infSign U = (pinf : Ext K) by simp [infSign, hU]]
    rw [show (fin 1 + pinf : Ext K) = pinf from rfl, show (fin 100 / pinf : Ext K) = fin 0 from rfl]
    rw [zero_div, fin_add, add_zero, fin_div _ one_ne_zero]
    simp
  · have h1 : (1 : K) + U / D ≠ 0 := by positivity
    have h2 : (1 : K) + -D / -U ≠ 0 := by rw [neg_div_neg_eq]; positivity
    rw [fin_div _ hD.ne', fin_div _ (neg_ne_zero.mpr hU.ne'), fin_add, fin_add, fin_div _ h1, fin_div _ h2]
    simp only [fin_sub]
    congr 1
    have hU' := hU.ne'; have hD' := hD.ne'
    rw [neg_div_neg_eq]
    have : U + D ≠ 0 := by positivity
    have : D + U ≠ 0 := by positivity
    field_simp
    ring

/-- **C89** rates of change, which divide by a price, are the same in the turned chart, for prices which are not zero. -/
theorem C89_roc {a : Line (Ext K)} (ha : Holds a n m x) {p : ℕ} (hp : 1 ≤ p) (h0 : ∀ i, m ≤ i + 1 → i < n → x i ≠ 0) :
    Ind.rocr p (Spec.neg a) = Ind.rocr p a ∧ Ind.rocr100 p (Spec.neg a) = Ind.rocr100 p a ∧ Ind.rocp p (Spec.neg a) = Ind.rocp p a ∧
    Ind.roc p (Spec.neg a) = Ind.roc p a := by
  have e : Ind.rocr p (Spec.neg a) = Ind.rocr p a := by
    have h1 := (C44_consistent ha hp h0).1
    have h2 := (C44_consistent ha.mirror hp fun i i1 i2 => neg_ne_zero.mpr (h0 i i1 i2)).1
    exact h2.ext h1 fun i _ _ => congrArg fin (neg_div_neg_eq _ _)
  unfold Ind.rocr100 Ind.roc Ind.rocp
  rw [e]
  exact ⟨rfl, rfl, rfl, rfl⟩

/-- bars which meet the hypotheses, and the values -/
example : Ind.ultosc 1 2 3 (.fin 4) (.fin 2) (.fin 1) (bars 4 fun i => (i + 2 : ℚ)) (bars 4 fun i => (i : ℚ))
      (bars 4 fun i => (if i = 3 then (5 : ℚ) else i + 1)) = ⟨[.nan, .nan, .nan, .fin (1850 / 21)], 4⟩ ∧
    Ind.ultosc 1 2 3 (.fin 4) (.fin 2) (.fin 1) (bars 4 fun i => (-i : ℚ)) (bars 4 fun i => (-(i + 2) : ℚ))
      (bars 4 fun i => (-(if i = 3 then 5 else i + 1 : ℚ))) = ⟨[.nan, .nan, .nan, .fin (100 - 1850 / 21)], 4⟩ := by decide +kernel

example : Ind.mfi 2 (bars 3 fun i => if i = 1 then (1 : ℚ) else 3) (bars 3 fun i => if i = 1 then (1 : ℚ) else 3)
      (bars 3 fun i => if i = 1 then (1 : ℚ) else 3) (bars 3 fun _ => 1) = ⟨[.nan, .nan, .fin 75], 3⟩ ∧
    Ind.mfi 2 (bars 3 fun i => if i = 1 then (-1 : ℚ) else -3) (bars 3 fun i => if i = 1 then (-1 : ℚ) else -3)
      (bars 3 fun i => if i = 1 then (-1 : ℚ) else -3) (bars 3 fun _ => 1) = ⟨[.nan, .nan, .fin 25], 3⟩ := by decide +kernel

example : ∃ u : ℕ → Ext ℚ, Delivers (Ind.mfi 2 (bars 9 fun i => (i + 2 : ℚ)) (bars 9 fun i => (i : ℚ)) (bars 9 fun i => (i + 1 : ℚ)) (bars 9 fun _ => 1)) 9 3 u ∧
    Delivers (Ind.mfi 2 (Spec.neg (bars 9 fun i => (i : ℚ))) (Spec.neg (bars 9 fun i => (i + 2 : ℚ))) (Spec.neg (bars 9 fun i => (i + 1 : ℚ)))
      (bars 9 fun _ => 1)) 9 3 (fun i => fin 100 - u i) :=
  C89_mfi (bars_holds _ _) (bars_holds _ _) (bars_holds _ _) (bars_holds _ _) (by decide) fun i _ _ =>
    ⟨by positivity, by positivity, by positivity, by norm_num⟩

example : Ind.roc 1 (Spec.neg (bars 5 fun i => (i + 1 : ℚ))) = Ind.roc 1 (bars 5 fun i => (i + 1 : ℚ)) ∧
    Ind.roc 1 (bars 3 fun i => (i + 1 : ℚ)) = ⟨[.nan, .fin 100, .fin 50], 2⟩ :=
  ⟨(C89_roc (bars_holds _ _) (le_refl 1) fun i _ _ => by positivity).2.2.2, by decide +kernel⟩

/-! ### stochrsi and natr -/

theorem winMax_compl (y : ℕ → K) (k : K) {w : ℕ} (hw : 1 ≤ w) (i : ℕ) :
    Spec.winMax (fun j => k - y j) w i = k - Spec.winMin y w i ∧ Spec.winMin (fun j => k - y j) w i = k - Spec.winMax y w i := by
  have a1 := Spec.winMax_isGreatest (fun j => k - y j) hw i
  have a2 := Spec.winMin_isLeast (fun j => k - y j) hw i
  have b1 := Spec.winMax_isGreatest y hw i
  have b2 := Spec.winMin_isLeast y hw i
  constructor
  · obtain ⟨j, hj, e⟩ := a1.1
    obtain ⟨j', hj', e'⟩ := b2.1
    have h1 := a1.2 ⟨j', hj', rfl⟩
    have h2 := b2.2 ⟨j, hj, rfl⟩
    beta_reduce at e e' h1 h2
    rw [e]
    rw [e] at h1
    rw [← e'] at h1
    linarith
  · obtain ⟨j, hj, e⟩ := a2.1
    obtain ⟨j', hj', e'⟩ := b1.1
    have h1 := a2.2 ⟨j', hj', rfl⟩
    have h2 := b1.2 ⟨j, hj, rfl⟩
    beta_reduce at e e' h1 h2
    rw [e]
    rw [e] at h1
    rw [← e'] at h1
    linarith

theorem stochV_compl {g g' : ℕ → Ext K} {w i : ℕ} (h1 : 1 ≤ w) (hw : w ≤ i + 1) (sc : K)
    (hg : ∀ j, j ≤ i → (∃ v, g j = fin v ∧ g' j = fin (100 - v)) ∨ ((∀ v, g j ≠ fin v) ∧ g' j = g j)) :
    (g' i - aggMin (wnd g' w i)) / (aggMax (wnd g' w i) - aggMin (wnd g' w i)) * fin sc =
      fin sc - (g i - aggMin (wnd g w i)) / (aggMax (wnd g w i) - aggMin (wnd g w i)) * fin sc := by
  by_cases hf : (wnd g w i).all isFin = true
  · have hgi := wnd_all_get hw hf (j := 0) (by omega)
    rw [Nat.sub_zero] at hgi
    have hall : ∀ k, k < w → g' (i - k) = fin (100 - toNum (g (i - k))) := by
      intro k hk
      have e := wnd_all_get hw hf hk
      rcases hg (i - k) (by omega) with ⟨v, e1, e2⟩ | ⟨e1, _⟩
      · rw [e2, e1]; rfl
      · exact absurd e (e1 _)
    have e' : wnd g' w i = wnd (fun j => (fin (100 - toNum (g j)) : Ext K)) w i := by
      unfold wnd
      refine List.map_congr_left fun k hk => ?_
      have hk := List.mem_range.mp hk
      have := hall (w - 1 - k) (by omega)
      rwa [show i - (w - 1 - k) = i + 1 - w + k by omega] at this
    have h0 := hall 0 (by omega)
    rw [Nat.sub_zero] at h0
    have c := winMax_compl (fun j => toNum (g j)) 100 h1 i
    rw [e', aggMin_wnd _ h1 hw, aggMax_wnd _ h1 hw, h0, c.1, c.2, wnd_num hf, aggMin_wnd _ h1 hw, aggMax_wnd _ h1 hw, hgi]
    have h2 := Spec.le_winMax (fun i => toNum (g i)) (p := w) (i := i) (j := 0) (by omega)
    have h3 := Spec.winMin_le (fun i => toNum (g i)) (p := w) (i := i) (j := 0) (by omega)
    simp only [Nat.sub_zero] at h2 h3
    rw [show toNum (fin (toNum (g i)) : Ext K) = toNum (g i) from rfl]
    set X := toNum (g i)
    set A := Spec.winMin (fun i => toNum (g i)) w i
    set B := Spec.winMax (fun i => toNum (g i)) w i
    rw [Ext.fin_sub, Ext.fin_sub, Ext.fin_sub, Ext.fin_sub, show (100 - A) - (100 - B) = B - A by ring,
      show (100 - X) - (100 - B) = B - X by ring]
    by_cases hz : B - A = 0
    · have z1 : B - X = 0 := by linarith
      have z2 : X - A = 0 := by linarith
      rw [hz, z1, z2]
      simp
    · rw [Ext.fin_div _ hz, Ext.fin_div _ hz]
      refine congrArg fin ?_
      field_simp
      ring
  · have hf' : ¬ (wnd g' w i).all isFin = true := by
      intro h
      apply hf
      rw [List.all_eq_true] at h ⊢
      intro u hu
      obtain ⟨k, hk, rfl⟩ := (mem_wnd hw).mp hu
      rcases hg (i - k) (by omega) with ⟨v, e1, _⟩ | ⟨_, e2⟩
      · rw [e1]; rfl
      · rw [← e2]; exact h _ ((mem_wnd hw).mpr ⟨k, hk, rfl⟩)
    have e1 : aggMin (wnd g w i) = (nan : Ext K) := by unfold aggMin whenAllFin; rw [if_neg hf]
    have e2 : aggMin (wnd g' w i) = (nan : Ext K) := by unfold aggMin whenAllFin; rw [if_neg hf']
    rw [e1, e2]; simp

/-- **C89** the stochastic rsi of the turned chart is the complement to the scale (1 or 100), missing where the one of the chart is missing; whatever the
data. -/
theorem C89_stochrsi {a : Line (Ext K)} (hl : a.series.length = n) (hm : 1 ≤ a.minperiod) {p w : ℕ} (hp : 1 ≤ p) (hw : 1 ≤ w) (sc : K)
    {r : Line (Ext K)} (hr : Ind.stochrsi p w (fin sc) a = .ok r) :
    Ind.stochrsi p w (fin sc) (Spec.neg a) = .ok ⟨r.series.map fun v => fin sc - v, r.minperiod⟩ := by
  obtain ⟨y, hy, hr⟩ := Mi.bind_ok (show _ >>= _ = Except.ok r from hr)
  injection hr with hr
  obtain ⟨y', hy', q1, q2, q3⟩ := Mi.rsi (Mi.B.of hl hm) (fun b hb => Mi.maB (m := .smma .avg) hp b hb) hy
  have by' := Mi.bOf (LRel.rsi (R := barsRel (Ext K) n) (fun b b' hb => LRel.smmaG trivial hp hb) (Mi.B.of hl hm)) hy
  obtain ⟨_, ⟨m1, _, _⟩, l1, _⟩ := by'
  obtain ⟨k, hk⟩ : ∃ k : ℕ, y.minperiod = k := ⟨y.minperiod.toNat, by omega⟩
  have ry : RepW y n k (fun i => y.series[i]?.getD nan) :=
    ⟨l1, hk, by omega, fun i _ hi => by rw [List.getElem?_eq_getElem (by omega)]; rfl⟩
  have ry' : RepW y' n k (fun i => y'.series[i]?.getD nan) :=
    ⟨q2.trans l1, q1.trans hk, by omega, fun i _ hi => by rw [List.getElem?_eq_getElem (by omega)]; rfl⟩
  have S : ∀ {y : Line (Ext K)} {g : ℕ → Ext K}, RepW y n k g →
      Rep nan (((y - Ind.lowest w y) / (Ind.highest w y - Ind.lowest w y)).mulS (fin sc)) n (k + w - 1)
        (fun i => (g i - aggMin (wnd g w i)) / (aggMax (wnd g w i) - aggMin (wnd g w i)) * fin sc) := by
    intro y g hy
    have h1 := rep_rolling hw (agg := aggMin) hy
    have h2 := rep_rolling hw (agg := aggMax) hy
    exact (rep_mulS (rep_div (rep_sub hy h1.toRepW).toRepW (rep_sub h2.toRepW h1.toRepW).toRepW).toRepW _).congr
      (by omega) fun _ _ _ => rfl
  have s1 := S ry
  have s2 := S ry'
  show (Ind.rsi Ind.smma 1 p (Spec.neg a) >>= _) = _
  rw [show Ind.rsi Ind.smma 1 p (Spec.neg a) = .ok y' from hy']
  refine congrArg Except.ok (s2.ext (h := fun i => fin sc - ((fun i => y.series[i]?.getD nan) i - aggMin (wnd (fun i => y.series[i]?.getD nan) w i)) /
    (aggMax (wnd (fun i => y.series[i]?.getD nan) w i) - aggMin (wnd (fun i => y.series[i]?.getD nan) w i)) * fin sc) ?_ ?_)
  · rw [← hr]
    exact {
      len := by rw [List.length_map]; exact s1.len
      mp := s1.mp
      pos := s1.pos
      val := fun i i1 i2 => by rw [List.getElem?_map, s1.val i i1 i2]; rfl
      pre := fun i i1 i2 => by rw [List.getElem?_map, s1.pre i i1 i2]; rfl }
  · intro i i1 i2
    refine stochV_compl (g := fun i => y.series[i]?.getD nan) (g' := fun i => y'.series[i]?.getD nan) (w := w) (i := i) hw (by omega) sc fun j hj => ?_
    rcases q3 j (by omega) with ⟨v, e1, e2⟩ | ⟨e1, e2⟩
    · exact Or.inl ⟨v, by rw [e1]; rfl, by rw [e2]; rfl⟩
    · refine Or.inr ⟨fun v hv => e1 v ?_, by rw [e2]⟩
      rw [List.getElem?_eq_getElem (by omega)] at hv ⊢
      exact congrArg some hv

/-- **C89** the normalized average true range of the turned chart changes its sign (closes other than zero) -/
theorem C89_natr {x : ℕ → Line (Ext K)} (hx : Spec.Data n x) {ma : Avg (Ext K)} {q p : ℕ} (hk : (Call.atr ma q p).Periods)
    (hc : Holds (x 2) n m C) (h0 : ∀ i, m ≤ i + 1 → i < n → C i ≠ 0) {r : Line (Ext K)} (hr : (Call.natr ma q p).run x = .ok [r]) :
    (Call.natr ma q p).run (Spec.mirrorIn (.atr ma q p) x) = .ok [Spec.neg r] := by
  obtain ⟨y, hy, hr⟩ := Mi.bind_ok (show _ >>= _ = Except.ok [r] from hr)
  obtain ⟨t, ht, hy⟩ := Mi.bind_ok (show _ >>= _ = Except.ok y from hy)
  injection hy with hy
  injection hr with hr
  injection hr with hr
  subst hr
  subst hy
  have bt := Mi.bOf (Mi.maB hk _ (LRel.truerange (R := barsRel (Ext K) n) (q := q) (Mi.B.of (hx.len 0) (hx.pos 0))
    (Mi.B.of (hx.len 1) (hx.pos 1)) (Mi.B.of (hx.len 2) (hx.pos 2)))) ht
  obtain ⟨m', g, rt⟩ := bt.rep
  have e : Ind.atr ma.run q p (Spec.neg (x 1)) (Spec.neg (x 0)) (Spec.neg (x 2)) = .ok t := by
    rw [← ht]
    unfold Ind.atr
    rw [Mi.truerange (Mi.B.of (hx.len 0) (hx.pos 0)) (Mi.B.of (hx.len 1) (hx.pos 1)) (Mi.B.of (hx.len 2) (hx.pos 2))]
  show oneE (Ind.natr ma.run q p (Spec.neg (x 1)) (Spec.neg (x 0)) (Spec.neg (x 2))) = _
  unfold Ind.natr
  rw [e]
  refine congrArg (fun l => Except.ok [l]) ?_
  refine (rep_div (rep_rmulS rt _).toRepW hc.mirror).ext (Mi.rneg (rep_div (rep_rmulS rt _).toRepW hc)) fun i i1 i2 => ?_
  have hz := h0 i (by omega) i2
  generalize lit 100 * g i = u
  cases u with
  | fin u =>
    rw [Ext.fin_div _ hz, Ext.fin_div _ (neg_ne_zero.mpr hz)]
    exact congrArg fin (div_neg _)
  | nan => rfl
  | pinf =>
    show (if -C i < 0 then ninf else pinf : Ext K) = Ext.neg (if C i < 0 then ninf else pinf)
    rcases lt_or_gt_of_ne hz with hz | hz
    · rw [if_pos hz, if_neg (by linarith)]; rfl
    · rw [if_neg (by linarith : ¬ C i < 0), if_pos (by linarith)]; rfl
  | ninf =>
    show (if -C i < 0 then pinf else ninf : Ext K) = Ext.neg (if C i < 0 then pinf else ninf)
    rcases lt_or_gt_of_ne hz with hz | hz
    · rw [if_pos hz, if_neg (by linarith)]; rfl
    · rw [if_neg (by linarith : ¬ C i < 0), if_pos (by linarith)]; rfl

/-- values, and bars which meet the hypotheses -/
example : Ind.stochrsi 2 2 (.fin 1) (bars 6 fun i => if i = 3 then (1 : ℚ) else i) = .ok ⟨[.nan, .nan, .nan, .fin 0, .fin 1, .fin 1], 4⟩ ∧
    Ind.stochrsi 2 2 (.fin 1) (Spec.neg (bars 6 fun i => if i = 3 then (1 : ℚ) else i)) =
      .ok ⟨[.nan, .nan, .nan, .fin 1, .fin 0, .fin 0], 4⟩ := by decide +kernel

example : (Call.natr .sma 1 1).run (fun k => bars 3 fun i => (if k = 0 then 3 else if k = 1 then 1 else 2 : ℚ)) =
      .ok [⟨[.nan, .fin 100, .fin 100], 2⟩] ∧
    (Call.natr .sma 1 1).run (Spec.mirrorIn (.atr .sma 1 1) fun k => bars 3 fun i => (if k = 0 then 3 else if k = 1 then 1 else 2 : ℚ)) =
      .ok [⟨[.nan, .fin (-100), .fin (-100)], 2⟩] := by decide +kernel

/-! ### ppo and trix -/

theorem neg_div_neg_ext {u v : Ext K} (h : v ≠ fin 0) : (-u) / (-v) = u / v := by
  cases v with
  | fin v =>
    have hv : v ≠ 0 := fun e => h (by rw [e])
    cases u with
    | fin u =>
      show (fin (-u) / fin (-v) : Ext K) = _
      rw [fin_div _ hv, fin_div _ (neg_ne_zero.mpr hv), neg_div_neg_eq]
    | nan => rfl
    | pinf =>
      show (if -v < 0 then pinf else ninf : Ext K) = (if v < 0 then ninf else pinf)
      rcases lt_or_gt_of_ne hv with hz | hz
      · rw [if_pos hz, if_neg (by linarith)]
      · rw [if_neg (by linarith : ¬ v < 0), if_pos (by linarith)]
    | ninf =>
      show (if -v < 0 then ninf else pinf : Ext K) = (if v < 0 then pinf else ninf)
      rcases lt_or_gt_of_ne hv with hz | hz
      · rw [if_pos hz, if_neg (by linarith)]
      · rw [if_neg (by linarith : ¬ v < 0), if_pos (by linarith)]
  | nan => cases u <;> rfl
  | pinf => cases u <;> rfl
  | ninf => cases u <;> rfl

theorem neg_div_neg_flt {R : Rounding} (u v : Flt R) (h : v ≠ (Ext.fin 0 : Ext ℚ)) : -u / -v = u / v := by
  show R.round (Ext.div (Ext.neg u) (Ext.neg v)) = R.round (Ext.div u v)
  exact congrArg R.round (neg_div_neg_ext (K := ℚ) (u := u) (v := v) h)

/-- the quotient of two turned lines is the quotient of the lines -/
theorem neg_div_neg_line {V : Type} [PyFloat V] [SignSym V] {z : V} (hq : ∀ u v : V, v ≠ z → -u / -v = u / v) {n : ℕ} {d d' : Line V} (hd : Mi.B n d) (hd' : Mi.B n d')
    (hz : ∀ i : ℕ, d'.minperiod ≤ (i : Int) + 1 → d'.series[i]? ≠ some z) : Spec.neg d / Spec.neg d' = d / d' := by
  obtain ⟨m1, g1, r1⟩ := hd.rep
  obtain ⟨m2, g2, r2⟩ := hd'.rep
  have n1 : RepW (Spec.neg d) n m1 (fun i => -g1 i) :=
    ⟨by simp [Spec.neg, r1.len], r1.mp, r1.pos, fun i h1 h2 => by simp only [Spec.neg, List.getElem?_map, r1.val i h1 h2]; rfl⟩
  have n2 : RepW (Spec.neg d') n m2 (fun i => -g2 i) :=
    ⟨by simp [Spec.neg, r2.len], r2.mp, r2.pos, fun i h1 h2 => by simp only [Spec.neg, List.getElem?_map, r2.val i h1 h2]; rfl⟩
  refine (rep_div n1 n2).ext (rep_div r1 r2) fun i h1 h2 => hq _ _ fun e => ?_
  exact hz i (by rw [r2.mp]; omega) (by rw [r2.val i (by omega) h2, e])

theorem ppo_turned {V : Type} [PyFloat V] [SignSym V] {z : V} (hq : ∀ u v : V, v ≠ z → -u / -v = u / v) {n : ℕ} {x : ℕ → Line V} (hx : Spec.Data n x) {fast : Bool} {ma ms : Avg V} {pf ps pg : ℕ}
    (hu : Spec.keepsUnit ma) (hf : ma.Periods 1 pf) (hs : ma.Periods 1 ps)
    (h0 : ∀ d, ma.run (if fast then pf else ps) (x 0) = .ok d → ∀ i : ℕ, d.minperiod ≤ (i : Int) + 1 → d.series[i]? ≠ some z)
    {r : List (Line V)} (hr : (Call.ppo fast ma ms pf ps pg).run x = .ok r) :
    (Call.ppo fast ma ms pf ps pg).run (fun k => Spec.neg (x k)) = .ok r := by
  have hB : Mi.B n (x 0) := Mi.B.of (hx.len 0) (hx.pos 0)
  have ho := Mi.odd ma hu
  rw [← hr]
  show threeE (Ind.ppo fast ma.run ms.run pf ps pg (Spec.neg (x 0))) = threeE (Ind.ppo fast ma.run ms.run pf ps pg (x 0))
  refine congrArg threeE ?_
  unfold Ind.ppo Ind.posc
  rw [ho, ho]
  cases e1 : ma.run pf (x 0) with
  | error e => rfl
  | ok d1 =>
    cases e2 : ma.run ps (x 0) with
    | error e => rfl
    | ok d2 =>
      have b1 := Mi.bOf (Mi.maB hf _ hB) e1
      have b2 := Mi.bOf (Mi.maB hs _ hB) e2
      cases fast
      · have := neg_div_neg_line hq b1 b2 (h0 d2 e2)
        simp only [Except.map, bind, Except.bind, pure, Except.pure, Bool.false_eq_true, if_false, this]
      · have := neg_div_neg_line hq b2 b1 (h0 d1 e1)
        simp only [Except.map, bind, Except.bind, pure, Except.pure, if_true, this]

theorem trix_turned {V : Type} [PyFloat V] [SignSym V] {z : V} (hq : ∀ u v : V, v ≠ z → -u / -v = u / v) {n : ℕ} {x : ℕ → Line V} (hx : Spec.Data n x) {ma : Avg V} {p : ℕ} (hu : Spec.keepsUnit ma) (hp : ma.Periods 1 p)
    (h0 : ∀ d1 d2 d, ma.run p (x 0) = .ok d1 → ma.run p d1 = .ok d2 → ma.run p d2 = .ok d →
      ∀ i : ℕ, d.minperiod ≤ (i : Int) + 1 → d.series[i]? ≠ some z)
    {r : List (Line V)} (hr : (Call.avg (.trix ma) p).run x = .ok r) :
    (Call.avg (.trix ma) p).run (fun k => Spec.neg (x k)) = .ok r := by
  have hB : Mi.B n (x 0) := Mi.B.of (hx.len 0) (hx.pos 0)
  have ho := Mi.odd ma hu
  rw [← hr]
  show oneE (Ind.trix ma.run p (Spec.neg (x 0))) = oneE (Ind.trix ma.run p (x 0))
  refine congrArg oneE ?_
  unfold Ind.trix
  rw [ho]
  cases e1 : ma.run p (x 0) with
  | error e => rfl
  | ok d1 =>
    have b1 := Mi.bOf (Mi.maB hp _ hB) e1
    simp only [Except.map, bind, Except.bind]
    rw [ho]
    cases e2 : ma.run p d1 with
    | error e => rfl
    | ok d2 =>
      have b2 := Mi.bOf (Mi.maB hp _ b1) e2
      simp only [Except.map]
      rw [ho]
      cases e3 : ma.run p d2 with
      | error e => rfl
      | ok d =>
        have b3 := Mi.bOf (Mi.maB hp _ b2) e3
        obtain ⟨m, g, rd⟩ := b3.rep
        have ra : Rep nan (Line.ago (-1) d) n (m + 1) (fun i => g (i - 1)) := rep_ago (s := 1) (le_refl 1) rd
        simp only [Except.map]
        rw [Mi.ago, neg_div_neg_line hq b3 (Mi.B.of ra.len (by rw [ra.mp]; have := ra.pos; omega)) ?_]
        intro i hi hv
        rw [ra.mp] at hi
        have hn : i < n := by
          have := (List.getElem?_eq_some_iff.mp hv).1
          rw [ra.len] at this
          exact this
        rw [ra.val i (by omega) hn] at hv
        exact h0 d1 d2 d e1 e2 e3 (i - 1) (by rw [rd.mp]; omega) (by rw [rd.val (i - 1) (by omega) (by omega)]; exact hv)

/-- **C89** the price oscillator in percent, its signal and their difference are the same in the turned chart, unless the average which divides is zero
at some bar. -/
theorem C89_ppo {n : ℕ} {x : ℕ → Line (Ext K)} (hx : Spec.Data n x) {fast : Bool} {ma ms : Avg (Ext K)} {pf ps pg : ℕ}
    (hu : Spec.keepsUnit ma) (hf : ma.Periods 1 pf) (hs : ma.Periods 1 ps)
    (h0 : ∀ d, ma.run (if fast then pf else ps) (x 0) = .ok d → ∀ i : ℕ, d.minperiod ≤ (i : Int) + 1 → d.series[i]? ≠ some (fin 0))
    {r : List (Line (Ext K))} (hr : (Call.ppo fast ma ms pf ps pg).run x = .ok r) :
    (Call.ppo fast ma ms pf ps pg).run (fun k => Spec.neg (x k)) = .ok r :=
  ppo_turned (fun _ _ => neg_div_neg_ext) hx hu hf hs h0 hr

/-- **C89** the rate of change of the triple average is the same in the turned chart, unless that average is zero at some bar. -/
theorem C89_trix {n : ℕ} {x : ℕ → Line (Ext K)} (hx : Spec.Data n x) {ma : Avg (Ext K)} {p : ℕ} (hu : Spec.keepsUnit ma) (hp : ma.Periods 1 p)
    (h0 : ∀ d1 d2 d, ma.run p (x 0) = .ok d1 → ma.run p d1 = .ok d2 → ma.run p d2 = .ok d →
      ∀ i : ℕ, d.minperiod ≤ (i : Int) + 1 → d.series[i]? ≠ some (fin 0))
    {r : List (Line (Ext K))} (hr : (Call.avg (.trix ma) p).run x = .ok r) :
    (Call.avg (.trix ma) p).run (fun k => Spec.neg (x k)) = .ok r :=
  trix_turned (fun _ _ => neg_div_neg_ext) hx hu hp h0 hr

/-- **C89** both with each step rounded (in any rounding to which the sign does not matter, such as binary64). -/
theorem C89_ppo_rounded {R : Rounding} {n : ℕ} {x : ℕ → Line (Flt R)} (hx : Spec.Data n x) {fast : Bool} {ma ms : Avg (Flt R)} {pf ps pg : ℕ}
    (hu : Spec.keepsUnit ma) (hf : ma.Periods 1 pf) (hs : ma.Periods 1 ps)
    (h0 : ∀ d, ma.run (if fast then pf else ps) (x 0) = .ok d →
      ∀ i : ℕ, d.minperiod ≤ (i : Int) + 1 → d.series[i]? ≠ some (Ext.fin 0 : Ext ℚ))
    {r : List (Line (Flt R))} (hr : (Call.ppo fast ma ms pf ps pg).run x = .ok r) :
    (Call.ppo fast ma ms pf ps pg).run (fun k => Spec.neg (x k)) = .ok r :=
  ppo_turned neg_div_neg_flt hx hu hf hs h0 hr

/-- **C89** the same for trix -/
theorem C89_trix_rounded {R : Rounding} {n : ℕ} {x : ℕ → Line (Flt R)} (hx : Spec.Data n x) {ma : Avg (Flt R)} {p : ℕ} (hu : Spec.keepsUnit ma)
    (hp : ma.Periods 1 p)
    (h0 : ∀ d1 d2 d, ma.run p (x 0) = .ok d1 → ma.run p d1 = .ok d2 → ma.run p d2 = .ok d →
      ∀ i : ℕ, d.minperiod ≤ (i : Int) + 1 → d.series[i]? ≠ some (Ext.fin 0 : Ext ℚ))
    {r : List (Line (Flt R))} (hr : (Call.avg (.trix ma) p).run x = .ok r) :
    (Call.avg (.trix ma) p).run (fun k => Spec.neg (x k)) = .ok r :=
  trix_turned neg_div_neg_flt hx hu hp h0 hr

/-- in binary64, where the quotient is rounded -/
example : (Call.ppo false .sma .sma 1 2 1).run (fun _ => (⟨[.fin 1, .fin 2, .fin 3], 1⟩ : Line (Flt binary64))) =
      (Call.ppo false .sma .sma 1 2 1).run (fun _ => (⟨[.fin (-1), .fin (-2), .fin (-3)], 1⟩ : Line (Flt binary64))) ∧
    (Call.ppo false .sma .sma 1 2 1).run (fun _ => (⟨[.fin 1, .fin 2, .fin 3], 1⟩ : Line (Flt binary64))) ≠
      .ok [⟨[.nan, .fin (100 / 3), .fin 20], 2⟩, ⟨[.nan, .fin (100 / 3), .fin 20], 2⟩, ⟨[.nan, .fin 0, .fin 0], 2⟩] := by decide +kernel

theorem roc_turned {V : Type} [PyFloat V] [SignSym V] {z : V} (hq : ∀ u v : V, v ≠ z → -u / -v = u / v) {a : Line V} (h1 : 1 ≤ a.minperiod)
    {p : ℕ} (hp : 1 ≤ p) (h0 : ∀ i : ℕ, a.minperiod ≤ (i : Int) + 1 → a.series[i]? ≠ some z) : Ind.rocr p (Spec.neg a) = Ind.rocr p a := by
  have ha : Mi.B a.series.length a := Mi.B.of rfl h1
  obtain ⟨m, g, rd⟩ := ha.rep
  have ra := rep_ago hp rd
  unfold Ind.rocr
  rw [Mi.ago, neg_div_neg_line hq ha (Mi.B.of ra.len (by rw [ra.mp]; have := ra.pos; omega)) ?_]
  intro i hi hv
  rw [ra.mp] at hi
  have hn : i < a.series.length := by
    have := (List.getElem?_eq_some_iff.mp hv).1
    rw [ra.len] at this
    exact this
  rw [ra.val i (by omega) hn] at hv
  exact h0 (i - p) (by rw [rd.mp]; omega) (by rw [rd.val (i - p) (by omega) (by omega)]; exact hv)

/-- **C89** rates of change with each step rounded, and with missing values and infinities anywhere: the same in the turned chart, for prices which are
not zero. -/
theorem C89_roc_rounded {R : Rounding} {a : Line (Flt R)} (h1 : 1 ≤ a.minperiod) {p : ℕ} (hp : 1 ≤ p)
    (h0 : ∀ i : ℕ, a.minperiod ≤ (i : Int) + 1 → a.series[i]? ≠ some (Ext.fin 0 : Ext ℚ)) :
    Ind.rocr p (Spec.neg a) = Ind.rocr p a ∧ Ind.rocr100 p (Spec.neg a) = Ind.rocr100 p a ∧ Ind.rocp p (Spec.neg a) = Ind.rocp p a ∧
    Ind.roc p (Spec.neg a) = Ind.roc p a := by
  have e := roc_turned neg_div_neg_flt h1 hp h0
  unfold Ind.rocr100 Ind.roc Ind.rocp
  rw [e]
  exact ⟨rfl, rfl, rfl, rfl⟩

theorem div_neg_flt {R : Rounding} (u v : Flt R) (h : v ≠ (Ext.fin 0 : Ext ℚ)) : u / -v = -(u / v) := by
  have e : Ext.div (u : Ext ℚ) (Ext.neg v) = Ext.neg (Ext.div u v) := by
    have h2 := neg_div_neg_ext (K := ℚ) (u := Ext.neg u) (v := v) h
    have h3 : Ext.neg (Ext.neg (u : Ext ℚ)) = u := by
      cases u with
      | fin q => exact congrArg Ext.fin (neg_neg q)
      | _ => rfl
    have h4 : Ext.div (Ext.neg (u : Ext ℚ)) v = Ext.neg (Ext.div u v) := by
      cases v with
      | fin v =>
        have hv : v ≠ 0 := fun e => h (by rw [e])
        cases u with
        | fin u =>
          show (if v = 0 then _ else Ext.fin (-u / v)) = Ext.neg (if v = 0 then _ else Ext.fin (u / v))
          rw [if_neg hv, if_neg hv]
          exact congrArg Ext.fin (neg_div _ _)
        | nan => rfl
        | pinf =>
          show (if v < 0 then pinf else ninf : Ext ℚ) = Ext.neg (if v < 0 then ninf else pinf)
          split <;> rfl
        | ninf =>
          show (if v < 0 then ninf else pinf : Ext ℚ) = Ext.neg (if v < 0 then pinf else ninf)
          split <;> rfl
      | nan => cases u <;> rfl
      | pinf => cases u <;> rfl
      | ninf => cases u <;> rfl
    have h5 : Ext.div (Ext.neg (Ext.neg (u : Ext ℚ))) (Ext.neg v) = Ext.div (Ext.neg u) v := h2
    rw [h3] at h5
    rw [h5, h4]
  show R.round (Ext.div (u : Ext ℚ) (Ext.neg v)) = Ext.neg (R.round (Ext.div u v))
  rw [e]
  cases Ext.div (u : Ext ℚ) v with
  | fin q => exact R.neg q
  | _ => rfl

/-- **C89** the normalized average true range with each step rounded, and with missing values and infinities anywhere: it changes its sign (closes other
than zero). -/
theorem C89_natr_rounded {R : Rounding} {n : ℕ} {x : ℕ → Line (Flt R)} (hx : Spec.Data n x) {ma : Avg (Flt R)} {q p : ℕ}
    (hk : (Call.atr ma q p).Periods)
    (h0 : ∀ i : ℕ, (x 2).minperiod ≤ (i : Int) + 1 → (x 2).series[i]? ≠ some (Ext.fin 0 : Ext ℚ)) {r : Line (Flt R)}
    (hr : (Call.natr ma q p).run x = .ok [r]) : (Call.natr ma q p).run (Spec.mirrorIn (.atr ma q p) x) = .ok [Spec.neg r] := by
  obtain ⟨y, hy, hr⟩ := Mi.bind_ok (show _ >>= _ = Except.ok [r] from hr)
  obtain ⟨t, ht, hy⟩ := Mi.bind_ok (show _ >>= _ = Except.ok y from hy)
  injection hy with hy
  injection hr with hr
  injection hr with hr
  subst hr
  subst hy
  have b0 := Mi.B.of (hx.len 0) (hx.pos 0)
  have b1 := Mi.B.of (hx.len 1) (hx.pos 1)
  have b2 := Mi.B.of (hx.len 2) (hx.pos 2)
  have bt := Mi.bOf (Mi.maB hk _ (LRel.truerange (R := barsRel (Flt R) n) (q := q) b0 b1 b2)) ht
  obtain ⟨m', g, rt⟩ := bt.rep
  obtain ⟨m, C, hc⟩ := b2.rep
  have e : Ind.atr ma.run q p (Spec.neg (x 1)) (Spec.neg (x 0)) (Spec.neg (x 2)) = .ok t := by
    rw [← ht]
    unfold Ind.atr
    rw [Mi.truerange b0 b1 b2]
  have hcn : RepW (Spec.neg (x 2)) n m (fun i => -C i) :=
    ⟨by simp [Spec.neg, hc.len], hc.mp, hc.pos, fun i h1 h2 => by simp only [Spec.neg, List.getElem?_map, hc.val i h1 h2]; rfl⟩
  show oneE (Ind.natr ma.run q p (Spec.neg (x 1)) (Spec.neg (x 0)) (Spec.neg (x 2))) = _
  unfold Ind.natr
  rw [e]
  refine congrArg (fun l => Except.ok [l]) ?_
  refine (rep_div (rep_rmulS rt _).toRepW hcn).ext (Mi.rneg (rep_div (rep_rmulS rt _).toRepW hc)) fun i i1 i2 => ?_
  refine div_neg_flt _ _ fun e => ?_
  exact h0 i (by rw [hc.mp]; omega) ((hc.val i (by omega) i2).trans (congrArg some e))

/-- values, and prices which meet the hypotheses; an average which is zero divides to infinity with the other sign -/
example : (Call.ppo false .sma .sma 1 2 1).run (fun _ => bars 3 fun i => (i + 1 : ℚ)) =
      .ok [⟨[.nan, .fin (100 / 3), .fin 20], 2⟩, ⟨[.nan, .fin (100 / 3), .fin 20], 2⟩, ⟨[.nan, .fin 0, .fin 0], 2⟩] ∧
    (Call.ppo false .sma .sma 1 2 1).run (fun _ => Spec.neg (bars 3 fun i => (i + 1 : ℚ))) =
      .ok [⟨[.nan, .fin (100 / 3), .fin 20], 2⟩, ⟨[.nan, .fin (100 / 3), .fin 20], 2⟩, ⟨[.nan, .fin 0, .fin 0], 2⟩] ∧
    (Call.ppo false .sma .sma 1 2 1).run (fun _ => bars 2 fun i => (if i = 0 then 1 else -1 : ℚ)) =
      .ok [⟨[.nan, .ninf], 2⟩, ⟨[.nan, .nan], 2⟩, ⟨[.nan, .nan], 2⟩] ∧
    (Call.ppo false .sma .sma 1 2 1).run (fun _ => Spec.neg (bars 2 fun i => (if i = 0 then 1 else -1 : ℚ))) =
      .ok [⟨[.nan, .pinf], 2⟩, ⟨[.nan, .nan], 2⟩, ⟨[.nan, .nan], 2⟩] := by decide +kernel

example : ∀ d, (Avg.sma : Avg (Ext ℚ)).run 2 (bars 3 fun i => (i + 1 : ℚ)) = .ok d → ∀ i : ℕ, d.minperiod ≤ (i : Int) + 1 →
    d.series[i]? ≠ some (fin 0) := by
  have e : (Avg.sma : Avg (Ext ℚ)).run 2 (bars 3 fun i => (i + 1 : ℚ)) = .ok ⟨[.nan, .fin (3 / 2), .fin (5 / 2)], 2⟩ := by decide +kernel
  intro d hd i _
  rw [e] at hd
  cases hd
  match i with
  | 0 => decide +kernel
  | 1 => decide +kernel
  | 2 => decide +kernel
  | (k + 3) => simp

example : (Call.avg (.trix .sma) 1).run (fun _ => bars 3 fun i => (i + 1 : ℚ)) = .ok [⟨[.nan, .fin 100, .fin 50], 2⟩] ∧
    (Call.avg (.trix .sma) 1).run (fun _ => Spec.neg (bars 3 fun i => (i + 1 : ℚ))) = .ok [⟨[.nan, .fin 100, .fin 50], 2⟩] := by decide +kernel

example : Ind.roc 1 (⟨[.fin 3, .nan, .fin 3, .fin 4], 1⟩ : Line (Flt binary64)) = Ind.roc 1 ⟨[.fin (-3), .nan, .fin (-3), .fin (-4)], 1⟩ ∧
    ∀ i : ℕ, (1 : Int) ≤ (i : Int) + 1 → ([.fin 3, .nan, .fin 3, .fin 4] : List (Ext ℚ))[i]? ≠ some (Ext.fin 0) := by
  refine ⟨by decide +kernel, fun i _ => ?_⟩
  match i with
  | 0 => decide
  | 1 => decide
  | 2 => decide
  | 3 => decide
  | (k + 4) => simp

/-- bars in binary64 -/
example :
    (Call.natr .sma 1 1).run (Spec.mirrorIn (.atr .sma 1 1) fun k => (⟨[.fin 3, .fin (if k = 0 then 5 else 3), .fin 3], 1⟩ : Line (Flt binary64))) =
      ((Call.natr .sma 1 1).run (fun k => (⟨[.fin 3, .fin (if k = 0 then 5 else 3), .fin 3], 1⟩ : Line (Flt binary64)))).map (List.map Spec.neg) := by
  decide +kernel

end Bta
