import Verif.Props.Index
import Verif.Props.Cross
import Verif.Props.Osc
import Verif.Props.Price

/-!
# Prices on another scale (C137)
-/

set_option linter.unusedSectionVars false

namespace Spec

/-- The series `x` and `x'` (over `n` bars, from minimum period `m` on) rise and fall together: of any two bars, the same one is higher.
(So it is if `x'` is the logarithm of `x`, or `x` in another unit, or any other increasing function of it.) -/
def SameOrder {K : Type} [LinearOrder K] (n m : ℕ) (x x' : ℕ → K) : Prop :=
  ∀ i j, m ≤ i + 1 → i < n → m ≤ j + 1 → j < n → (x i < x j ↔ x' i < x' j)

/-- The pairs `x`, `y` and `x'`, `y'`: at each bar the same one of the pair is higher. -/
def SameSide {K : Type} [LinearOrder K] (n m : ℕ) (x y x' y' : ℕ → K) : Prop :=
  ∀ i, m ≤ i + 1 → i < n → (x i < y i ↔ x' i < y' i) ∧ (y i < x i ↔ y' i < x' i)

end Spec

namespace Bta
open Line Ext Ind Spec

variable {K : Type} [Field K] [LinearOrder K] [IsStrictOrderedRing K]
variable {a a' b b' : Line (Ext K)} {n m m' p : ℕ} {x x' y y' : ℕ → K}

theorem _root_.Spec.SameOrder.le (h : SameOrder n m x x') {i j : ℕ} (h1 : m ≤ i + 1) (h2 : i < n) (h3 : m ≤ j + 1) (h4 : j < n) :
    x i ≤ x j ↔ x' i ≤ x' j := by
  rw [← not_lt, ← not_lt, h j i h3 h4 h1 h2]

/-- An increasing function of the prices keeps their order. -/
theorem sameOrder_of (φ : K → K) (hφ : ∀ i j, m ≤ i + 1 → i < n → m ≤ j + 1 → j < n → x i < x j → φ (x i) < φ (x j)) :
    SameOrder n m x fun i => φ (x i) := fun i j h1 h2 h3 h4 => by
  refine ⟨hφ i j h1 h2 h3 h4, fun h => ?_⟩
  rcases lt_trichotomy (x i) (x j) with h' | h' | h'
  · exact h'
  · simp only [h'] at h
    exact absurd h (lt_irrefl _)
  · exact absurd h (not_lt.2 (hφ j i h3 h4 h1 h2 h').le)

theorem SameOrder.firstMax (h : SameOrder n m x x') {lo hi k : ℕ} (hlo : m ≤ lo + 1) (hhi : hi < n) (hk : FirstMax x lo hi k) :
    FirstMax x' lo hi k :=
  ⟨hk.1, fun j h1 h2 => (h.le (by omega) (by omega) (by have := hk.1; omega) (by have := hk.1; omega)).1 (hk.2.1 j h1 h2),
    fun j h1 h2 => (h j k (by omega) (by have := hk.1; omega) (by omega) (by have := hk.1; omega)).1 (hk.2.2 j h1 h2)⟩

theorem SameOrder.firstMin (h : SameOrder n m x x') {lo hi k : ℕ} (hlo : m ≤ lo + 1) (hhi : hi < n) (hk : FirstMin x lo hi k) :
    FirstMin x' lo hi k :=
  ⟨hk.1, fun j h1 h2 => (h.le (by have := hk.1; omega) (by have := hk.1; omega) (by omega) (by omega)).1 (hk.2.1 j h1 h2),
    fun j h1 h2 => (h k j (by omega) (by have := hk.1; omega) (by omega) (by have := hk.1; omega)).1 (hk.2.2 j h1 h2)⟩

/-- **C137** The positions of the extremes do not depend on the scale of the prices. -/
theorem C137_index (ha : Holds a n m x) (ha' : Holds a' n m x') (h : SameOrder n m x x') (hp : 1 ≤ p) :
    Ind.maxindex p a = Ind.maxindex p a' ∧ Ind.minindex p a = Ind.minindex p a' ∧
      Ind.minmaxindex false p a = Ind.minmaxindex false p a' := by
  have hm := ha.pos
  have h1 : Ind.maxindex p a = Ind.maxindex p a' := by
    obtain ⟨k, s, e⟩ := C43_maxindex ha hp
    obtain ⟨k', s', e'⟩ := C43_maxindex ha' hp
    refine Rep.ext s s' fun i i1 i2 => ?_
    have := (SameOrder.firstMax h (by omega) i2 (e i i1 i2)).unique (e' i i1 i2)
    simp only [show k i = k' i by omega]
  have h2 : Ind.minindex p a = Ind.minindex p a' := by
    obtain ⟨k, s, e⟩ := C43_minindex ha hp
    obtain ⟨k', s', e'⟩ := C43_minindex ha' hp
    refine Rep.ext s s' fun i i1 i2 => ?_
    have := (SameOrder.firstMin h (by omega) i2 (e i i1 i2)).unique (e' i i1 i2)
    simp only [show k i = k' i by omega]
  exact ⟨h1, h2, Prod.ext h2 h1⟩

/-- **C137** aroon: nor do the lines and the oscillator. -/
theorem C137_aroon {H L H' L' : ℕ → K} {h h' l l' : Line (Ext K)} (hh : Holds h n m H) (hh' : Holds h' n m H') (hl : Holds l n m' L)
    (hl' : Holds l' n m' L') (oh : SameOrder n m H H') (ol : SameOrder n m' L L') (hp : 1 ≤ p) :
    Ind.aroon p h l = Ind.aroon p h' l' ∧ Ind.aroonosc p h l = Ind.aroonosc p h' l' := by
  have hm := hh.pos
  have hm' := hl.pos
  have h1 : Ind.aroonUp p h = Ind.aroonUp p h' := by
    obtain ⟨k, s, e⟩ := C25_up hh hp
    obtain ⟨k', s', e'⟩ := C25_up hh' hp
    refine Rep.ext s s' fun i i1 i2 => ?_
    obtain ⟨e1, e2, e3⟩ := e i
    obtain ⟨f1, f2, f3⟩ := e' i
    have hk : k i = k' i := by
      rcases lt_trichotomy (k i) (k' i) with c | c | c
      · have := f3 _ c
        rw [← oh _ _ (by omega) (by omega) (by omega) (by omega)] at this
        exact absurd (e2 _ f1) (not_le.2 this)
      · exact c
      · have := e3 _ c
        rw [oh _ _ (by omega) (by omega) (by omega) (by omega)] at this
        exact absurd (f2 _ e1) (not_le.2 this)
    simp only [hk]
  have h2 : Ind.aroonDn p l = Ind.aroonDn p l' := by
    obtain ⟨k, s, e⟩ := C25_down hl hp
    obtain ⟨k', s', e'⟩ := C25_down hl' hp
    refine Rep.ext s s' fun i i1 i2 => ?_
    obtain ⟨e1, e2, e3⟩ := e i
    obtain ⟨f1, f2, f3⟩ := e' i
    have hk : k i = k' i := by
      rcases lt_trichotomy (k i) (k' i) with c | c | c
      · have := f3 _ c
        rw [← ol _ _ (by omega) (by omega) (by omega) (by omega)] at this
        exact absurd (e2 _ f1) (not_le.2 this)
      · exact c
      · have := e3 _ c
        rw [ol _ _ (by omega) (by omega) (by omega) (by omega)] at this
        exact absurd (f2 _ e1) (not_le.2 this)
    simp only [hk]
  exact ⟨Prod.ext h2 h1, by show _ - _ = _ - _; rw [h1, h2]⟩

/-- **C137** obv takes the direction of the closes only. -/
theorem C137_obv {C C' : ℕ → K} {c c' v : Line (Ext K)} (hc : Holds c n m C) (hc' : Holds c' n m C') (h : SameOrder n m C C') {q : ℕ} :
    Ind.obv false q c v = Ind.obv false q c' v := by
  have hm := hc.pos
  have key : mapOp signV (diff q c) = mapOp signV (diff q c') := by
    refine Rep.ext (Holds.mapOp (hc.diff q).toRepW signV_fin) (Holds.mapOp (hc'.diff q).toRepW signV_fin) fun i i1 i2 => ?_
    have e1 := h (i - q) i (by omega) (by omega) (by omega) i2
    have e2 := h i (i - q) (by omega) i2 (by omega) (by omega)
    simp only [sub_neg, sub_pos, e1, e2]
  show (v * mapOp signV (diff q c)).cumsum = (v * mapOp signV (diff q c')).cumsum
  rw [key]

theorem holds_early {C : ℕ → K} {c : Line (Ext K)} (hc : Holds c n m C) :
    Holds (period (-1) (some (lit 1)) (diff 1 c)) n m (fun i => if i = m - 1 then 1 else C i - C (i - 1)) := by
  have hm := hc.pos
  have h1 := hc.diff 1
  have hlen := h1.len
  have hmp := h1.mp
  unfold period
  rw [if_neg (by decide)]
  simp only [hmp]
  rw [if_pos (by push_cast; omega)]
  rw [show ((m + 1 : ℕ) : Int) - 1 + -1 = ((m - 1 : ℕ) : Int) from by omega,
    show ((m + 1 : ℕ) : Int) - 1 = ((m : ℕ) : Int) from by omega]
  refine ⟨?_, by simp only []; omega, hm, fun i i1 i2 => ?_⟩
  · simp only [pyFill, pyStart_nat, hlen, List.length_append, List.length_take, List.length_replicate, List.length_drop]
    omega
  · simp only [pyFill, pyStart_nat, hlen]
    have hmn : min (m - 1) n = m - 1 := by omega
    have hmn' : min m n = m := by omega
    rw [hmn, hmn', show m - (m - 1) = 1 from by omega, show max (m - 1) m = m from by omega]
    by_cases hi : i = m - 1
    · subst hi
      rw [if_pos rfl, List.append_assoc, List.getElem?_append_right (by simp)]
      simp only [List.length_take, hlen]
      rw [show m - 1 - min (m - 1) n = 0 from by omega]
      simp
    · rw [if_neg hi, List.getElem?_append_right (by simp; omega)]
      simp only [List.length_append, List.length_take, hlen, List.length_replicate, List.getElem?_drop]
      rw [show m + (i - (min (m - 1) n + 1)) = i from by omega]
      exact h1.val i (by omega) i2

/-- **C137** so does obv in ta-lib mode. -/
theorem C137_obv_talib {C C' : ℕ → K} {c c' v : Line (Ext K)} (hc : Holds c n m C) (hc' : Holds c' n m C') (h : SameOrder n m C C') :
    Ind.obv true 1 c v = Ind.obv true 1 c' v := by
  have hm := hc.pos
  have key : mapOp signV (period (-1) (some (lit 1)) (diff 1 c)) = mapOp signV (period (-1) (some (lit 1)) (diff 1 c')) := by
    refine Rep.ext (Holds.mapOp (holds_early hc) signV_fin) (Holds.mapOp (holds_early hc') signV_fin) fun i i1 i2 => ?_
    by_cases hi : i = m - 1
    · simp only [if_pos hi]
    · have e1 := h (i - 1) i (by omega) (by omega) (by omega) i2
      have e2 := h i (i - 1) (by omega) i2 (by omega) (by omega)
      simp only [if_neg hi, sub_neg, sub_pos, e1, e2]
  show (v * mapOp signV (period (-1) (some (lit 1)) (diff 1 c))).cumsum = (v * mapOp signV (period (-1) (some (lit 1)) (diff 1 c'))).cumsum
  rw [key]

theorem crossUp_side {st : Bool} {s i : ℕ} (h : SameSide n m x y x' y') (hs : m ≤ s + 1) (hi : i < n) (hsi : s ≤ i)
    (hc : Spec.CrossUp st x y s i) : Spec.CrossUp st x' y' s i := by
  obtain ⟨c1, j, hj1, hj2, c2, c3, c4⟩ := hc
  refine ⟨((h i (by omega) hi).2).1 c1, j, hj1, hj2, ((h j (by omega) (by omega)).1).1 c2, fun k k1 k2 => ?_, c4⟩
  have e := h k (by omega) (by omega)
  have := c3 k k1 k2
  refine le_antisymm ?_ ?_
  · exact not_lt.1 fun h' => (e.2.2 h').ne' this
  · exact not_lt.1 fun h' => (e.1.2 h').ne this

/-- **C137** The signals of crossing lines depend on which of them is higher at each bar only: they are the same if both are shown on
another scale. -/
theorem C137_cross (st : Bool) (ha : Holds a n m x) (hb : Holds b n m' y) (ha' : Holds a' n m x') (hb' : Holds b' n m' y')
    (h : SameSide n (max m m') x y x' y') :
    Ind.crossup st a b = Ind.crossup st a' b' ∧ Ind.crossdown st a b = Ind.crossdown st a' b' := by
  have hm := ha.pos
  obtain ⟨u, d, s1, s2, e⟩ := C36_cross st ha hb
  obtain ⟨u', d', s1', s2', e'⟩ := C36_cross st ha' hb'
  have h' : SameSide n (max m m') x' y' x y := fun i h1 h2 => ⟨(h i h1 h2).1.symm, (h i h1 h2).2.symm⟩
  have hs : SameSide n (max m m') y x y' x' := fun i h1 h2 => ⟨(h i h1 h2).2, (h i h1 h2).1⟩
  have hs' : SameSide n (max m m') y' x' y x := fun i h1 h2 => ⟨(h' i h1 h2).2, (h' i h1 h2).1⟩
  constructor
  · refine Rep.ext s1 s1' fun i i1 i2 => ?_
    have a1 := e i i1 i2
    have a2 := e' i i1 i2
    by_cases c : Spec.CrossUp st x y (max m m' - 1) i
    · rw [a1.1 c, a2.1 (crossUp_side h (by omega) i2 (by omega) c)]
    · rw [a1.2.1 c, a2.2.1 fun c' => c (crossUp_side h' (by omega) i2 (by omega) c')]
  · refine Rep.ext s2 s2' fun i i1 i2 => ?_
    have a1 := e i i1 i2
    have a2 := e' i i1 i2
    by_cases c : Spec.CrossUp st y x (max m m' - 1) i
    · rw [a1.2.2.1 c, a2.2.2.1 (crossUp_side hs (by omega) i2 (by omega) c)]
    · rw [a1.2.2.2 c, a2.2.2.2 fun c' => c (crossUp_side hs' (by omega) i2 (by omega) c')]

/-- **C137** The extremes themselves are shown on the new scale: the highest of the rescaled prices is the rescaled highest price. -/
theorem C137_extremes {φ : K → K} (hφ : Monotone φ) (ha : Holds a n m x) (ha' : Holds a' n m fun i => φ (x i)) (hp : 1 ≤ p) :
    ∃ u v : ℕ → K, Shows (Ind.highest p a) n (m + p - 1) u ∧ Shows (Ind.highest p a') n (m + p - 1) (fun i => φ (u i)) ∧
      Shows (Ind.lowest p a) n (m + p - 1) v ∧ Shows (Ind.lowest p a') n (m + p - 1) fun i => φ (v i) := by
  refine ⟨_, _, ha.rollMax hp, shows_congr (ha'.rollMax hp) rfl fun i _ _ => ?_, ha.rollMin hp,
    shows_congr (ha'.rollMin hp) rfl fun i _ _ => ?_⟩
  · obtain ⟨⟨j, hj, ej⟩, g⟩ := Spec.winMax_isGreatest x hp i
    obtain ⟨⟨l, hl, el⟩, g'⟩ := Spec.winMax_isGreatest (fun i => φ (x i)) hp i
    refine le_antisymm ?_ ?_
    · rw [el]; exact hφ (g ⟨l, hl, rfl⟩)
    · rw [ej]; exact g' ⟨j, hj, rfl⟩
  · obtain ⟨⟨j, hj, ej⟩, g⟩ := Spec.winMin_isLeast x hp i
    obtain ⟨⟨l, hl, el⟩, g'⟩ := Spec.winMin_isLeast (fun i => φ (x i)) hp i
    refine le_antisymm ?_ ?_
    · rw [ej]; exact g' ⟨j, hj, rfl⟩
    · rw [el]; exact hφ (g ⟨l, hl, rfl⟩)

/-- **C137** (limit) The oscillators which compare sizes of moves do depend on the scale: rsi is not the same for squared (positive)
prices. -/
theorem C137_not_rsi : ∃ x : ℕ → ℚ, (∀ i, 0 < x i) ∧ SameOrder 4 1 x (fun i => x i ^ 2) ∧
    (Ind.rsi Ind.smma 1 2 (bars 4 x)).toOption.map (·.series) ≠ (Ind.rsi Ind.smma 1 2 (bars 4 fun i => x i ^ 2)).toOption.map (·.series) := by
  refine ⟨fun i => if i = 1 then 3 else if i = 2 then 2 else 1, fun i => by dsimp only; split_ifs <;> norm_num,
    sameOrder_of (fun v => v ^ 2) fun i j _ _ _ _ h => ?_, by decide +kernel⟩
  have : (0 : ℚ) < if i = 1 then 3 else if i = 2 then 2 else 1 := by split_ifs <;> norm_num
  exact pow_lt_pow_left₀ h this.le (by norm_num)

/-- C137, a case: prices and their squares -/
example : SameOrder 10 1 (fun i => (i : ℚ) + 1) (fun i => ((i : ℚ) + 1) ^ 2) :=
  sameOrder_of (fun v => v ^ 2) fun i j _ _ _ _ h => pow_lt_pow_left₀ h (by positivity) (by norm_num)
example : Ind.obv false 1 (bars 10 fun i => (i : ℚ) + 1) (bars 10 fun i => (i : ℚ)) =
    Ind.obv false 1 (bars 10 fun i => ((i : ℚ) + 1) ^ 2) (bars 10 fun i => (i : ℚ)) :=
  C137_obv (bars_holds 10 _) (bars_holds 10 _)
    (sameOrder_of (fun v => v ^ 2) fun i j _ _ _ _ h => pow_lt_pow_left₀ h (by positivity) (by norm_num))
example : Ind.obv true 1 (bars 10 fun i => (i : ℚ) + 1) (bars 10 fun i => (i : ℚ)) =
    Ind.obv true 1 (bars 10 fun i => ((i : ℚ) + 1) ^ 2) (bars 10 fun i => (i : ℚ)) :=
  C137_obv_talib (bars_holds 10 _) (bars_holds 10 _)
    (sameOrder_of (fun v => v ^ 2) fun i j _ _ _ _ h => pow_lt_pow_left₀ h (by positivity) (by norm_num))
example : SameSide 10 1 (fun i => (i : ℚ)) (fun _ => 4) (fun i => (i : ℚ) ^ 2) (fun _ => 4 ^ 2) := fun i _ _ =>
  ⟨(pow_lt_pow_iff_left₀ (by positivity) (by norm_num) (by norm_num)).symm,
    (pow_lt_pow_iff_left₀ (by norm_num) (by positivity) (by norm_num)).symm⟩
/-- C137: the order of the prices is needed -/
example : Ind.maxindex 3 (bars 5 fun i => ((i : ℚ) - 2) ^ 2) ≠ Ind.maxindex 3 (bars 5 fun i => (i : ℚ) - 2) := by decide +kernel

end Bta
