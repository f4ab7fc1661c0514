import Verif.RunningInd
import Verif.Props.Running
import Verif.Props.Rounding
import Verif.Props.Ieee

/-!
# Oscillators on sums which are updated from bar to bar (C146)
-/

namespace Bta
open Line Ind

variable {K : Type} [Field K] [LinearOrder K] [IsStrictOrderedRing K]

/-- C146: mfi, ultimateoscillator and cmo are, in exact arithmetic, what the other theorems describe. -/
theorem C146_oscillators_partial {p p1 p2 p3 : ℕ} (hp : 1 ≤ p) (h1 : 1 ≤ p1) (h2 : 1 ≤ p2) (h3 : 1 ≤ p3) (f1 f2 f3 : Ext K)
    (h l c v : Line (Ext K)) :
    Run.mfi p h l c v = Ind.mfi p h l c v ∧
    Run.ultosc p1 p2 p3 f1 f2 f3 h l c = Ind.ultosc p1 p2 p3 f1 f2 f3 h l c ∧
    Run.cmo p c = Ind.cmo (fun p a => .ok (Ind.sumN p a)) p c := by
  have e : ∀ {q : ℕ}, 1 ≤ q → ∀ a : Line (Ext K), Run.sumN q a = Ind.sumN q a := fun hq a => (C146_indicators_partial a hq).1
  refine ⟨?_, ?_, ?_⟩
  · simp only [Run.mfi, Ind.mfi, e hp]
  · simp only [Run.ultosc, Ind.ultosc, e h1, e h2, e h3]
  · simp only [Run.cmo, Ind.cmo, e hp]

/-- the value at the last bar is above `x` -/
def lastAbove (x : ℚ) (l : Line (Flt binary64)) : Bool :=
  match l.series.getLast? with
  | some v => lt (lit x : Flt binary64) v
  | none => false

/-- the value at the last bar is below `x` -/
def lastBelow (x : ℚ) (l : Line (Flt binary64)) : Bool :=
  match l.series.getLast? with
  | some v => lt v (lit x : Flt binary64)
  | none => false

/-- C146 (negation): in double precision what is left of earlier bars in the updated sums is all there is when the price stands still, and the
oscillators leave their ranges: mfi(2) of seven prices from 12.3 to 14 shows 160, cmo(2) of seven closes shows -300, ultimateoscillator(2, 3, 4)
of seven bars less than -20.  The sums of each window are 0 there, and there is no number. -/
theorem C146_oscillators_false :
    (∃ c v : List ℚ, lastAbove 159 (Run.mfi 2 (doubles c) (doubles c) (doubles c) (doubles v)) = true ∧
      (Ind.mfi 2 (doubles c) (doubles c) (doubles c) (doubles v)).series.getLast? = some nan) ∧
    (∃ c : List ℚ, (match Run.cmo 2 (doubles c) with | .ok r => lastBelow (-299) r | _ => false) = true) ∧
    ∃ h l c : List ℚ, (∀ b ∈ h.zip (l.zip c), b.2.1 ≤ b.2.2 ∧ b.2.2 ≤ b.1) ∧
      lastBelow (-20) (Run.ultosc 2 3 4 (lit 4) (lit 2) (lit 1) (doubles h) (doubles l) (doubles c)) = true :=
  ⟨⟨[127/10, 14, 125/10, 132/10, 123/10, 123/10, 123/10], [9, 8, 9, 5, 1, 1, 1], by decide +kernel, by decide +kernel⟩,
   ⟨[1374/100, 433/100, 1915/100, 326/100, 33/10, 33/10, 33/10], by decide +kernel⟩,
   ⟨[1684/100, 1678/100, 613/100, 613/100, 613/100, 613/100, 613/100], [94/10, 6/10, 613/100, 613/100, 613/100, 613/100, 613/100],
    [1174/100, 421/100, 613/100, 613/100, 613/100, 613/100, 613/100], by decide +kernel, by decide +kernel⟩⟩

/-! ## prices in whole units -/

theorem run_sum_tail {n k w B : ℕ} {v : ℕ → ℕ} (hw : 1 ≤ w) (hv : ∀ i, v i ≤ B) (hB : (w + 1) * B ≤ 2 ^ 53) :
    Run.sum w (tail n k fun i => (lit (v i : ℚ) : Flt binary64)) =
      tail n k fun i => if i - k + 1 < w then nan else lit ((∑ j ∈ Finset.range w, v (i - j) : ℕ) : ℚ) := by
  have e : (tail n k fun i => (lit (v i : ℚ) : Flt binary64)) = wholes (n - k) fun j => v (j + k) := rfl
  rw [e]
  have hl : (Run.sum w (wholes (n - k) fun j => v (j + k))).length = n - k := by simp [Run.sum, Run.loop, wholes]
  refine tail_ext hl fun j hj => ?_
  have hg : ∀ l : List (Flt binary64), j < l.length → l[j]? = some (l.getD j nan) := fun l h => by
    rw [List.getD_eq_getElem?_getD, List.getElem?_eq_getElem h]; rfl
  rw [hg _ (by omega)]
  by_cases h : j + k - k + 1 < w
  · rw [if_pos h]
    unfold Run.sum
    rw [loop_getD _ _ _ _ (by simpa [wholes] using (by omega : j < n - k)), if_pos (by omega)]
  · rw [if_neg h, C146_whole hw (fun i => hv (i + k)) hB (by omega) (by omega)]
    congr 3
    refine Finset.sum_congr rfl fun q hq => ?_
    have := Finset.mem_range.mp hq
    congr 1
    omega

/-- sums of whole numbers, as pandas updates them, on any line -/
theorem rep_run_sum {a : Line (Flt binary64)} {n m w B : ℕ} {v : ℕ → ℕ} (hw : 1 ≤ w) (hv : ∀ i, v i ≤ B) (hB : (w + 1) * B ≤ 2 ^ 53)
    (ha : RepW a n m fun i => (lit (v i : ℚ) : Flt binary64)) :
    Rep nan (Run.sumN w a) n (m + w - 1) fun i => lit ((∑ j ∈ Finset.range w, v (i - j) : ℕ) : ℚ) := by
  have hp := ha.pos
  unfold Run.sumN Run.rolling
  have e : max ((m : Int) + w - 1) 1 = ((m + w - 1 : ℕ) : Int) := by omega
  simp only [ha.mp, e]
  rw [clone_mp_pos (by omega), pyFrom_tail ha (by omega), run_sum_tail hw hv hB, ha.len]
  refine (Rep.build (M := m) (m := m + w - 1)
    (h := fun i => if i - (m - 1) + 1 < w then nan else lit ((∑ j ∈ Finset.range w, v (i - j) : ℕ) : ℚ)) hp (by omega) ?_ rfl rfl).congr rfl ?_
  · intro i h1 h2 _
    rw [if_pos (by omega)]
  · intro i h1 _
    rw [if_neg (by omega)]

theorem fl64_int {z : ℤ} (h : |z| ≤ 2 ^ 53) : binary64.fl (z : ℚ) = .fin (z : ℚ) := by
  obtain ⟨k, rfl | rfl⟩ := Int.eq_nat_or_neg z
  · rw [Nat.abs_cast] at h
    exact fl64_nat k (by omega)
  · rw [abs_neg, Nat.abs_cast] at h
    have : binary64.fl (k : ℚ) = .fin (k : ℚ) := fl64_nat k (by omega)
    rw [Int.cast_neg, Int.cast_natCast, binary64.neg, this]
    rfl

theorem whole_diff {j k : ℕ} (hj : j ≤ 2 ^ 53) (hk : k ≤ 2 ^ 53) : (lit (j : ℚ) - lit (k : ℚ) : Flt binary64) = (Ext.fin ((j : ℚ) - k) : Ext ℚ) := by
  rw [whole_lit hj, whole_lit hk]
  have := fl64_int (z := (j : ℤ) - k) (by rw [abs_le]; constructor <;> omega)
  push_cast at this
  rw [← this, sub_eq_add_neg]
  rfl

theorem whole_up {j k : ℕ} (hj : j ≤ 2 ^ 53) (hk : k ≤ 2 ^ 53) :
    clipLo (lit (j : ℚ) - lit (k : ℚ) : Flt binary64) (lit 0) = lit ((j - k : ℕ) : ℚ) := by
  rw [whole_diff hj hk, whole_lit (k := j - k) (by omega)]
  have h0 : (lit 0 : Flt binary64) = (Ext.fin 0 : Ext ℚ) := by exact_mod_cast whole_lit (k := 0) (by norm_num)
  rw [h0]
  change (if Ext.le (.fin 0) (.fin ((j : ℚ) - k)) || false then Ext.fin ((j : ℚ) - k) else Ext.fin 0) = _
  rw [Bool.or_false]
  rcases le_total k j with h | h
  · have hq : (k : ℚ) ≤ j := by exact_mod_cast h
    have q : Ext.Le (.fin 0) (.fin ((j : ℚ) - k)) := Ext.le_fin'.mpr (by linarith)
    rw [if_pos (show Ext.le _ _ = true from q), Nat.cast_sub h]
  · rw [Nat.sub_eq_zero_of_le h]
    split
    · rename_i q
      have q := Ext.le_fin'.mp q
      have : (j : ℚ) ≤ k := by exact_mod_cast h
      rw [show (j : ℚ) - k = 0 by linarith]; simp
    · simp

theorem whole_down {j k : ℕ} (hj : j ≤ 2 ^ 53) (hk : k ≤ 2 ^ 53) :
    absv (clipHi (lit (j : ℚ) - lit (k : ℚ) : Flt binary64) (lit 0)) = lit ((k - j : ℕ) : ℚ) := by
  rw [whole_diff hj hk, whole_lit (k := k - j) (by omega)]
  have h0 : (lit 0 : Flt binary64) = (Ext.fin 0 : Ext ℚ) := by exact_mod_cast whole_lit (k := 0) (by norm_num)
  rw [h0]
  change Ext.abs (if Ext.le (.fin ((j : ℚ) - k)) (.fin 0) || false then Ext.fin ((j : ℚ) - k) else Ext.fin 0) = _
  rw [Bool.or_false]
  rcases le_total j k with h | h
  · have hq : (j : ℚ) ≤ k := by exact_mod_cast h
    have q : Ext.Le (.fin ((j : ℚ) - k)) (.fin 0) := Ext.le_fin'.mpr (by linarith)
    rw [if_pos (show Ext.le _ _ = true from q), Nat.cast_sub h]
    change Ext.fin |(j : ℚ) - k| = _
    rw [abs_of_nonpos (by linarith), neg_sub]
  · rw [Nat.sub_eq_zero_of_le h]
    split
    · rename_i q
      have q := Ext.le_fin'.mp q
      have : (k : ℚ) ≤ j := by exact_mod_cast h
      rw [show (j : ℚ) - k = 0 by linarith]; change Ext.fin |(0 : ℚ)| = _; simp
    · change Ext.fin |(0 : ℚ)| = _; simp

/-- sum of the rises in the last `p` bars -/
def _root_.Spec.rises (x : ℕ → ℕ) (p i : ℕ) : ℕ := ∑ k ∈ Finset.range p, (x (i - k) - x (i - k - 1))
/-- sum of the falls in the last `p` bars -/
def _root_.Spec.falls (x : ℕ → ℕ) (p i : ℕ) : ℕ := ∑ k ∈ Finset.range p, (x (i - k - 1) - x (i - k))

/-- C146: with prices in whole units (e.g. in cents) cmo is also in double precision, with updated sums, the exact number rounded once, from -100
to 100, and there is no number where the price stands still. -/
theorem C146_cmo_whole {n p B : ℕ} {x : ℕ → ℕ} (hp : 1 ≤ p) (hx : ∀ i, x i ≤ B) (hB : 100 * ((p + 1) * B) ≤ 2 ^ 53) :
    ∃ r, Run.cmo p ⟨wholes n x, 1⟩ = .ok r ∧ ∀ i, p ≤ i → i < n →
      (Spec.rises x p i + Spec.falls x p i = 0 → r.series[i]? = some nan) ∧
      (Spec.rises x p i + Spec.falls x p i ≠ 0 → ∃ y : ℚ, r.series[i]? = some (Ext.fin y : Ext ℚ) ∧ -100 ≤ y ∧ y ≤ 100 ∧
        binary64.fl (100 * (Spec.rises x p i - Spec.falls x p i) / (Spec.rises x p i + Spec.falls x p i)) = .fin y) := by
  have hB1 : B ≤ 2 ^ 53 := le_trans (le_trans (Nat.le_mul_of_pos_left B (by omega)) (Nat.le_mul_of_pos_left _ (by omega : 0 < 100))) hB
  have hB2 : (p + 1) * B ≤ 2 ^ 53 := le_trans (Nat.le_mul_of_pos_left _ (by omega : 0 < 100)) hB
  have hb : ∀ i, x i ≤ 2 ^ 53 := fun i => (hx i).trans hB1
  have ha : RepW (⟨wholes n x, 1⟩ : Line (Flt binary64)) n 1 fun i => (lit (x i : ℚ) : Flt binary64) :=
    ⟨by simp [wholes], rfl, le_refl _, fun i _ hi => by simp [wholes, hi]⟩
  have hd := rep_diff (s := 1) ha
  have hu := (rep_clipLoS hd.toRepW (lit 0)).congr (h := fun i => (lit ((x i - x (i - 1) : ℕ) : ℚ) : Flt binary64)) rfl
    fun i _ _ => whole_up (hb _) (hb _)
  have hl := (rep_abs (rep_mapOp (f := fun v => clipHi v (lit 0)) hd.toRepW).toRepW).congr
    (h := fun i => (lit ((x (i - 1) - x i : ℕ) : ℚ) : Flt binary64)) rfl fun i _ _ => whole_down (hb _) (hb _)
  have hU := rep_run_sum hp (fun i => (Nat.sub_le _ _).trans (hx i)) hB2 hu.toRepW
  have hD := rep_run_sum hp (fun i => (Nat.sub_le _ _).trans (hx (i - 1))) hB2 hl.toRepW
  have h1 := rep_binop (fill := (nan : Flt binary64)) (f := fun x y : Flt binary64 => x - y) hU.toRepW hD.toRepW
  have h2 := rep_binop (fill := (nan : Flt binary64)) (f := fun x y : Flt binary64 => x + y) hU.toRepW hD.toRepW
  have h3 := rep_rmulS h1.toRepW (lit 100 : Flt binary64)
  have h4 := rep_binop (fill := (nan : Flt binary64)) (f := fun x y : Flt binary64 => x / y) h3.toRepW h2.toRepW
  refine ⟨_, rfl, fun i hi hn => ?_⟩
  have hv := h4.val i (by omega) hn
  have eU : (∑ j ∈ Finset.range p, (x (i - j) - x (i - j - 1))) = Spec.rises x p i := rfl
  have eD : (∑ j ∈ Finset.range p, (x (i - j - 1) - x (i - j))) = Spec.falls x p i := rfl
  simp only [eU, eD] at hv
  have hsum : 100 * (Spec.rises x p i + Spec.falls x p i) ≤ 2 ^ 53 := by
    have : Spec.rises x p i + Spec.falls x p i ≤ (p + 1) * B := by
      rw [← eU, ← eD, ← Finset.sum_add_distrib]
      calc _ ≤ ∑ _j ∈ Finset.range p, B := Finset.sum_le_sum fun j _ => by have := hx (i - j); have := hx (i - j - 1); omega
        _ = p * B := by simp
        _ ≤ (p + 1) * B := Nat.mul_le_mul_right B (by omega)
    exact (Nat.mul_le_mul_left 100 this).trans hB
  generalize Spec.rises x p i = U at *
  generalize Spec.falls x p i = D at *
  rw [whole_diff (by omega) (by omega), whole_add (by omega), whole_lit (by omega)] at hv
  have e100 : (lit 100 : Flt binary64) = (Ext.fin 100 : Ext ℚ) := by exact_mod_cast whole_lit (k := 100) (by norm_num)
  have eN : binary64.fl (100 * ((U : ℚ) - D)) = .fin (100 * ((U : ℚ) - D)) := by
    have := fl64_int (z := 100 * ((U : ℤ) - D)) (by rw [abs_le]; constructor <;> omega)
    push_cast at this
    exact this
  have e : HMul.hMul (α := Flt binary64) (β := Flt binary64) (γ := Flt binary64) (lit 100) (Ext.fin ((U : ℚ) - D) : Ext ℚ) = (Ext.fin (100 * ((U : ℚ) - D)) : Ext ℚ) := by
    rw [e100, ← eN]; rfl
  rw [e] at hv
  constructor
  · intro h0
    have hU0 : U = 0 := by omega
    have hD0 : D = 0 := by omega
    subst hU0 hD0
    refine hv.trans (congrArg some ?_)
    change binary64.round (Ext.div _ _) = _
    norm_num
    rfl
  · intro h0
    have hpos : (0 : ℚ) < ((U + D : ℕ) : ℚ) := by exact_mod_cast Nat.pos_of_ne_zero h0
    have hdiv : HDiv.hDiv (α := Flt binary64) (β := Flt binary64) (γ := Flt binary64) (Ext.fin (100 * ((U : ℚ) - D)) : Ext ℚ) (Ext.fin ((U + D : ℕ) : ℚ) : Ext ℚ) =
        binary64.fl (100 * ((U : ℚ) - D) / ((U + D : ℕ) : ℚ)) := by
      change binary64.round (if ((U + D : ℕ) : ℚ) = 0 then _ else Ext.fin (100 * ((U : ℚ) - D) / ((U + D : ℕ) : ℚ))) = _
      rw [if_neg hpos.ne']
      rfl
    have hw : Spec.Within (-100) 100 (binary64.fl (100 * ((U : ℚ) - D) / ((U + D : ℕ) : ℚ))) := by
      refine binary64.round_within binary64.fl_neghundred binary64.fl_hundred (v := .fin _) (Or.inr ⟨_, rfl, ?_, ?_⟩)
      · rw [le_div_iff₀ hpos]; push_cast
        have : (0 : ℚ) ≤ U := Nat.cast_nonneg U
        linarith
      · rw [div_le_iff₀ hpos]; push_cast
        have : (0 : ℚ) ≤ D := Nat.cast_nonneg D
        linarith
    rcases hw with h | ⟨y, h, y1, y2⟩
    · exact absurd h (C107_binary64_overflow _).2.2
    · refine ⟨y, hv.trans (congrArg some (hdiv.trans h)), y1, y2, ?_⟩
      rw [← h]; push_cast; rfl

/-! the simple average -/

theorem whole_mean_state (w : ℕ) {n B : ℕ} {v : ℕ → ℕ} (hv : ∀ i, v i ≤ B) (hB : B ≤ 2 ^ 53) : ∀ i, i ≤ n →
    Run.state w Run.meanStep ⟨0, 0, lit 0⟩ (prepL (wholes n v)) i =
      ⟨(Run.state w Run.sumStep ⟨0, lit 0⟩ (prepL (wholes n v)) i).nobs, 0, (Run.state w Run.sumStep ⟨0, lit 0⟩ (prepL (wholes n v)) i).sum⟩ := by
  have nn : ∀ k : ℕ, k ≤ 2 ^ 53 → isNaN (lit (k : ℚ) : Flt binary64) = false := fun k hk => by rw [whole_lit hk]; rfl
  have np : ∀ k : ℕ, k ≤ 2 ^ 53 → lt (lit (k : ℚ) : Flt binary64) (lit 0) = false := fun k hk => by
    have h0 : (lit 0 : Flt binary64) = (Ext.fin 0 : Ext ℚ) := by exact_mod_cast whole_lit (k := 0) (by norm_num)
    rw [whole_lit hk, h0]
    exact decide_eq_false (not_lt.mpr (Nat.cast_nonneg k))
  intro i
  induction i with
  | zero => intro _; rfl
  | succ i ih =>
    intro hi
    have h1 := (hv i).trans hB
    rw [Run.state, Run.state, ih (by omega), wholes_get hv hB (by omega)]
    generalize Run.state w Run.sumStep ⟨0, lit 0⟩ (prepL (wholes n v)) i = s
    by_cases h : w ≤ i
    · have h2 := (hv (i - w)).trans hB
      rw [if_pos h, wholes_get hv hB (by omega)]
      simp only [Run.meanStep, Run.sumStep, Run.MeanSt.add, Run.MeanSt.remove, Run.SumSt.add, Run.SumSt.remove, nn _ h1, nn _ h2, np _ h1, np _ h2,
        Bool.false_eq_true, if_false]
    · rw [if_neg h]
      simp only [Run.meanStep, Run.sumStep, Run.MeanSt.add, Run.SumSt.add, nn _ h1, np _ h1, Bool.false_eq_true, if_false]

/-- C146: the simple average of prices in whole units, computed in double precision from a sum updated from bar to bar, is the exact average
rounded once, at every bar of any history; it is never above the highest or below the lowest price of its window. -/
theorem C146_sma_whole {n B w : ℕ} {v : ℕ → ℕ} (hw : 1 ≤ w) (hv : ∀ i, v i ≤ B) (hB : (w + 1) * B ≤ 2 ^ 53) (hw53 : w ≤ 2 ^ 53) {i : ℕ}
    (hi : i < n) (hwi : w ≤ i + 1) :
    ∃ y : ℚ, (Run.mean w (wholes n v)).getD i nan = (Ext.fin y : Ext ℚ) ∧
      binary64.fl ((∑ k ∈ Finset.range w, (v (i - k) : ℚ)) / w) = .fin y ∧
      ∀ lo hi : ℕ, (∀ k, k < w → lo ≤ v (i - k) ∧ v (i - k) ≤ hi) → (lo : ℚ) ≤ y ∧ y ≤ hi := by
  have hB1 : B ≤ 2 ^ 53 := le_trans (Nat.le_mul_of_pos_left B (by omega)) hB
  have hs := C146_whole hw hv hB hi hwi
  have hwq : (0 : ℚ) < w := by exact_mod_cast hw
  have hlen : i < (wholes n v).length := by simpa [wholes] using hi
  have hst := whole_sum_state hw hv hB (i + 1) hi
  have hmin : Nat.min (i + 1) w = w := Nat.min_eq_right hwi
  unfold Run.sum at hs
  rw [loop_getD _ _ _ _ hlen, if_neg (by omega), hst, hmin] at hs
  simp only [le_refl, if_true] at hs
  have hS : (∑ k ∈ Finset.range w, v (i - k)) ≤ 2 ^ 53 := by
    calc _ ≤ ∑ _k ∈ Finset.range w, B := Finset.sum_le_sum fun k _ => hv _
      _ = w * B := by simp
      _ ≤ (w + 1) * B := Nat.mul_le_mul_right _ (by omega)
      _ ≤ 2 ^ 53 := hB
  set S := ∑ k ∈ Finset.range w, v (i - k) with hSdef
  have hSq : (∑ k ∈ Finset.range w, (v (i - k) : ℚ)) = S := by rw [hSdef]; push_cast; rfl
  have hq : (lit (S : ℚ) / lit (w : ℚ) : Flt binary64) = binary64.fl ((S : ℚ) / w) := by
    rw [whole_lit hS, whole_lit hw53]
    change binary64.round (if (w : ℚ) = 0 then _ else Ext.fin ((S : ℚ) / w)) = _
    rw [if_neg hwq.ne']
    rfl
  have fB : binary64.fl (B : ℚ) = .fin (B : ℚ) := fl64_nat B hB1
  have f0 : binary64.fl 0 = .fin 0 := by exact_mod_cast fl64_nat 0 (by norm_num)
  have bound : ∀ hi : ℕ, (∀ k, k < w → v (i - k) ≤ hi) → (S : ℚ) / w ≤ hi := fun hi h => by
    rw [div_le_iff₀ hwq, ← hSq]
    calc _ ≤ ∑ _k ∈ Finset.range w, (hi : ℚ) := Finset.sum_le_sum fun k hk => by exact_mod_cast h k (Finset.mem_range.mp hk)
      _ = hi * w := by simp [mul_comm]
  have bound' : ∀ lo : ℕ, (∀ k, k < w → lo ≤ v (i - k)) → (lo : ℚ) ≤ (S : ℚ) / w := fun lo h => by
    rw [le_div_iff₀ hwq, ← hSq]
    calc (lo : ℚ) * w = ∑ _k ∈ Finset.range w, (lo : ℚ) := by simp [mul_comm]
      _ ≤ _ := Finset.sum_le_sum fun k hk => by exact_mod_cast h k (Finset.mem_range.mp hk)
  have hwith : Spec.Within 0 B (binary64.fl ((S : ℚ) / w)) :=
    binary64.round_within f0 fB (v := .fin _) (Or.inr ⟨_, rfl, by exact_mod_cast bound' 0 (fun _ _ => Nat.zero_le _), bound B fun _ _ => hv _⟩)
  rcases hwith with h | ⟨y, h, y0, _⟩
  · exact absurd h (C107_binary64_overflow _).2.2
  refine ⟨y, ?_, by rw [hSq]; exact h, fun lo hi hlh => ?_⟩
  · unfold Run.mean
    rw [loop_getD _ _ _ _ hlen, if_neg (by omega), whole_mean_state w hv hB1 (i + 1) hi, hst, hmin]
    unfold Run.meanOut
    simp only [le_refl, if_true]
    rw [hs, hq, h]
    have hy : lt (V := Flt binary64) (Ext.fin y : Ext ℚ) (lit 0) = false := by
      have h0 : (lit 0 : Flt binary64) = (Ext.fin 0 : Ext ℚ) := by exact_mod_cast whole_lit (k := 0) (by norm_num)
      rw [h0]
      exact decide_eq_false (not_lt.mpr y0)
    rw [if_neg (by rw [hy]; simp)]
    exact if_neg (fun q => absurd q.1 (by omega))
  · have e1 : binary64.fl ((min hi B : ℕ) : ℚ) = .fin ((min hi B : ℕ) : ℚ) := fl64_nat _ (by omega)
    have e2 : binary64.fl ((min lo B : ℕ) : ℚ) = .fin ((min lo B : ℕ) : ℚ) := fl64_nat _ (by omega)
    have q1 := binary64.mono _ _ (bound (min hi B) fun k hk => le_min (hlh k hk).2 (hv _))
    have q2 := binary64.mono _ _ (bound' (min lo B) fun k hk => (min_le_left _ _).trans (hlh k hk).1)
    rw [h, e1] at q1
    rw [h, e2] at q2
    have q1 := Ext.le_fin'.mp q1
    have q2 := Ext.le_fin'.mp q2
    have hlo : lo ≤ B := (hlh 0 (by omega)).1.trans (hv _)
    rw [min_eq_left hlo] at q2
    exact ⟨q2, q1.trans (by exact_mod_cast min_le_left hi B)⟩

/-! the ultimate oscillator -/

theorem whole_le {j k : ℕ} (hj : j ≤ 2 ^ 53) (hk : k ≤ 2 ^ 53) : le (lit (j : ℚ) : Flt binary64) (lit (k : ℚ)) = decide (j ≤ k) := by
  rw [whole_lit hj, whole_lit hk]
  by_cases h : j ≤ k
  · rw [decide_eq_true h]
    exact Ext.le_fin'.mpr (by exact_mod_cast h)
  · rw [decide_eq_false h]
    by_contra hc
    have : Ext.Le (.fin (j : ℚ)) (.fin (k : ℚ)) := by
      rw [Bool.not_eq_false] at hc
      exact hc
    exact h (by exact_mod_cast Ext.le_fin'.mp this)

theorem whole_clipHi {j k : ℕ} (hj : j ≤ 2 ^ 53) (hk : k ≤ 2 ^ 53) :
    clipHi (lit (j : ℚ) : Flt binary64) (lit (k : ℚ)) = lit ((min j k : ℕ) : ℚ) := by
  have nn : isNaN (lit (j : ℚ) : Flt binary64) = false := by rw [whole_lit hj]; rfl
  unfold clipHi
  rw [whole_le hj hk, nn, Bool.or_false]
  by_cases h : j ≤ k
  · rw [if_pos (by simpa using h), min_eq_left h]
  · rw [if_neg (by simpa using h), min_eq_right (by omega)]

theorem whole_clipLo {j k : ℕ} (hj : j ≤ 2 ^ 53) (hk : k ≤ 2 ^ 53) :
    clipLo (lit (j : ℚ) : Flt binary64) (lit (k : ℚ)) = lit ((max j k : ℕ) : ℚ) := by
  have nn : isNaN (lit (j : ℚ) : Flt binary64) = false := by rw [whole_lit hj]; rfl
  unfold clipLo
  rw [whole_le hk hj, nn, Bool.or_false]
  by_cases h : k ≤ j
  · rw [if_pos (by simpa using h), max_eq_left h]
  · rw [if_neg (by simpa using h), max_eq_right (by omega)]

/-- quotients of sums of whole numbers, the first not greater than the second at any bar -/
theorem whole_part {x y : Line (Flt binary64)} {n m m' B p : ℕ} {X Y : ℕ → ℕ} (hp : 1 ≤ p) (hB : (p + 1) * B ≤ 2 ^ 53)
    (hx : RepW x n m fun i => (lit (X i : ℚ) : Flt binary64)) (hy : RepW y n m' fun i => (lit (Y i : ℚ) : Flt binary64))
    (hXY : ∀ i, X i ≤ Y i) (hY : ∀ i, Y i ≤ B) : Spec.InRange 0 1 (Run.sumN p x / Run.sumN p y) := by
  have h1 := rep_run_sum hp (fun i => (hXY i).trans (hY i)) hB hx
  have h2 := rep_run_sum hp hY hB hy
  have h3 := rep_binop (fill := (nan : Flt binary64)) (f := fun x y : Flt binary64 => x / y) h1.toRepW h2.toRepW
  refine each_of_rep h3 (Or.inl rfl) fun i _ _ => ?_
  have hle : ∑ j ∈ Finset.range p, X (i - j) ≤ ∑ j ∈ Finset.range p, Y (i - j) := Finset.sum_le_sum fun j _ => hXY _
  have hS : ∑ j ∈ Finset.range p, Y (i - j) ≤ 2 ^ 53 := by
    calc _ ≤ ∑ _k ∈ Finset.range p, B := Finset.sum_le_sum fun k _ => hY _
      _ = p * B := by simp
      _ ≤ (p + 1) * B := Nat.mul_le_mul_right _ (by omega)
      _ ≤ 2 ^ 53 := hB
  generalize ∑ j ∈ Finset.range p, X (i - j) = U at *
  generalize ∑ j ∈ Finset.range p, Y (i - j) = W at *
  rw [whole_lit (by omega), whole_lit hS]
  have hq : (U : ℚ) ≤ W := by exact_mod_cast hle
  have hU : (0 : ℚ) ≤ U := Nat.cast_nonneg U
  refine binary64.round_within binary64.fl_zero binary64.fl_one (v := Ext.div (.fin (U : ℚ)) (.fin (W : ℚ))) ?_
  change Spec.Within 0 1 (if (W : ℚ) = 0 then Ext.infSign (U : ℚ) else Ext.fin ((U : ℚ) / W))
  split
  · rename_i h0
    have : (U : ℚ) = 0 := by linarith
    rw [this]; exact Or.inl (by simp)
  · rename_i h0
    have hW : (0 : ℚ) < W := lt_of_le_of_ne (hU.trans hq) (Ne.symm h0)
    exact Or.inr ⟨_, rfl, div_nonneg hU hW.le, by rw [div_le_one hW]; exact hq⟩

/-- a number of the format -/
def ofQ (q : ℚ) : Flt binary64 := (Ext.fin q : Ext ℚ)

/-- 100/7 in double precision -/
def ultF : ℚ := 8042142191733029 / 562949953421312

/-- C146: with prices in whole units the ultimate oscillator with its default weights is from 0 to 100.00000000000001 (100 + 2^-46), at every bar of
any history, in double precision and with sums updated from bar to bar. -/
theorem C146_ultosc_whole {n p1 p2 p3 B : ℕ} {H L C : ℕ → ℕ} (h1 : 1 ≤ p1) (h2 : 1 ≤ p2) (h3 : 1 ≤ p3) (bar : ∀ i, L i ≤ C i ∧ C i ≤ H i ∧ H i ≤ B)
    (b1 : (p1 + 1) * B ≤ 2 ^ 53) (b2 : (p2 + 1) * B ≤ 2 ^ 53) (b3 : (p3 + 1) * B ≤ 2 ^ 53) :
    Spec.InRange 0 (100 + 1 / 2 ^ 46)
      (Run.ultosc p1 p2 p3 (lit 4) (lit 2) (lit 1) ⟨wholes n H, 1⟩ ⟨wholes n L, 1⟩ (⟨wholes n C, 1⟩ : Line (Flt binary64))) := by
  have hB1 : B ≤ 2 ^ 53 := le_trans (Nat.le_mul_of_pos_left B (by omega)) b1
  have wr : ∀ x : ℕ → ℕ, RepW (⟨wholes n x, 1⟩ : Line (Flt binary64)) n 1 fun i => (lit (x i : ℚ) : Flt binary64) := fun x =>
    ⟨by simp [wholes], rfl, le_refl _, fun i _ hi => by simp [wholes, hi]⟩
  have bH : ∀ i, H i ≤ 2 ^ 53 := fun i => (bar i).2.2.trans hB1
  have bC : ∀ i, C i ≤ 2 ^ 53 := fun i => (bar i).2.1.trans (bH i)
  have bL : ∀ i, L i ≤ 2 ^ 53 := fun i => (bar i).1.trans (bC i)
  have hag := rep_ago (le_refl 1) (wr C)
  have hlo : Rep nan (clipHiL (ago (-1) (⟨wholes n C, 1⟩ : Line (Flt binary64))) ⟨wholes n L, 1⟩) n 2
      fun i => (lit ((min (C (i - 1)) (L i) : ℕ) : ℚ) : Flt binary64) :=
    (rep_clipHiL hag.toRepW (wr L)).congr rfl fun i _ _ => whole_clipHi (bC _) (bL _)
  have hhi : Rep nan (clipLoL (ago (-1) (⟨wholes n C, 1⟩ : Line (Flt binary64))) ⟨wholes n H, 1⟩) n 2
      fun i => (lit ((max (C (i - 1)) (H i) : ℕ) : ℚ) : Flt binary64) :=
    (rep_clipLoL hag.toRepW (wr H)).congr rfl fun i _ _ => whole_clipLo (bC _) (bH _)
  have hbp : Rep nan ((⟨wholes n C, 1⟩ : Line (Flt binary64)) - truelow 1 ⟨wholes n L, 1⟩ ⟨wholes n C, 1⟩) n 2
      fun i => (lit ((C i - min (C (i - 1)) (L i) : ℕ) : ℚ) : Flt binary64) :=
    (rep_binop (fill := (nan : Flt binary64)) (f := fun x y : Flt binary64 => x - y) (wr C) hlo.toRepW).congr rfl fun i _ _ =>
      whole_sub (bC i) ((min_le_right _ _).trans (bar i).1)
  have htr : Rep nan (truerange 1 (⟨wholes n H, 1⟩ : Line (Flt binary64)) ⟨wholes n L, 1⟩ ⟨wholes n C, 1⟩) n 2
      fun i => (lit ((max (C (i - 1)) (H i) - min (C (i - 1)) (L i) : ℕ) : ℚ) : Flt binary64) :=
    (rep_binop (fill := (nan : Flt binary64)) (f := fun x y : Flt binary64 => x - y) hhi.toRepW hlo.toRepW).congr rfl fun i _ _ =>
      whole_sub (max_le (bC _) (bH _)) ((min_le_left _ _).trans (le_max_left _ _))
  have part : ∀ {p : ℕ}, 1 ≤ p → (p + 1) * B ≤ 2 ^ 53 → Spec.InRange 0 1
      (Run.sumN p ((⟨wholes n C, 1⟩ : Line (Flt binary64)) - truelow 1 ⟨wholes n L, 1⟩ ⟨wholes n C, 1⟩) /
        Run.sumN p (truerange 1 (⟨wholes n H, 1⟩ : Line (Flt binary64)) ⟨wholes n L, 1⟩ ⟨wholes n C, 1⟩)) := fun hp hb =>
    whole_part hp hb hbp.toRepW htr.toRepW
      (fun i => Nat.sub_le_sub_right ((bar i).2.1.trans (le_max_right _ _)) _)
      (fun i => (Nat.sub_le _ _).trans (max_le ((bar (i - 1)).2.1.trans (bar (i - 1)).2.2) (bar i).2.2))
  have scale : ∀ {c : Flt binary64} {q : ℚ}, c = ofQ q → 0 ≤ q → binary64.fl q = .fin q → ∀ {x : Line (Flt binary64)},
      Spec.InRange 0 1 x → Spec.InRange 0 q (rmulS c x) := by
    intro c q hc hq hf x hx
    refine each_binopS (γ := Flt binary64) (Or.inl rfl) (fun v hv => ?_) hx
    rw [hc]
    refine binary64.round_within binary64.fl_zero hf (v := Ext.mul (.fin q) v) ?_
    rcases hv with rfl | ⟨y, rfl, y0, y1⟩
    · exact Or.inl rfl
    · exact Or.inr ⟨q * y, rfl, mul_nonneg hq y0, by nlinarith⟩
  have plus : ∀ {a b s : ℚ}, binary64.fl (a + b) = .fin s → ∀ {x y : Line (Flt binary64)},
      Spec.InRange 0 a x → Spec.InRange 0 b y → Spec.InRange 0 s (x + y) := by
    intro a b s hs x y hx hy
    refine each_binop (γ := Flt binary64) (Or.inl rfl) (fun u v hu hv => ?_) hx hy
    change Spec.Within 0 s (binary64.round (Ext.add u v))
    rcases hu with rfl | ⟨u, rfl, u0, u1⟩
    · exact Or.inl rfl
    · rcases hv with rfl | ⟨v, rfl, v0, v1⟩
      · exact Or.inl rfl
      · have q1 := binary64.mono 0 (u + v) (by linarith)
        have q2 := binary64.mono (u + v) (a + b) (by linarith)
        rw [binary64.fl_zero] at q1
        rw [hs] at q2
        exact Ext.within_of_le q1 q2
  have f1 : (lit 4 * (lit 100 / (lit 4 + lit 2 + lit 1)) : Flt binary64) = ofQ (4 * ultF) := by decide +kernel
  have f2 : (lit 2 * (lit 100 / (lit 4 + lit 2 + lit 1)) : Flt binary64) = ofQ (2 * ultF) := by decide +kernel
  have f3 : (lit 1 * (lit 100 / (lit 4 + lit 2 + lit 1)) : Flt binary64) = ofQ ultF := by decide +kernel
  have s1 := scale f1 (by decide +kernel) (by decide +kernel) (part h1 b1)
  have s2 := scale f2 (by decide +kernel) (by decide +kernel) (part h2 b2)
  have s3 := scale f3 (by decide +kernel) (by decide +kernel) (part h3 b3)
  exact plus (a := 1507901660949943 / 17592186044416) (b := ultF) (by decide +kernel) (plus (a := 4 * ultF) (b := 2 * ultF) (by decide +kernel) s1 s2) s3

/-- **C107** (negation) in double precision the ultimate oscillator with its default weights is above 100 if all bars close at their high: the bound
of `C146_ultosc_whole` is attained, also with the sum of each window. -/
theorem C107_not_ultosc : ∃ h l : List ℚ, (∀ b ∈ h.zip l, b.2 ≤ b.1) ∧
    (Run.ultosc 1 2 3 (lit 4) (lit 2) (lit 1) (doubles h) (doubles l) (doubles h)).series.getLast? = some (ofQ (100 + 1 / 2 ^ 46)) ∧
    (Ind.ultosc 1 2 3 (lit 4) (lit 2) (lit 1) (doubles h) (doubles l) (doubles h)).series.getLast? = some (ofQ (100 + 1 / 2 ^ 46)) :=
  ⟨[10, 11, 12, 13], [9, 10, 11, 12], by decide +kernel, by decide +kernel, by decide +kernel⟩

/-- non-vacuity of `C146_ultosc_whole`: default periods, prices up to 1000 -/
example (n : ℕ) (c : ℕ → ℕ) : Spec.InRange 0 (100 + 1 / 2 ^ 46)
    (Run.ultosc 7 14 28 (lit 4) (lit 2) (lit 1) ⟨wholes n fun i => c i % 997 + 3, 1⟩ ⟨wholes n fun i => c i % 997, 1⟩
      (⟨wholes n fun i => c i % 997 + 1, 1⟩ : Line (Flt binary64))) :=
  C146_ultosc_whole (B := 1000) (by omega) (by omega) (by omega)
    (fun i => by have := Nat.mod_lt (c i) (show 0 < 997 by omega); refine ⟨?_, ?_, ?_⟩ <;> omega) (by norm_num) (by norm_num) (by norm_num)

/-! ## averages follow their input -/

/-- **C131** (negation) with sums updated from bar to bar a sum does not follow its input: no price of the first list is above that of the second, but
the sum of the last two is. -/
theorem C131_not_updated : ∃ x y : List ℚ, (∀ b ∈ x.zip y, b.1 ≤ b.2) ∧ x.length = y.length ∧
    Run.sumN 2 (doubles x) = ⟨[nan, lit (2 ^ 53 + 4), lit 8], 2⟩ ∧ Run.sumN 2 (doubles y) = ⟨[nan, lit (2 ^ 53 + 4), lit 6], 2⟩ :=
  ⟨[2 ^ 53, 3, 3], [2 ^ 53 + 2, 3, 3], by decide +kernel, rfl, by decide +kernel, by decide +kernel⟩

/-- **C131** with prices in whole units the simple average does follow, in double precision and with updated sums. -/
theorem C131_whole {n B w : ℕ} {v u : ℕ → ℕ} (hw : 1 ≤ w) (huv : ∀ i, v i ≤ u i) (hu : ∀ i, u i ≤ B) (hB : (w + 1) * B ≤ 2 ^ 53) (hw53 : w ≤ 2 ^ 53)
    {i : ℕ} (hi : i < n) (hwi : w ≤ i + 1) :
    ∃ y z : ℚ, (Run.mean w (wholes n v)).getD i nan = (Ext.fin y : Ext ℚ) ∧ (Run.mean w (wholes n u)).getD i nan = (Ext.fin z : Ext ℚ) ∧ y ≤ z := by
  obtain ⟨y, h1, h2, _⟩ := C146_sma_whole hw (fun i => (huv i).trans (hu i)) hB hw53 hi hwi
  obtain ⟨z, h3, h4, _⟩ := C146_sma_whole hw hu hB hw53 hi hwi
  refine ⟨y, z, h1, h3, ?_⟩
  have := binary64.mono ((∑ k ∈ Finset.range w, (v (i - k) : ℚ)) / w) ((∑ k ∈ Finset.range w, (u (i - k) : ℚ)) / w)
    (div_le_div_of_nonneg_right (Finset.sum_le_sum fun k _ => by exact_mod_cast huv _) (Nat.cast_nonneg w))
  rw [h2, h4] at this
  exact Ext.le_fin'.mp this

/-- the same prices in exact arithmetic: no number either -/
example : (Run.mfi 2 (bars 3 fun _ => (12 : ℚ)) (bars 3 fun _ => 12) (bars 3 fun _ => 12) (bars 3 fun _ => 1)).series = [.nan, .nan, .nan] := by
  decide +kernel

example : Run.cmo 2 (bars 4 fun i => ((i * i : ℕ) : ℚ)) = .ok ⟨[.nan, .nan, .fin 100, .fin 100], 3⟩ := by decide +kernel

/-- non-vacuity of `C146_cmo_whole`: the closes of `C146_oscillators_false` in cents, where the last value is missing as it should be -/
example : ∃ r, Run.cmo 2 (⟨wholes 7 fun i => [1374, 433, 1915, 326, 330, 330, 330].getD i 0, 1⟩ : Line (Flt binary64)) = .ok r ∧ r.series[6]? = some nan := by
  obtain ⟨r, h1, h2⟩ := C146_cmo_whole (n := 7) (p := 2) (B := 2000) (x := fun i => [1374, 433, 1915, 326, 330, 330, 330].getD i 0) (by omega)
    (fun i => by
      by_cases h : i < 7
      · interval_cases i <;> simp
      · simp [List.getElem?_eq_none (by simpa using h : ([1374, 433, 1915, 326, 330, 330, 330] : List ℕ).length ≤ i)]) (by norm_num)
  exact ⟨r, h1, (h2 6 (by omega) (by omega)).1 (by decide)⟩

/-- non-vacuity of `C146_sma_whole`: a million bars of prices from 1000000 to 1000006 -/
example : ∃ y : ℚ, (Run.mean 3 (wholes 1000000 fun i => i % 7 + 1000000)).getD 900000 nan = (Ext.fin y : Ext ℚ) ∧ 1000000 ≤ y ∧ y ≤ 1000006 := by
  have hm : ∀ i, i % 7 < 7 := fun i => Nat.mod_lt i (by omega)
  obtain ⟨y, h1, _, h3⟩ := C146_sma_whole (n := 1000000) (B := 1000006) (w := 3) (v := fun i => i % 7 + 1000000) (by omega)
    (fun i => by have := hm i; omega) (by norm_num) (by norm_num) (i := 900000) (by omega) (by omega)
  have := h3 1000000 1000006 fun k _ => by have := hm (900000 - k); constructor <;> omega
  exact ⟨y, h1, by exact_mod_cast this.1, by exact_mod_cast this.2⟩

/-- non-vacuity of `C131_whole` -/
example : ∃ y z : ℚ, (Run.mean 3 (wholes 100 fun i => i % 100)).getD 50 nan = (Ext.fin y : Ext ℚ) ∧
    (Run.mean 3 (wholes 100 fun i => i % 100 + i % 2)).getD 50 nan = (Ext.fin z : Ext ℚ) ∧ y ≤ z :=
  C131_whole (n := 100) (B := 200) (w := 3) (v := fun i => i % 100) (u := fun i => i % 100 + i % 2) (by omega) (fun i => by omega)
    (fun i => by omega) (by norm_num) (by norm_num) (i := 50) (by omega) (by omega)

end Bta
