import Verif.Running
import Verif.Lemmas.Calc
import Verif.Lemmas.Stat
import Verif.Lemmas.Osc
import Verif.Ind.Core
import Verif.Float
import Verif.Lemmas.Rounding
import Verif.Lemmas.Flt
import Verif.Lemmas.Accuracy

/-!
# Values updated from bar to bar (C146)
-/

set_option linter.unusedSectionVars false

namespace Bta
open Ext Finset

variable {K : Type} [Field K] [LinearOrder K] [IsStrictOrderedRing K]

/-! ## windows of a list with missing values -/

/-- the number, or 0 for NaN and infinities -/
def num : Ext K → K
  | fin x => x
  | _ => 0

/-- 1 for numbers, 0 for NaN and infinities -/
def cnt : Ext K → ℕ
  | fin _ => 1
  | _ => 0

/-- the values the loops see -/
def prep (v : Ext K) : Ext K := if isFin v then v else nan

theorem prep_cases (v : Ext K) : (prep v = nan ∧ cnt v = 0 ∧ num v = 0 ∧ isFin v = false) ∨
    (prep v = fin (num v) ∧ cnt v = 1 ∧ v = fin (num v) ∧ isFin v = true) := by
  cases v <;> simp [prep, cnt, num]

theorem prepL_getD (xs : List (Ext K)) {j : ℕ} (hj : j < xs.length) : (prepL xs).getD j nan = prep (xs.getD j nan) := by
  simp [prepL, prep, List.getD_eq_getElem?_getD, List.getElem?_map, List.getElem?_eq_getElem hj]

/-- what the sum over a window becomes one bar later -/
theorem slide {M : Type} [AddCommMonoid M] (F : ℕ → M) {w : ℕ} (hw : 1 ≤ w) (i : ℕ) :
    ∑ j ∈ Ico (i + 1 - w) (i + 1), F j + (if w ≤ i then F (i - w) else 0) = ∑ j ∈ Ico (i - w) i, F j + F i := by
  by_cases h : w ≤ i
  · rw [if_pos h, sum_Ico_succ_top (by omega), sum_eq_sum_Ico_succ_bot (show i - w < i by omega),
      show i - w + 1 = i + 1 - w by omega]
    rw [add_assoc, add_comm (F i), ← add_assoc, add_comm _ (F (i - w))]
  · rw [if_neg h, add_zero, sum_Ico_succ_top (by omega), show i + 1 - w = i - w by omega]

theorem cnt_full (g : ℕ → Ext K) {w i : ℕ} (hw : w ≤ i + 1) :
    w ≤ ∑ j ∈ Ico (i + 1 - w) (i + 1), cnt (g j) ↔ ∀ j ∈ Ico (i + 1 - w) (i + 1), isFin (g j) = true := by
  have hc : (Ico (i + 1 - w) (i + 1)).card = w := by rw [Nat.card_Ico]; omega
  have h1 : ∀ j, cnt (g j) ≤ 1 := fun j => by rcases prep_cases (g j) with h | h <;> omega
  constructor
  · intro h j hj
    by_contra hf
    have h0 : cnt (g j) = 0 := by
      rcases prep_cases (g j) with h | h
      · exact h.2.1
      · exact absurd h.2.2.2 hf
    have : ∑ j ∈ Ico (i + 1 - w) (i + 1), cnt (g j) < ∑ j ∈ Ico (i + 1 - w) (i + 1), 1 :=
      sum_lt_sum (fun j _ => h1 j) ⟨j, hj, by omega⟩
    rw [sum_const, hc] at this
    simp at this
    omega
  · intro h
    have : ∑ j ∈ Ico (i + 1 - w) (i + 1), cnt (g j) = ∑ j ∈ Ico (i + 1 - w) (i + 1), 1 :=
      sum_congr rfl fun j hj => by
        rcases prep_cases (g j) with h2 | h2
        · rw [h j hj] at h2; simp at h2
        · exact h2.2.1
    rw [this, sum_const, hc]
    simp

theorem cnt_le (g : ℕ → Ext K) {w i : ℕ} (hw : w ≤ i + 1) : ∑ j ∈ Ico (i + 1 - w) (i + 1), cnt (g j) ≤ w := by
  have hc : (Ico (i + 1 - w) (i + 1)).card = w := by rw [Nat.card_Ico]; omega
  calc _ ≤ ∑ j ∈ Ico (i + 1 - w) (i + 1), 1 := sum_le_sum fun j _ => by rcases prep_cases (g j) with h | h <;> omega
    _ = w := by rw [sum_const, hc]; simp

theorem window_list (xs : List (Ext K)) {w i : ℕ} (hi : i < xs.length) (hw : w ≤ i + 1) :
    window w i xs = wnd (fun j => xs.getD j nan) w i := by
  refine List.ext_getElem? fun j => ?_
  unfold window wnd
  rw [List.getElem?_drop, List.getElem?_take]
  by_cases hj : j < w
  · rw [if_pos (by omega), List.getElem?_map, List.getElem?_range hj, Option.map_some]
    beta_reduce
    rw [List.getD_eq_getElem?_getD, List.getElem?_eq_getElem (by omega), Option.getD_some]
  · rw [if_neg (by omega), List.getElem?_eq_none (by simp; omega)]

/-- `agg` of a window with numbers only is that of the numbers, else NaN -/
theorem agg_window (f : List (Ext K) → Ext K) (g : ℕ → Ext K) {w i : ℕ} (hw : w ≤ i + 1) :
    whenAllFin f (wnd g w i) = if w ≤ ∑ j ∈ Ico (i + 1 - w) (i + 1), cnt (g j)
      then whenAllFin f (wnd (fun j => (fin (num (g j)) : Ext K)) w i) else nan := by
  have e' : (wnd g w i).all isFin = true ↔ ∀ j ∈ Ico (i + 1 - w) (i + 1), isFin (g j) = true := by
    unfold wnd
    simp only [List.all_map, List.all_eq_true, List.mem_range, Function.comp_apply, mem_Ico]
    constructor
    · intro h j hj
      have := h (j - (i + 1 - w)) (by omega)
      rwa [show i + 1 - w + (j - (i + 1 - w)) = j by omega] at this
    · intro h j hj
      exact h _ ⟨by omega, by omega⟩
  have e := e'.trans (cnt_full g hw).symm
  by_cases h : (wnd g w i).all isFin = true
  · rw [if_pos (e.mp h)]
    congr 1
    refine wnd_congr hw fun j h1 h2 => ?_
    have := e'.mp h j (mem_Ico.mpr ⟨by omega, by omega⟩)
    rcases prep_cases (g j) with h3 | h3
    · rw [this] at h3; simp at h3
    · exact h3.2.2.1
  · rw [if_neg fun h' => h (e.mpr h')]
    unfold whenAllFin
    rw [if_neg h]

/-- both descriptions agree if they do at each bar with a full window -/
theorem loop_eq {σ : Type} {w : ℕ} (step : ℕ → σ → Ext K → Option (Ext K) → σ) (s0 : σ) (out : σ → Ext K)
    (agg : List (Ext K) → Ext K) (xs : List (Ext K))
    (h : ∀ i, i < xs.length → w ≤ i + 1 → out (Run.state w step s0 (prepL xs) (i + 1)) = agg (wnd (fun j => xs.getD j nan) w i)) :
    Run.loop w step s0 out xs = rollL w agg xs := by
  unfold Run.loop rollL
  refine List.map_congr_left fun i hi => ?_
  have hi := List.mem_range.mp hi
  by_cases hw : i + 1 < w
  · rw [if_pos hw, if_pos hw]
  · rw [if_neg hw, if_neg hw, window_list xs hi (by omega)]
    exact h i hi (by omega)

theorem state_succ {σ : Type} {w i : ℕ} (hw : 1 ≤ w) (step : ℕ → σ → Ext K → Option (Ext K) → σ) (s0 : σ) (xs : List (Ext K)) (hi : i < xs.length) :
    Run.state w step s0 (prepL xs) (i + 1) = step i (Run.state w step s0 (prepL xs) i) (prep (xs.getD i nan))
      (if w ≤ i then some (prep (xs.getD (i - w) nan)) else none) := by
  rw [Run.state, prepL_getD xs hi]
  congr 1
  by_cases h : w ≤ i
  · rw [if_pos h, if_pos h, prepL_getD xs (by omega)]
  · rw [if_neg h, if_neg h]

theorem cnt_zero (g : ℕ → Ext K) (F : K → K) (hF : F 0 = 0) {s : Finset ℕ} (h : ∑ j ∈ s, cnt (g j) = 0) :
    ∑ j ∈ s, F (num (g j)) = 0 :=
  sum_eq_zero fun j hj => by
    have := (sum_eq_zero_iff.mp h) j hj
    rcases prep_cases (g j) with h | h
    · rw [h.2.2.1, hF]
    · omega

/-! ## sums -/

theorem sum_add (i c : ℕ) (t : K) (v : Ext K) : Run.sumStep i ⟨c, fin t⟩ (prep v) none = ⟨c + cnt v, fin (t + num v)⟩ := by
  cases v <;> simp [Run.sumStep, Run.SumSt.add, prep, cnt, num]

theorem sum_swap (i c : ℕ) (t : K) (v o : Ext K) :
    Run.sumStep i ⟨c, fin t⟩ (prep v) (some (prep o)) = ⟨c + cnt v - cnt o, fin (t + num v - num o)⟩ := by
  cases v <;> cases o <;> simp [Run.sumStep, Run.SumSt.add, Run.SumSt.remove, prep, cnt, num]

theorem sum_state (xs : List (Ext K)) {w : ℕ} (hw : 1 ≤ w) : ∀ i, i ≤ xs.length → Run.state w Run.sumStep ⟨0, lit 0⟩ (prepL xs) i =
    (⟨∑ j ∈ Ico (i - w) i, cnt (xs.getD j nan), fin (∑ j ∈ Ico (i - w) i, num (xs.getD j nan))⟩ : Run.SumSt (Ext K)) := by
  intro i
  induction i with
  | zero => intro _; simp [Run.state]
  | succ i ih =>
    intro hi
    rw [state_succ hw _ _ xs (by omega), ih (by omega)]
    have c := slide (fun j => cnt (xs.getD j (nan : Ext K))) hw i
    have s := slide (fun j => num (xs.getD j (nan : Ext K))) hw i
    by_cases h : w ≤ i
    · rw [if_pos h] at c s ⊢
      rw [sum_swap, ← c, ← s, Nat.add_sub_cancel, add_sub_cancel_right]
    · rw [if_neg h, add_zero] at c s
      rw [if_neg h, sum_add, c, s]

theorem winSum_Ico (x : ℕ → K) {w i : ℕ} (hw : w ≤ i + 1) : Spec.winSum x w i = ∑ j ∈ Ico (i + 1 - w) (i + 1), x j := by
  unfold Spec.winSum
  refine sum_nbij' (fun j => i - j) (fun j => i - j) ?_ ?_ ?_ ?_ ?_
  · intro j hj
    have := mem_range.mp hj
    exact mem_Ico.mpr ⟨by omega, by omega⟩
  · intro j hj
    have := mem_Ico.mp hj
    exact mem_range.mpr (by omega)
  · intro j hj
    have := mem_range.mp hj
    omega
  · intro j hj
    have := mem_Ico.mp hj
    omega
  · intro j _; rfl

theorem run_sum (xs : List (Ext K)) {w : ℕ} (hw : 1 ≤ w) : Run.sum w xs = rollL w aggSum xs := by
  refine loop_eq _ _ _ _ xs fun i hi hwi => ?_
  rw [sum_state xs hw (i + 1) hi]
  unfold aggSum
  rw [agg_window _ _ hwi]
  by_cases h : w ≤ ∑ j ∈ Ico (i + 1 - w) (i + 1), cnt (xs.getD j (nan : Ext K))
  · rw [if_pos h]
    simp only [h, if_true]
    exact ((aggSum_wnd (fun j => num (xs.getD j (nan : Ext K))) hwi).trans (by rw [winSum_Ico _ hwi])).symm
  · rw [if_neg h]
    simp only [h, if_false]

/-! ## means -/

/-- 1 for negative numbers -/
def ngt (v : Ext K) : ℕ := if num v < 0 then 1 else 0

theorem mean_add (i c d : ℕ) (t : K) (v : Ext K) :
    Run.meanStep i ⟨c, d, fin t⟩ (prep v) none = ⟨c + cnt v, d + ngt v, fin (t + num v)⟩ := by
  cases v with
  | fin x => by_cases h : x < 0 <;> simp [Run.meanStep, Run.MeanSt.add, prep, cnt, num, ngt, h]
  | _ => simp [Run.meanStep, Run.MeanSt.add, prep, cnt, num, ngt]

theorem mean_swap (i c d : ℕ) (t : K) (v o : Ext K) :
    Run.meanStep i ⟨c, d, fin t⟩ (prep v) (some (prep o)) = ⟨c + cnt v - cnt o, d + ngt v - ngt o, fin (t + num v - num o)⟩ := by
  have e : Run.meanStep i ⟨c, d, fin t⟩ (prep v) (some (prep o)) = (Run.meanStep i ⟨c, d, fin t⟩ (prep v) none).remove (prep o) := rfl
  rw [e, mean_add]
  cases o with
  | fin x => by_cases h : x < 0 <;> simp [Run.MeanSt.remove, prep, cnt, num, ngt, h]
  | _ => simp [Run.MeanSt.remove, prep, cnt, num, ngt]

theorem mean_state (xs : List (Ext K)) {w : ℕ} (hw : 1 ≤ w) : ∀ i, i ≤ xs.length → Run.state w Run.meanStep ⟨0, 0, lit 0⟩ (prepL xs) i =
    (⟨∑ j ∈ Ico (i - w) i, cnt (xs.getD j nan), ∑ j ∈ Ico (i - w) i, ngt (xs.getD j nan),
      fin (∑ j ∈ Ico (i - w) i, num (xs.getD j nan))⟩ : Run.MeanSt (Ext K)) := by
  intro i
  induction i with
  | zero => intro _; simp [Run.state]
  | succ i ih =>
    intro hi
    rw [state_succ hw _ _ xs (by omega), ih (by omega)]
    have c := slide (fun j => cnt (xs.getD j (nan : Ext K))) hw i
    have s := slide (fun j => num (xs.getD j (nan : Ext K))) hw i
    have d := slide (fun j => ngt (xs.getD j (nan : Ext K))) hw i
    by_cases h : w ≤ i
    · rw [if_pos h] at c s d ⊢
      rw [mean_swap, ← c, ← s, ← d, Nat.add_sub_cancel, Nat.add_sub_cancel, add_sub_cancel_right]
    · rw [if_neg h, add_zero] at c s d
      rw [if_neg h, mean_add, c, s, d]

theorem run_mean (xs : List (Ext K)) {w : ℕ} (hw : 1 ≤ w) : Run.mean w xs = rollL w aggMean xs := by
  refine loop_eq _ _ _ _ xs fun i hi hwi => ?_
  rw [mean_state xs hw (i + 1) hi]
  have hle := cnt_le (fun j => xs.getD j (nan : Ext K)) hwi
  unfold aggMean
  rw [agg_window _ _ hwi]
  by_cases h : w ≤ ∑ j ∈ Ico (i + 1 - w) (i + 1), cnt (xs.getD j (nan : Ext K))
  · rw [if_pos h]
    have hN : ∑ j ∈ Ico (i + 1 - w) (i + 1), cnt (xs.getD j (nan : Ext K)) = w := le_antisymm hle h
    refine Eq.trans ?_ (aggMean_wnd (fun j => num (xs.getD j (nan : Ext K))) hw hwi).symm
    have hwk : (w : K) ≠ 0 := by exact_mod_cast (by omega : w ≠ 0)
    have hwp : (0 : K) < w := by exact_mod_cast hw
    unfold Run.meanOut
    simp only [hN, le_refl, if_true]
    rw [show (lit ((w : ℕ) : ℚ) : Ext K) = fin (w : K) from by simp, Ext.fin_div _ hwk,
      show (lit 0 : Ext K) = fin 0 from by simp, Ext.lt_fin, Ext.lt_fin, ← winSum_Ico _ hwi]
    have hs := winSum_Ico (fun j => num (xs.getD j (nan : Ext K))) hwi
    have h1 : ¬ (∑ j ∈ Ico (i + 1 - w) (i + 1), ngt (xs.getD j (nan : Ext K)) = 0 ∧
        decide (Spec.winSum (fun j => num (xs.getD j (nan : Ext K))) w i / w < 0) = true) := by
      rintro ⟨e1, e2⟩
      have e2 := of_decide_eq_true e2
      have : 0 ≤ Spec.winSum (fun j => num (xs.getD j (nan : Ext K))) w i := by
        rw [hs]
        refine sum_nonneg fun j hj => ?_
        have := (sum_eq_zero_iff.mp e1) j hj
        unfold ngt at this
        by_contra hc
        rw [if_pos (lt_of_not_ge hc)] at this
        exact absurd this (by norm_num)
      exact absurd e2 (not_lt.mpr (div_nonneg this hwp.le))
    have h2 : ¬ (∑ j ∈ Ico (i + 1 - w) (i + 1), ngt (xs.getD j (nan : Ext K)) = w ∧
        decide (0 < Spec.winSum (fun j => num (xs.getD j (nan : Ext K))) w i / w) = true) := by
      rintro ⟨e1, e2⟩
      have e2 := of_decide_eq_true e2
      have : Spec.winSum (fun j => num (xs.getD j (nan : Ext K))) w i ≤ 0 := by
        rw [hs]
        refine sum_nonpos fun j hj => ?_
        by_contra hc
        have hj0 : ngt (xs.getD j (nan : Ext K)) < 1 := by
          unfold ngt
          rw [if_neg (fun h => hc h.le)]
          norm_num
        have hlt : ∑ j ∈ Ico (i + 1 - w) (i + 1), ngt (xs.getD j (nan : Ext K)) < ∑ j ∈ Ico (i + 1 - w) (i + 1), 1 :=
          sum_lt_sum (fun j _ => by unfold ngt; split_ifs <;> omega) ⟨j, hj, hj0⟩
        rw [sum_const, Nat.card_Ico, e1] at hlt
        simp at hlt
        omega
      exact absurd e2 (not_lt.mpr (div_nonpos_of_nonpos_of_nonneg this hwp.le))
    rw [if_neg h1, if_neg h2]
    rfl
  · rw [if_neg h]
    unfold Run.meanOut
    simp only [h, if_false]

/-! ## variances -/

theorem var_add {c : ℕ} {t q : K} (h0 : c = 0 → t = 0 ∧ q = 0) (v : Ext K) :
    Run.VarSt.add ⟨c, fin (t / c), fin (q - t ^ 2 / c)⟩ (prep v) =
      ⟨c + cnt v, fin ((t + num v) / (c + cnt v : ℕ)), fin (q + num v ^ 2 - (t + num v) ^ 2 / (c + cnt v : ℕ))⟩ := by
  cases v with
  | fin x =>
    have h1 : ((c : K) + 1) ≠ 0 := by positivity
    simp only [Run.VarSt.add, prep, cnt, num]
    simp [Ext.fin_div _ h1]
    rcases Nat.eq_zero_or_pos c with rfl | hc
    · obtain ⟨rfl, rfl⟩ := h0 rfl
      simp
    · have h2 : (c : K) ≠ 0 := by positivity
      constructor
      · field_simp; ring
      · field_simp; ring
  | _ => simp [Run.VarSt.add, prep, cnt, num]

theorem var_remove {c : ℕ} {t q : K} (o : Ext K) (hc : cnt o ≤ c) (h0 : c - cnt o = 0 → t - num o = 0 ∧ q - num o ^ 2 = 0) :
    Run.VarSt.remove ⟨c, fin (t / c), fin (q - t ^ 2 / c)⟩ (prep o) =
      ⟨c - cnt o, fin ((t - num o) / (c - cnt o : ℕ)), fin (q - num o ^ 2 - (t - num o) ^ 2 / (c - cnt o : ℕ))⟩ := by
  cases o with
  | fin x =>
    simp only [cnt] at hc h0
    obtain ⟨d, rfl⟩ := Nat.exists_eq_add_of_le' hc
    simp only [Run.VarSt.remove, prep, cnt, num]
    rcases Nat.eq_zero_or_pos d with rfl | hd
    · obtain ⟨h1, h2⟩ := h0 (by omega)
      simp only [num] at h1 h2
      simp [h1, h2]
    · have h2 : (d : K) ≠ 0 := by positivity
      have h3 : ((d : K) + 1) ≠ 0 := by positivity
      have h4 : d ≠ 0 := by omega
      simp [Ext.fin_div _ h2, h4]
      constructor
      · field_simp; ring
      · field_simp; ring
  | _ => simp [Run.VarSt.remove, prep, cnt, num]

theorem var_swap {c : ℕ} {t q x y : K} (hc : 1 ≤ c) :
    Run.VarSt.swap ⟨c, fin (t / c), fin (q - t ^ 2 / c)⟩ (fin x) (fin y) =
      ⟨c, fin ((t + x - y) / c), fin (q + x ^ 2 - y ^ 2 - (t + x - y) ^ 2 / c)⟩ := by
  have h2 : (c : K) ≠ 0 := by positivity
  simp only [Run.VarSt.swap]
  simp [Ext.fin_div _ h2]
  constructor
  · field_simp; ring
  · field_simp; ring

theorem var_state (xs : List (Ext K)) {w : ℕ} (hw : 1 ≤ w) : ∀ i, i ≤ xs.length →
    Run.state w Run.varStep ⟨0, lit 0, lit 0⟩ (prepL xs) i =
    (⟨∑ j ∈ Ico (i - w) i, cnt (xs.getD j nan),
      fin ((∑ j ∈ Ico (i - w) i, num (xs.getD j nan)) / (∑ j ∈ Ico (i - w) i, cnt (xs.getD j (nan : Ext K)) : ℕ)),
      fin (∑ j ∈ Ico (i - w) i, num (xs.getD j nan) ^ 2 -
        (∑ j ∈ Ico (i - w) i, num (xs.getD j nan)) ^ 2 / (∑ j ∈ Ico (i - w) i, cnt (xs.getD j (nan : Ext K)) : ℕ))⟩ : Run.VarSt (Ext K)) := by
  intro i
  induction i with
  | zero => intro _; simp [Run.state]
  | succ i ih =>
    intro hi
    rw [state_succ hw _ _ xs (by omega), ih (by omega)]
    have c := slide (fun j => cnt (xs.getD j (nan : Ext K))) hw i
    have s := slide (fun j => num (xs.getD j (nan : Ext K))) hw i
    have q := slide (fun j => num (xs.getD j (nan : Ext K)) ^ 2) hw i
    have z0 : ∑ j ∈ Ico (i - w) i, cnt (xs.getD j (nan : Ext K)) = 0 →
        ∑ j ∈ Ico (i - w) i, num (xs.getD j (nan : Ext K)) = 0 ∧ ∑ j ∈ Ico (i - w) i, num (xs.getD j (nan : Ext K)) ^ 2 = 0 := fun h =>
      ⟨cnt_zero (fun j => xs.getD j nan) (fun x => x) rfl h, cnt_zero (fun j => xs.getD j nan) (fun x => x ^ 2) (by simp) h⟩
    have z1 : ∑ j ∈ Ico (i + 1 - w) (i + 1), cnt (xs.getD j (nan : Ext K)) = 0 →
        ∑ j ∈ Ico (i + 1 - w) (i + 1), num (xs.getD j (nan : Ext K)) = 0 ∧
        ∑ j ∈ Ico (i + 1 - w) (i + 1), num (xs.getD j (nan : Ext K)) ^ 2 = 0 := fun h =>
      ⟨cnt_zero (fun j => xs.getD j nan) (fun x => x) rfl h, cnt_zero (fun j => xs.getD j nan) (fun x => x ^ 2) (by simp) h⟩
    by_cases h : w ≤ i
    · have hold : cnt (xs.getD (i - w) (nan : Ext K)) ≤ ∑ j ∈ Ico (i - w) i, cnt (xs.getD j (nan : Ext K)) :=
        single_le_sum (f := fun j => cnt (xs.getD j (nan : Ext K))) (fun _ _ => Nat.zero_le _) (mem_Ico.mpr ⟨le_rfl, by omega⟩)
      rw [if_pos h] at c s q ⊢
      generalize ∑ j ∈ Ico (i + 1 - w) (i + 1), cnt (xs.getD j (nan : Ext K)) = c1 at *
      generalize ∑ j ∈ Ico (i + 1 - w) (i + 1), num (xs.getD j (nan : Ext K)) = s1 at *
      generalize ∑ j ∈ Ico (i + 1 - w) (i + 1), num (xs.getD j (nan : Ext K)) ^ 2 = q1 at *
      generalize ∑ j ∈ Ico (i - w) i, cnt (xs.getD j (nan : Ext K)) = c0 at *
      generalize ∑ j ∈ Ico (i - w) i, num (xs.getD j (nan : Ext K)) = s0 at *
      generalize ∑ j ∈ Ico (i - w) i, num (xs.getD j (nan : Ext K)) ^ 2 = q0 at *
      generalize xs.getD i (nan : Ext K) = v at *
      generalize xs.getD (i - w) (nan : Ext K) = o at *
      rcases prep_cases v with ⟨p1, p2, p3, _⟩ | ⟨p1, p2, p3, _⟩
      · have hc1 : c0 - cnt o = c1 := by omega
        have hs1 : s0 - num o = s1 := by rw [p3] at s; linarith
        have hq1 : q0 - num o ^ 2 = q1 := by rw [p3] at q; linarith
        have : Run.varStep i ⟨c0, fin (s0 / c0), fin (q0 - s0 ^ 2 / c0)⟩ (prep v) (some (prep o)) =
            Run.VarSt.remove ⟨c0, fin (s0 / c0), fin (q0 - s0 ^ 2 / c0)⟩ (prep o) := by
          rw [p1]; rfl
        rw [this, var_remove o hold (by rw [hc1, hs1, hq1]; exact z1), hc1, hs1, hq1]
      · rcases prep_cases o with ⟨r1, r2, r3, _⟩ | ⟨r1, r2, r3, _⟩
        · have hc1 : c0 + cnt v = c1 := by omega
          have hs1 : s0 + num v = s1 := by rw [r3] at s; linarith
          have hq1 : q0 + num v ^ 2 = q1 := by rw [r3] at q; linarith
          have : Run.varStep i ⟨c0, fin (s0 / c0), fin (q0 - s0 ^ 2 / c0)⟩ (prep v) (some (prep o)) =
              Run.VarSt.add ⟨c0, fin (s0 / c0), fin (q0 - s0 ^ 2 / c0)⟩ (prep v) := by
            rw [p1, r1]; rfl
          rw [this, var_add z0, hc1, hs1, hq1]
        · have hc1 : c1 = c0 := by omega
          have hs1 : s0 + num v - num o = s1 := by linarith
          have hq1 : q0 + num v ^ 2 - num o ^ 2 = q1 := by linarith
          have : Run.varStep i ⟨c0, fin (s0 / c0), fin (q0 - s0 ^ 2 / c0)⟩ (prep v) (some (prep o)) =
              Run.VarSt.swap ⟨c0, fin (s0 / c0), fin (q0 - s0 ^ 2 / c0)⟩ (fin (num v)) (fin (num o)) := by
            rw [p1, r1]; rfl
          rw [this, var_swap (by omega), hs1, hq1, hc1]
    · rw [if_neg h, add_zero] at c s q
      rw [if_neg h, c, s, q]
      exact var_add z0 _

theorem winVar_sq (x : ℕ → K) {ddof w i : ℕ} (hw : 1 ≤ w) (hwi : w ≤ i + 1) :
    Spec.winVar ddof x w i = (∑ j ∈ Ico (i + 1 - w) (i + 1), x j ^ 2 - (∑ j ∈ Ico (i + 1 - w) (i + 1), x j) ^ 2 / w) / ((w : K) - ddof) := by
  have hk : (w : K) ≠ 0 := by exact_mod_cast (by omega : w ≠ 0)
  rw [← winSum_Ico _ hwi, ← winSum_Ico _ hwi]
  unfold Spec.winVar
  congr 1
  have h1 : ∑ k ∈ range w, x (i - k) = w * Spec.winMean x w i := by
    unfold Spec.winMean Spec.winSum; rw [mul_div_cancel₀ _ hk]
  have : ∀ k ∈ range w, (x (i - k) - Spec.winMean x w i) ^ 2 =
      x (i - k) ^ 2 - 2 * Spec.winMean x w i * x (i - k) + Spec.winMean x w i ^ 2 := fun k _ => by ring
  rw [sum_congr rfl this, sum_add_distrib, sum_sub_distrib, ← mul_sum, h1, sum_const, card_range, nsmul_eq_mul]
  unfold Spec.winSum
  rw [h1]
  field_simp
  ring

theorem run_var (ddof : ℕ) (xs : List (Ext K)) {w : ℕ} (hw : 1 ≤ w) : Run.var ddof w xs = rollL w (aggVar ddof) xs := by
  refine loop_eq _ _ _ _ xs fun i hi hwi => ?_
  rw [var_state xs hw (i + 1) hi]
  have hle := cnt_le (fun j => xs.getD j (nan : Ext K)) hwi
  unfold aggVar
  rw [agg_window _ _ hwi]
  by_cases h : w ≤ ∑ j ∈ Ico (i + 1 - w) (i + 1), cnt (xs.getD j (nan : Ext K))
  · rw [if_pos h]
    have hN : ∑ j ∈ Ico (i + 1 - w) (i + 1), cnt (xs.getD j (nan : Ext K)) = w := le_antisymm hle h
    rw [hN]
    unfold Run.varOut
    by_cases hd : ddof < w
    · refine Eq.trans ?_ (aggVar_wnd ddof (fun j => num (xs.getD j (nan : Ext K))) hd hwi).symm
      have hdk : (ddof : K) < w := by exact_mod_cast hd
      have hdk' : (w : K) - ddof ≠ 0 := by intro h; linarith
      have h0 : 0 ≤ Spec.winVar ddof (fun j => num (xs.getD j (nan : Ext K))) w i :=
        div_nonneg (sum_nonneg fun k _ => sq_nonneg _) (by linarith)
      simp only [le_refl, hd, and_self, if_true]
      rw [show (lit ((w : ℚ) - ddof) : Ext K) = fin ((w : K) - ddof) from by simp, Ext.fin_div _ hdk', ← winVar_sq _ hw hwi,
        show (lit 0 : Ext K) = fin 0 from by simp, Ext.lt_fin]
      by_cases h1 : w = 1
      · rw [if_pos h1]
        subst h1
        have : Spec.winVar ddof (fun j => num (xs.getD j (nan : Ext K))) 1 i = 0 := by
          unfold Spec.winVar Spec.winMean Spec.winSum
          simp
        rw [this]
      · rw [if_neg h1, if_neg (by simpa using h0)]
    · rw [if_neg fun h => hd h.2]
      unfold whenAllFin
      split_ifs with h1
      · simp only [wnd_length]
        rw [if_neg hd]
      · rfl
  · rw [if_neg h]
    unfold Run.varOut
    simp only [h, false_and, if_false]

/-! ## greatest and least -/

section best
variable {V : Type} {better : V → V → Bool} {D : V → Prop} (tot : ∀ u v, D u → D v → better u v = true ∨ better v u = true)
  (tra : ∀ u v t, D u → D v → D t → better u v = true → better v t = true → better u t = true)

/-- the candidates after bar `i` of the values `z`: members of the window, in the order of bars, each one better than those after it; for
each bar of the window there is a candidate, not earlier, which is as good -/
structure Cands (better : V → V → Bool) (z : ℕ → V) (w i : ℕ) (c : List (V × ℕ)) : Prop where
  mem : ∀ q ∈ c, ∃ j, q.2 = j + w ∧ j ≤ i ∧ i < j + w ∧ q.1 = z j
  sorted : c.Pairwise fun p q => p.2 < q.2 ∧ better q.1 p.1 = false
  cover : ∀ j, j ≤ i → i < j + w → ∃ q ∈ c, j + w ≤ q.2 ∧ better q.1 (z j) = true

/-- removing the candidate which leaves the window -/
def expire (i : ℕ) (c : List (V × ℕ)) : List (V × ℕ) :=
  match c with
  | [] => []
  | (u, d) :: c => if d = i then c else (u, d) :: c

theorem expire_spec {z : ℕ → V} {w i : ℕ} {c : List (V × ℕ)} (h : Cands better z w i c) :
    (∀ q ∈ expire (i + 1) c, ∃ j, q.2 = j + w ∧ j ≤ i ∧ i + 1 < j + w ∧ q.1 = z j) ∧
    ((expire (i + 1) c).Pairwise fun p q => p.2 < q.2 ∧ better q.1 p.1 = false) ∧
    ∀ j, j ≤ i → i + 1 < j + w → ∃ q ∈ expire (i + 1) c, j + w ≤ q.2 ∧ better q.1 (z j) = true := by
  obtain ⟨h1, h2, h3⟩ := h
  match c, h1, h2, h3 with
  | [], _, _, h3 =>
    refine ⟨fun q hq => ?_, List.Pairwise.nil, fun j j1 j2 => ?_⟩
    · simp [expire] at hq
    · obtain ⟨q, hq, _⟩ := h3 j j1 (by omega)
      simp at hq
  | (u, d) :: c, h1, h2, h3 =>
    obtain ⟨h4, h5⟩ := List.pairwise_cons.mp h2
    obtain ⟨j0, e1, e2, e3, _⟩ := h1 (u, d) List.mem_cons_self
    simp only at e1
    unfold expire
    by_cases hd : d = i + 1
    · simp only [hd, if_true]
      refine ⟨fun q hq => ?_, h5, fun j j1 j2 => ?_⟩
      · obtain ⟨j, f1, f2, f3, f4⟩ := h1 q (List.mem_cons_of_mem _ hq)
        have := (h4 q hq).1
        simp only at this
        exact ⟨j, f1, f2, by omega, f4⟩
      · obtain ⟨q, hq, g1, g2⟩ := h3 j j1 (by omega)
        rcases List.mem_cons.mp hq with rfl | hq
        · simp only at g1; omega
        · exact ⟨q, hq, g1, g2⟩
    · simp only [hd, if_false]
      refine ⟨fun q hq => ?_, h2, fun j j1 j2 => h3 j j1 (by omega)⟩
      obtain ⟨j, f1, f2, f3, f4⟩ := h1 q hq
      refine ⟨j, f1, f2, ?_, f4⟩
      rcases List.mem_cons.mp hq with rfl | hq
      · simp only at f1; omega
      · have := (h4 q hq).1
        simp only at this
        omega

theorem drop_last (p : V × ℕ → Bool) (c : List (V × ℕ)) : ∃ L E, c = L ++ E ∧ (c.reverse.dropWhile p).reverse = L ∧
    (∀ q ∈ E, p q = true) ∧ (∀ l L', L = L' ++ [l] → p l = false) := by
  refine ⟨(c.reverse.dropWhile p).reverse, (c.reverse.takeWhile p).reverse, ?_, rfl, ?_, ?_⟩
  · rw [← List.reverse_append, List.takeWhile_append_dropWhile, List.reverse_reverse]
  · intro q hq
    exact List.all_eq_true.mp (List.all_takeWhile (l := c.reverse) (p := p)) q (List.mem_reverse.mp hq)
  · intro l L' h
    have h2 : c.reverse.dropWhile p = l :: L'.reverse := by
      rw [← List.reverse_reverse (c.reverse.dropWhile p), h]; simp
    by_contra hc
    have hne : c.reverse.dropWhile p ≠ [] := by rw [h2]; simp
    have := List.head_dropWhile_not p (l := c.reverse) hne
    simp only [h2, List.head_cons] at this
    simp [this] at hc

include tot tra in
theorem cands_step {z : ℕ → V} {w i : ℕ} (hw : 1 ≤ w) (hD : ∀ j, D (z j)) {c : List (V × ℕ)} (h : Cands better z w i c) :
    Cands better z w (i + 1) (((expire (i + 1) c).reverse.dropWhile fun q => better (z (i + 1)) q.1).reverse ++ [(z (i + 1), i + 1 + w)]) := by
  obtain ⟨h1, h2, h3⟩ := expire_spec h
  obtain ⟨L, E, e1, e2, e3, e4⟩ := drop_last (fun q => better (z (i + 1)) q.1) (expire (i + 1) c)
  rw [e2]
  rw [e1] at h1 h2 h3
  obtain ⟨h5, _, _⟩ := List.pairwise_append.mp h2
  have refl : ∀ u, D u → better u u = true := fun u hu => (tot u u hu hu).elim id id
  have hDL : ∀ q ∈ L, D q.1 := fun q hq => by
    obtain ⟨j, _, _, _, f⟩ := h1 q (List.mem_append_left _ hq)
    rw [f]; exact hD j
  have hworse : ∀ q ∈ L, better (z (i + 1)) q.1 = false := by
    intro q hq
    rcases List.eq_nil_or_concat L with h6 | ⟨L', l, h6⟩
    · rw [h6] at hq; simp at hq
    · have h6 : L = L' ++ [l] := by rw [h6, List.concat_eq_append]
      have h7 := e4 l L' h6
      rw [h6] at hq h5
      rcases List.mem_append.mp hq with hq | hq
      · have h8 := ((List.pairwise_append.mp h5).2.2 q hq l (by simp)).2
        by_contra hc
        have hc : better (z (i + 1)) q.1 = true := by simpa using hc
        have hDq := hDL q (by rw [h6]; exact List.mem_append_left _ hq)
        have hDl := hDL l (by rw [h6]; simp)
        have h9 : better q.1 l.1 = true := (tot q.1 l.1 hDq hDl).resolve_right (by simp [h8])
        have := tra _ _ _ (hD _) hDq hDl hc h9
        rw [this] at h7
        exact absurd h7 (by simp)
      · rw [List.mem_singleton.mp hq]; exact h7
  refine ⟨fun q hq => ?_, ?_, fun j j1 j2 => ?_⟩
  · rcases List.mem_append.mp hq with hq | hq
    · obtain ⟨j, f1, f2, f3, f4⟩ := h1 q (List.mem_append_left _ hq)
      exact ⟨j, f1, by omega, f3, f4⟩
    · rw [List.mem_singleton.mp hq]
      exact ⟨i + 1, rfl, le_rfl, by omega, rfl⟩
  · refine List.pairwise_append.mpr ⟨h5, List.pairwise_singleton _ _, fun p hp q hq => ?_⟩
    rw [List.mem_singleton.mp hq]
    obtain ⟨j, f1, f2, _⟩ := h1 p (List.mem_append_left _ hp)
    exact ⟨by simp only; omega, hworse p hp⟩
  · rcases Nat.lt_or_ge i j with hj | hj
    · obtain rfl : j = i + 1 := by omega
      exact ⟨_, List.mem_append_right _ (List.mem_singleton.mpr rfl), le_rfl, refl _ (hD _)⟩
    · obtain ⟨q, hq, g1, g2⟩ := h3 j hj j2
      rcases List.mem_append.mp hq with hq' | hq'
      · exact ⟨q, List.mem_append_left _ hq', g1, g2⟩
      · refine ⟨_, List.mem_append_right _ (List.mem_singleton.mpr rfl), by simp only; omega, ?_⟩
        obtain ⟨k, _, _, _, f⟩ := h1 q hq
        exact tra _ _ _ (hD _) (by rw [f]; exact hD k) (hD j) (e3 q hq') g2

include tot tra in
/-- the first candidate is one of the window and as good as all of them -/
theorem cands_head {z : ℕ → V} {w i : ℕ} (hw : 1 ≤ w) (hD : ∀ j, D (z j)) {c : List (V × ℕ)} (h : Cands better z w i c) :
    ∃ u d c', c = (u, d) :: c' ∧ (∃ j, j ≤ i ∧ i < j + w ∧ u = z j) ∧ ∀ j, j ≤ i → i < j + w → better u (z j) = true := by
  obtain ⟨q0, hq0, _⟩ := h.cover i le_rfl (by omega)
  match c, h, hq0 with
  | (u, d) :: c', h, _ =>
    obtain ⟨j0, _, f2, f3, f4⟩ := h.mem (u, d) List.mem_cons_self
    refine ⟨u, d, c', rfl, ⟨j0, f2, f3, f4⟩, fun j j1 j2 => ?_⟩
    obtain ⟨q, hq, _, g⟩ := h.cover j j1 j2
    rcases List.mem_cons.mp hq with rfl | hq
    · exact g
    · have h1 := ((List.pairwise_cons.mp h.sorted).1 q hq).2
      obtain ⟨k, _, _, _, e⟩ := h.mem q (List.mem_cons_of_mem _ hq)
      have hDu : D u := by simp only at f4; rw [f4]; exact hD j0
      have hDq : D q.1 := by rw [e]; exact hD k
      exact tra _ _ _ hDu hDq (hD j) ((tot u q.1 hDu hDq).resolve_right (by simp only at h1; simp [h1])) g

end best

/-- the value which stands for a bar -/
def standIn (worst v : Ext K) : Ext K := if PyFloat.isNaN (prep v) then worst else prep v

theorem standIn_fin (worst : Ext K) {v : Ext K} (h : isFin v = true) : standIn worst v = fin (num v) := by
  cases v <;> simp_all [standIn, prep, num]

theorem max_state {better : Ext K → Ext K → Bool} {D : Ext K → Prop} (tot : ∀ u v, D u → D v → better u v = true ∨ better v u = true)
    (tra : ∀ u v t, D u → D v → D t → better u v = true → better v t = true → better u t = true)
    {worst : Ext K} (hD : ∀ v, D (standIn worst v)) (xs : List (Ext K)) {w : ℕ} (hw : 1 ≤ w) : ∀ i, i < xs.length →
    (Run.state w (Run.maxStep better worst w) ⟨0, []⟩ (prepL xs) (i + 1)).nobs = ∑ j ∈ Ico (i + 1 - w) (i + 1), cnt (xs.getD j (nan : Ext K)) ∧
    Cands better (fun j => standIn worst (xs.getD j nan)) w i
      (Run.state w (Run.maxStep better worst w) ⟨0, []⟩ (prepL xs) (i + 1)).cand := by
  have nobs : ∀ i (s : Run.MaxSt (Ext K)) (v : Ext K) (o : Option (Ext K)), (Run.maxStep better worst w i s (prep v) (o.map prep)).nobs =
      s.nobs + cnt v - (match o with | none => 0 | some o => cnt o) := by
    intro i s v o
    cases o with
    | none => cases v <;> simp [Run.maxStep, prep, cnt]
    | some o => cases v <;> cases o <;> simp [Run.maxStep, prep, cnt]
  have omap : ∀ i, (if w ≤ i then some (prep (xs.getD (i - w) (nan : Ext K))) else none) =
      (if w ≤ i then some (xs.getD (i - w) (nan : Ext K)) else none).map prep := fun i => by
    by_cases h : w ≤ i <;> simp [h]
  intro i
  induction i with
  | zero =>
    intro hi
    rw [state_succ hw _ _ xs hi, omap]
    refine ⟨?_, ?_⟩
    · rw [nobs, if_neg (by omega)]
      simp [Run.state, show 0 + 1 - w = 0 by omega]
    · refine ⟨fun q hq => ?_, ?_, fun j j1 j2 => ?_⟩
      · simp only [Run.maxStep, Run.state, List.reverse_nil, List.dropWhile_nil, List.nil_append, List.mem_singleton] at hq
        subst hq
        exact ⟨0, rfl, le_rfl, by omega, rfl⟩
      · simp [Run.maxStep, Run.state]
      · obtain rfl : j = 0 := by omega
        refine ⟨(standIn worst (xs.getD 0 nan), 0 + w), ?_, le_rfl, (tot _ _ (hD _) (hD _)).elim id id⟩
        simp only [Run.maxStep, Run.state, List.reverse_nil, List.dropWhile_nil, List.nil_append, List.mem_singleton]
        rfl
  | succ i ih =>
    intro hi
    obtain ⟨h1, h2⟩ := ih (by omega)
    rw [state_succ hw _ _ xs hi, omap]
    refine ⟨?_, ?_⟩
    · rw [nobs, h1]
      have h3 := slide (fun j => cnt (xs.getD j (nan : Ext K))) hw (i + 1)
      by_cases h : w ≤ i + 1
      · rw [if_pos h] at h3 ⊢
        simp only
        omega
      · rw [if_neg h] at h3 ⊢
        simp only
        omega
    · exact cands_step tot tra hw (fun j => hD _) h2

/-- the loop gives the best value of each window with numbers only -/
theorem run_best {better : Ext K → Ext K → Bool} {D : Ext K → Prop} (tot : ∀ u v, D u → D v → better u v = true ∨ better v u = true)
    (tra : ∀ u v t, D u → D v → D t → better u v = true → better v t = true → better u t = true)
    {worst : Ext K} (hD : ∀ v, D (standIn worst v)) (f : List (Ext K) → Ext K)
    (hf : ∀ (x : ℕ → K) (u : K) (w i : ℕ), 1 ≤ w → w ≤ i + 1 → (∃ j, j ≤ i ∧ i < j + w ∧ u = x j) →
      (∀ j, j ≤ i → i < j + w → better (fin u) (fin (x j)) = true) → whenAllFin f (wnd (fun j => (fin (x j) : Ext K)) w i) = fin u)
    (xs : List (Ext K)) {w : ℕ} (hw : 1 ≤ w) :
    Run.loop w (Run.maxStep better worst w) ⟨0, []⟩ (Run.maxOut w) xs = rollL w (whenAllFin f) xs := by
  refine loop_eq _ _ _ _ xs fun i hi hwi => ?_
  obtain ⟨h1, h2⟩ := max_state tot tra hD xs hw i hi
  obtain ⟨u, d, c', e, ⟨j0, a1, a2, a3⟩, h3⟩ := cands_head tot tra hw (fun j => hD _) h2
  rw [agg_window _ _ hwi]
  unfold Run.maxOut
  rw [h1, e]
  by_cases h : w ≤ ∑ j ∈ Ico (i + 1 - w) (i + 1), cnt (xs.getD j (nan : Ext K))
  · rw [if_pos h, if_pos h]
    have hfin := (cnt_full _ hwi).mp h
    have hv : ∀ j, j ≤ i → i < j + w → standIn worst (xs.getD j nan) = fin (num (xs.getD j (nan : Ext K))) := fun j j1 j2 =>
      standIn_fin _ (hfin j (mem_Ico.mpr ⟨by omega, by omega⟩))
    rw [hv j0 a1 a2] at a3
    simp only
    rw [a3, hf (fun j => num (xs.getD j (nan : Ext K))) (num (xs.getD j0 (nan : Ext K))) w i hw hwi ⟨j0, a1, a2, rfl⟩]
    intro j j1 j2
    have := h3 j j1 j2
    rwa [hv j j1 j2, a3] at this
  · rw [if_neg h, if_neg h]

theorem run_max (xs : List (Ext K)) {w : ℕ} (hw : 1 ≤ w) : Run.max ninf w xs = rollL w aggMax xs := by
  refine run_best (D := fun u => u = ninf ∨ ∃ x, u = fin x) ?_ ?_ ?_ _ ?_ xs hw
  · rintro u v (rfl | ⟨x, rfl⟩) (rfl | ⟨y, rfl⟩)
    · left; rfl
    · right; rfl
    · left; rfl
    · rw [Ext.le_fin, Ext.le_fin, decide_eq_true_eq, decide_eq_true_eq]
      exact le_total _ _
  · rintro u v t (rfl | ⟨x, rfl⟩) (rfl | ⟨y, rfl⟩) (rfl | ⟨z, rfl⟩) h1 h2
    · rfl
    · exact h2
    · rfl
    · exact absurd h1 Bool.false_ne_true
    · rfl
    · exact absurd h2 Bool.false_ne_true
    · rfl
    · rw [Ext.le_fin, decide_eq_true_eq] at *
      exact le_trans h2 h1
  · intro v
    rcases prep_cases v with h | h
    · left; simp [standIn, h.1]
    · right; exact ⟨_, standIn_fin _ h.2.2.2⟩
  · intro x u w i hw hwi hu hb
    refine (aggMax_wnd x hw hwi).trans ?_
    congr 1
    refine (Spec.winMax_isGreatest x hw i).unique ⟨?_, ?_⟩
    · obtain ⟨j, j1, j2, rfl⟩ := hu
      exact ⟨i - j, by omega, by rw [show i - (i - j) = j by omega]⟩
    · rintro y ⟨k, k1, rfl⟩
      have := hb (i - k) (by omega) (by omega)
      rwa [Ext.le_fin, decide_eq_true_eq] at this

theorem run_min (xs : List (Ext K)) {w : ℕ} (hw : 1 ≤ w) : Run.min pinf w xs = rollL w aggMin xs := by
  refine run_best (D := fun u => u = pinf ∨ ∃ x, u = fin x) ?_ ?_ ?_ _ ?_ xs hw
  · rintro u v (rfl | ⟨x, rfl⟩) (rfl | ⟨y, rfl⟩)
    · left; rfl
    · right; rfl
    · left; rfl
    · rw [Ext.le_fin, Ext.le_fin, decide_eq_true_eq, decide_eq_true_eq]
      exact le_total _ _
  · rintro u v t (rfl | ⟨x, rfl⟩) (rfl | ⟨y, rfl⟩) (rfl | ⟨z, rfl⟩) h1 h2
    · rfl
    · exact h2
    · rfl
    · exact absurd h1 Bool.false_ne_true
    · rfl
    · exact absurd h2 Bool.false_ne_true
    · rfl
    · rw [Ext.le_fin, decide_eq_true_eq] at *
      exact le_trans h1 h2
  · intro v
    rcases prep_cases v with h | h
    · left; simp [standIn, h.1]
    · right; exact ⟨_, standIn_fin _ h.2.2.2⟩
  · intro x u w i hw hwi hu hb
    refine (aggMin_wnd x hw hwi).trans ?_
    congr 1
    refine (Spec.winMin_isLeast x hw i).unique ⟨?_, ?_⟩
    · obtain ⟨j, j1, j2, rfl⟩ := hu
      exact ⟨i - j, by omega, by rw [show i - (i - j) = j by omega]⟩
    · rintro y ⟨k, k1, rfl⟩
      have := hb (i - k) (by omega) (by omega)
      rwa [Ext.le_fin, decide_eq_true_eq] at this

/-! ## what the calls deliver -/

theorem loop_getD {V : Type} [PyFloat V] {σ : Type} {w : ℕ} (step : ℕ → σ → V → Option V → σ) (s0 : σ) (out : σ → V) (xs : List V) {i : ℕ}
    (hi : i < xs.length) : (Run.loop w step s0 out xs).getD i nan =
      if i + 1 < w then nan else out (Run.state w step s0 (prepL xs) (i + 1)) := by
  unfold Run.loop
  rw [List.getD_eq_getElem?_getD, List.getElem?_map, List.getElem?_range hi, Option.map_some, Option.getD_some]

theorem rollL_value (agg : List (Ext K) → Ext K) (xs : List (Ext K)) {w i : ℕ} (hw : w ≤ i + 1) (hi : i < xs.length) :
    (rollL w agg xs).getD i nan = agg (wnd (fun j => xs.getD j nan) w i) := by
  unfold rollL
  rw [List.getD_eq_getElem?_getD, List.getElem?_map, List.getElem?_range hi, Option.map_some, Option.getD_some, if_neg (by omega),
    window_list xs hi hw]

/-- C146: with values updated from bar to bar, sum, mean, variance, greatest and least at a bar are those of the last `w` values, whatever
values - also missing ones - came before. -/
theorem C146_windows_partial (xs : List (Ext K)) (x : ℕ → K) {w i : ℕ} (hw : 1 ≤ w) (hwi : w ≤ i + 1) (hi : i < xs.length)
    (hx : ∀ j, i + 1 ≤ j + w → j ≤ i → xs.getD j nan = fin (x j)) :
    (Run.sum w xs).getD i nan = fin (Spec.winSum x w i) ∧
    (Run.mean w xs).getD i nan = fin (Spec.winMean x w i) ∧
    (∀ ddof, ddof < w → (Run.var ddof w xs).getD i nan = fin (Spec.winVar ddof x w i)) ∧
    (Run.max ninf w xs).getD i nan = fin (Spec.winMax x w i) ∧
    (Run.min pinf w xs).getD i nan = fin (Spec.winMin x w i) := by
  have e : wnd (fun j => xs.getD j (nan : Ext K)) w i = wnd (fun j => fin (x j)) w i := wnd_congr hwi hx
  rw [run_sum xs hw, run_mean xs hw, run_max xs hw, run_min xs hw]
  refine ⟨?_, ?_, fun ddof hd => ?_, ?_, ?_⟩
  · rw [rollL_value _ xs hwi hi, e, aggSum_wnd x hwi]
  · rw [rollL_value _ xs hwi hi, e, aggMean_wnd x hw hwi]
  · rw [run_var ddof xs hw, rollL_value _ xs hwi hi, e, aggVar_wnd ddof x hd hwi]
  · rw [rollL_value _ xs hwi hi, e, aggMax_wnd x hw hwi]
  · rw [rollL_value _ xs hwi hi, e, aggMin_wnd x hw hwi]

/-- C146: they are NaN where the window is not full and where one of its values is missing or infinite, and only there. -/
theorem C146_missing_partial (xs : List (Ext K)) {w i : ℕ} (hw : 1 ≤ w) (hi : i < xs.length)
    (h : i + 1 < w ∨ ∃ j, i + 1 ≤ j + w ∧ j ≤ i ∧ ∀ y, xs.getD j nan ≠ fin y) :
    (Run.sum w xs).getD i nan = nan ∧ (Run.mean w xs).getD i nan = nan ∧ (∀ ddof, (Run.var ddof w xs).getD i nan = nan) ∧
    (Run.max ninf w xs).getD i nan = nan ∧ (Run.min pinf w xs).getD i nan = nan := by
  have key : ∀ f : List (Ext K) → Ext K, (rollL w (whenAllFin f) xs).getD i nan = nan := fun f => by
    by_cases hwi : i + 1 < w
    · unfold rollL
      rw [List.getD_eq_getElem?_getD, List.getElem?_map, List.getElem?_range hi, Option.map_some, Option.getD_some, if_pos hwi]
    · obtain ⟨j, j1, j2, j3⟩ := h.resolve_left hwi
      rw [rollL_value _ xs (by omega) hi, agg_window _ _ (by omega), if_neg]
      intro hc
      have := (cnt_full _ (by omega)).mp hc j (mem_Ico.mpr ⟨by omega, by omega⟩)
      rcases prep_cases (xs.getD j (nan : Ext K)) with h' | h'
      · rw [this] at h'; simp at h'
      · exact j3 _ h'.2.2.1
  rw [run_sum xs hw, run_mean xs hw, run_max xs hw, run_min xs hw]
  exact ⟨key _, key _, fun ddof => by rw [run_var ddof xs hw]; exact key _, key _, key _⟩

theorem run_rolling {V : Type} [PyFloat V] {p : ℕ} {kernel : List V → List V} {agg : List V → V} (h : ∀ xs, kernel xs = rollL p agg xs) (a : Line V) :
    Run.rolling p kernel a = Line.rolling p agg a := by
  obtain rfl : kernel = rollL p agg := funext h
  rfl

/-- C146: the outputs of the indicators are those described in the other theorems. -/
theorem C146_indicators_partial (a : Line (Ext K)) {p : ℕ} (hp : 1 ≤ p) :
    Run.rolling p (Run.sum p) a = Ind.sumN p a ∧
    Except.ok (Run.rolling p (Run.mean p) a) = Ind.sma p a ∧
    (∀ ddof, Run.rolling p (Run.var ddof p) a = Ind.var ddof p a) ∧
    (∀ (sq : Ext K → Ext K) (ddof : ℕ), sq nan = nan → Run.rolling p (Run.std sq ddof p) a = Ind.stddev sq ddof p a) ∧
    Run.rolling p (Run.max ninf p) a = Ind.highest p a ∧
    Run.rolling p (Run.min pinf p) a = Ind.lowest p a := by
  refine ⟨run_rolling (fun xs => run_sum xs hp) a, congrArg Except.ok (run_rolling (fun xs => run_mean xs hp) a),
    fun ddof => run_rolling (fun xs => run_var ddof xs hp) a, fun sq ddof hs => run_rolling (fun xs => ?_) a,
    run_rolling (fun xs => run_max xs hp) a, run_rolling (fun xs => run_min xs hp) a⟩
  unfold Run.std
  rw [run_var _ _ hp]
  unfold rollL
  rw [List.map_map]
  refine List.map_congr_left fun i _ => ?_
  by_cases h : i + 1 < p
  · simp only [Function.comp_apply, if_pos h, hs]
  · simp only [Function.comp_apply, if_neg h]

/-- the data of the examples: numbers, a missing one, an infinite one -/
def runEx : List (Ext ℚ) := [fin 5, fin 3, nan, fin 4, fin (-1), fin 2, pinf, fin 7, fin 1, fin 1]

example : Run.sum 2 runEx = [nan, fin 8, nan, nan, fin 3, fin 1, nan, nan, fin 8, fin 2] ∧
    Run.mean 2 runEx = [nan, fin 4, nan, nan, fin (3/2), fin (1/2), nan, nan, fin 4, fin 1] ∧
    Run.var 0 2 runEx = [nan, fin 1, nan, nan, fin (25/4), fin (9/4), nan, nan, fin 9, fin 0] ∧
    Run.max ninf 2 runEx = [nan, fin 5, nan, nan, fin 4, fin 2, nan, nan, fin 7, fin 1] ∧
    Run.min pinf 2 runEx = [nan, fin 3, nan, nan, fin (-1), fin (-1), nan, nan, fin 1, fin 1] := by decide +kernel

example : (Run.sum 2 runEx).getD 9 nan = fin (Spec.winSum (fun _ => (1 : ℚ)) 2 9) :=
  (C146_windows_partial runEx (fun _ => 1) (by omega) (by omega) (by decide) (by
    intro j h1 h2
    have : j = 8 ∨ j = 9 := by omega
    rcases this with rfl | rfl <;> rfl)).1

example : (Run.max ninf 2 runEx).getD 7 nan = nan :=
  (C146_missing_partial runEx (by omega) (by decide) (Or.inr ⟨6, by omega, by omega, by intro y h; exact absurd h (by simp [runEx])⟩)).2.2.2.1

/-! ## double precision -/

/-- C146: greatest and least are exact in double precision, and under each other rounding. -/
theorem C146_extremes (R : Rounding) (a : Line (Flt R)) {p : ℕ} (hp : 1 ≤ p) :
    Run.rolling p (Run.max (Ext.ninf : Ext ℚ) p) a = Ind.highest p a ∧
    Run.rolling p (Run.min (Ext.pinf : Ext ℚ) p) a = Ind.lowest p a :=
  ⟨(C146_indicators_partial (K := ℚ) a hp).2.2.2.2.1, (C146_indicators_partial (K := ℚ) a hp).2.2.2.2.2⟩

/-- one price of 2^53, then the price 3 for ever -/
def spike (n : ℕ) : List (Flt binary64) := lit (2 ^ 53) :: List.replicate n (lit 3)

theorem spike_length (n : ℕ) : (spike n).length = n + 1 := by simp [spike]

theorem spike_get (n : ℕ) {i : ℕ} (h1 : 1 ≤ i) (h2 : i ≤ n) : (prepL (spike n)).getD i nan = (lit 3 : Flt binary64) := by
  obtain ⟨k, rfl⟩ : ∃ k, i = k + 1 := ⟨i - 1, by omega⟩
  unfold prepL spike
  rw [List.getD_eq_getElem?_getD, List.map_cons, List.getElem?_cons_succ, List.getElem?_map, List.getElem?_replicate, if_pos (by omega)]
  decide +kernel

theorem spike_state {σ : Type} (step : ℕ → σ → Flt binary64 → Option (Flt binary64) → σ) (s0 s : σ)
    (h1 : step 2 (step 1 (step 0 s0 (lit (2 ^ 53)) none) (lit 3) none) (lit 3) (some (lit (2 ^ 53))) = s)
    (h2 : ∀ i, step i s (lit 3) (some (lit 3)) = s) {n i : ℕ} (hi : 2 ≤ i) (hn : i ≤ n) :
    Run.state 2 step s0 (prepL (spike n)) (i + 1) = s := by
  have g0 : (prepL (spike n)).getD 0 nan = (lit (2 ^ 53) : Flt binary64) := by
    change (if isFin (lit (2 ^ 53) : Flt binary64) = true then (lit (2 ^ 53) : Flt binary64) else nan) = _
    decide +kernel
  induction i with
  | zero => omega
  | succ i ih =>
    rcases Nat.lt_or_ge i 2 with h | h
    · obtain rfl : i = 1 := by omega
      simp only [Run.state, g0, spike_get n (show 1 ≤ 1 by omega) (by omega), spike_get n (show 1 ≤ 1 + 1 by omega) (by omega)]
      exact h1
    · rw [Run.state, ih h (by omega), spike_get n (by omega) hn, if_pos (by omega), spike_get n (by omega) (by omega)]
      exact h2 (i + 1)

/-- C146 fails in double precision: after one price of 2^53 and however many bars with the price 3, the sum of two bars is 8, the simple
moving average 4 and the variance 2^52, while the sums etc. of the windows are 6, 3 and 0. -/
theorem C146_binary64_false {n i : ℕ} (hi : 2 ≤ i) (hn : i ≤ n) :
    (Run.sum 2 (spike n)).getD i nan = lit 8 ∧ (Run.mean 2 (spike n)).getD i nan = lit 4 ∧
    (Run.var 0 2 (spike n)).getD i nan = lit (2 ^ 52) ∧
    (rollL 2 aggSum (spike n)).getD i nan = lit 6 ∧ (rollL 2 aggMean (spike n)).getD i nan = lit 3 ∧
    (rollL 2 (aggVar 0) (spike n)).getD i nan = lit 0 := by
  have hl : i < (spike n).length := by rw [spike_length]; omega
  have hw : ∀ agg : List (Flt binary64) → Flt binary64, (rollL 2 agg (spike n)).getD i nan = agg [lit 3, lit 3] := fun agg => by
    unfold rollL
    rw [List.getD_eq_getElem?_getD, List.getElem?_map, List.getElem?_range hl, Option.map_some, Option.getD_some, if_neg (by omega)]
    congr 1
    have g : ∀ j, 1 ≤ j → j ≤ n → (spike n)[j]? = some (lit 3) := fun j h1 h2 => by
      obtain ⟨k, rfl⟩ : ∃ k, j = k + 1 := ⟨j - 1, by omega⟩
      unfold spike
      rw [List.getElem?_cons_succ, List.getElem?_replicate, if_pos (by omega)]
    refine List.ext_getElem? fun j => ?_
    unfold window
    rw [List.getElem?_drop, List.getElem?_take]
    rcases Nat.lt_or_ge j 2 with hj | hj
    · rw [if_pos (by omega), g _ (by omega) (by omega)]
      have : j = 0 ∨ j = 1 := by omega
      rcases this with rfl | rfl <;> rfl
    · rw [if_neg (by omega), List.getElem?_eq_none (by simpa using hj)]
  refine ⟨?_, ?_, ?_, (hw _).trans ?_, (hw _).trans ?_,
    (hw _).trans ?_⟩
  · unfold Run.sum
    rw [loop_getD _ _ _ _ hl, if_neg (by omega), spike_state Run.sumStep ⟨0, lit 0⟩ (⟨2, lit 8⟩ : Run.SumSt (Flt binary64)) (by decide +kernel)
      (fun i => (by decide +kernel : Run.sumStep 0 (⟨2, lit 8⟩ : Run.SumSt (Flt binary64)) (lit 3) (some (lit 3)) = ⟨2, lit 8⟩)) hi hn]
    decide +kernel
  · unfold Run.mean
    rw [loop_getD _ _ _ _ hl, if_neg (by omega), spike_state Run.meanStep ⟨0, 0, lit 0⟩ (⟨2, 0, lit 8⟩ : Run.MeanSt (Flt binary64)) (by decide +kernel)
      (fun i => (by decide +kernel : Run.meanStep 0 (⟨2, 0, lit 8⟩ : Run.MeanSt (Flt binary64)) (lit 3) (some (lit 3)) = ⟨2, 0, lit 8⟩)) hi hn]
    decide +kernel
  · unfold Run.var
    rw [loop_getD _ _ _ _ hl, if_neg (by omega), spike_state Run.varStep ⟨0, lit 0, lit 0⟩ (⟨2, lit (7/2), lit (2 ^ 53)⟩ : Run.VarSt (Flt binary64)) (by decide +kernel)
      (fun i => (by decide +kernel : Run.varStep 0 (⟨2, lit (7/2), lit (2 ^ 53)⟩ : Run.VarSt (Flt binary64)) (lit 3) (some (lit 3)) =
        ⟨2, lit (7/2), lit (2 ^ 53)⟩)) hi hn]
    decide +kernel
  · decide +kernel
  · decide +kernel
  · decide +kernel

example : (Run.sum 2 (spike 1000000)).getD 1000000 nan = lit 8 := (C146_binary64_false (by omega) (by omega)).1

theorem whole_lit {k : ℕ} (h : k ≤ 2 ^ 53) : (lit (k : ℚ) : Flt binary64) = (Ext.fin (k : ℚ) : Ext ℚ) := fl64_nat k h

theorem whole_add {j k : ℕ} (h : j + k ≤ 2 ^ 53) : (lit (j : ℚ) + lit (k : ℚ) : Flt binary64) = lit ((j + k : ℕ) : ℚ) := by
  rw [whole_lit (k := j) (by omega), whole_lit (k := k) (by omega)]
  show fl64 ((j : ℚ) + k) = _
  rw [← Nat.cast_add]
  rfl

theorem whole_sub {j k : ℕ} (h : j ≤ 2 ^ 53) (hk : k ≤ j) : (lit (j : ℚ) - lit (k : ℚ) : Flt binary64) = lit ((j - k : ℕ) : ℚ) := by
  rw [whole_lit (k := j) h, whole_lit (k := k) (by omega)]
  show fl64 ((j : ℚ) + -k) = _
  rw [← sub_eq_add_neg, ← Nat.cast_sub hk]
  rfl

/-- whole numbers as data -/
def wholes (n : ℕ) (v : ℕ → ℕ) : List (Flt binary64) := (List.range n).map fun i => lit (v i : ℚ)

theorem wholes_get {n B : ℕ} {v : ℕ → ℕ} (hv : ∀ i, v i ≤ B) (hB : B ≤ 2 ^ 53) {i : ℕ} (hi : i < n) :
    (prepL (wholes n v)).getD i nan = (lit (v i : ℚ) : Flt binary64) := by
  unfold prepL wholes
  rw [List.getD_eq_getElem?_getD, List.getElem?_map, List.getElem?_map, List.getElem?_range hi]
  simp only [Option.map_some, Option.getD_some]
  have := hv i
  rw [whole_lit (by omega)]
  rfl

theorem whole_sum_state {n B w : ℕ} {v : ℕ → ℕ} (hw : 1 ≤ w) (hv : ∀ i, v i ≤ B) (hB : (w + 1) * B ≤ 2 ^ 53) : ∀ i, i ≤ n →
    Run.state w Run.sumStep ⟨0, lit 0⟩ (prepL (wholes n v)) i = ⟨Nat.min i w, lit ((∑ j ∈ Ico (i - w) i, v j : ℕ) : ℚ)⟩ := by
  have hB1 : B ≤ 2 ^ 53 := le_trans (Nat.le_mul_of_pos_left B (by omega)) hB
  have nn : ∀ k : ℕ, k ≤ 2 ^ 53 → isNaN (lit (k : ℚ) : Flt binary64) = false := fun k hk => by rw [whole_lit hk]; rfl
  intro i
  induction i with
  | zero => intro _; simp [Run.state]
  | succ i ih =>
    intro hi
    have hvi := hv i
    have hS : ∑ j ∈ Ico (i - w) i, v j ≤ w * B := by
      calc _ ≤ ∑ j ∈ Ico (i - w) i, B := sum_le_sum fun j _ => hv j
        _ = (i - (i - w)) * B := by rw [sum_const, Nat.card_Ico, smul_eq_mul]
        _ ≤ w * B := Nat.mul_le_mul_right _ (by omega)
    have hB2 : w * B + B ≤ 2 ^ 53 := by rw [← Nat.succ_mul]; exact hB
    have hs := slide v hw i
    rw [Run.state, ih (by omega), wholes_get hv hB1 (by omega)]
    have hadd : Run.SumSt.add (⟨Nat.min i w, lit ((∑ j ∈ Ico (i - w) i, v j : ℕ) : ℚ)⟩ : Run.SumSt (Flt binary64)) (lit (v i : ℚ)) =
        ⟨Nat.min i w + 1, lit ((∑ j ∈ Ico (i - w) i, v j + v i : ℕ) : ℚ)⟩ := by
      unfold Run.SumSt.add
      rw [nn _ (by omega), whole_add (by omega)]
      rfl
    by_cases h : w ≤ i
    · rw [if_pos h] at hs ⊢
      rw [wholes_get hv hB1 (by omega)]
      have hvo := hv (i - w)
      unfold Run.sumStep
      rw [hadd]
      show Run.SumSt.remove _ _ = _
      unfold Run.SumSt.remove
      rw [nn _ (by omega)]
      simp only
      rw [whole_sub (by omega) (by omega), ← hs]
      simp only [Bool.false_eq_true, if_false, Run.SumSt.mk.injEq]
      have : Nat.min i w = w := Nat.min_eq_right h
      have : Nat.min (i + 1) w = w := Nat.min_eq_right (by omega)
      exact ⟨by omega, by rw [Nat.add_sub_cancel]⟩
    · rw [if_neg h, add_zero] at hs
      rw [if_neg h]
      unfold Run.sumStep
      rw [hadd, ← hs]
      have : Nat.min i w = i := Nat.min_eq_left (by omega)
      have : Nat.min (i + 1) w = i + 1 := Nat.min_eq_left (by omega)
      simp only [Run.SumSt.mk.injEq, and_true]
      omega

/-- C146: sums of whole numbers (volumes, prices counted in ticks) updated from bar to bar in double precision are exact as long as `w + 1` values do
not exceed 2^53. -/
theorem C146_whole {n B w : ℕ} {v : ℕ → ℕ} (hw : 1 ≤ w) (hv : ∀ i, v i ≤ B) (hB : (w + 1) * B ≤ 2 ^ 53) {i : ℕ} (hi : i < n) (hwi : w ≤ i + 1) :
    (Run.sum w (wholes n v)).getD i nan = lit ((∑ k ∈ range w, v (i - k) : ℕ) : ℚ) := by
  unfold Run.sum
  rw [loop_getD _ _ _ _ (by simpa [wholes] using hi), if_neg (by omega), whole_sum_state hw hv hB (i + 1) hi]
  simp only
  rw [if_pos (by rw [show Nat.min (i + 1) w = w from Nat.min_eq_right hwi])]
  congr 1
  have := winSum_Ico (fun j => (v j : ℚ)) hwi
  unfold Spec.winSum at this
  push_cast
  exact this.symm

example : (Run.sum 3 (wholes 1000 fun i => i % 7 + 1000000)).getD 900 nan = (lit 3000009 : Flt binary64) := by
  rw [C146_whole (B := 1000007) (by omega) (fun i => by have := Nat.mod_lt i (show 0 < 7 by omega); omega) (by norm_num) (by omega) (by omega)]
  simp only [sum_range_succ, sum_range_zero]
  norm_num

/-! ## how far off the updated values are -/

section accuracy

attribute [local irreducible] pow2

/-- finite doubles as data -/
def dbls (n : ℕ) (x : ℕ → ℚ) : List Dbl := (List.range n).map fun i => dbl (x i)

theorem dbls_get {n : ℕ} (x : ℕ → ℚ) {i : ℕ} (hi : i < n) : (prepL (dbls n x)).getD i nan = dbl (x i) := by
  unfold prepL dbls
  rw [List.getD_eq_getElem?_getD, List.getElem?_map, List.getElem?_map, List.getElem?_range hi]
  rfl

variable {B W E S v o s : ℚ}

theorem acc_add (hB : pow2 (-1022) ≤ B) (hW : 0 ≤ W) (hB1 : (W + 3) * B ≤ pow2 1023) (hs : |s - S| ≤ E) (hE : E ≤ B) (hS : |S + v| ≤ (W + 1) * B) :
    ∃ z, (dbl s + dbl v : Dbl) = dbl z ∧ |z - (S + v)| ≤ E + (W + 3) * B * u64 := by
  have hBp : 0 < B := lt_of_lt_of_le (pow2_pos _) hB
  have h1 : |s + v| ≤ (W + 3) * B := by
    have := abs_add_le (s - S) (S + v)
    rw [show s - S + (S + v) = s + v by ring] at this
    nlinarith
  obtain ⟨z, e, hz⟩ := dbl_add h1 (hB.trans (by nlinarith)) hB1
  refine ⟨z, e, ?_⟩
  have := abs_add_le (z - (s + v)) (s - S)
  rw [show z - (s + v) + (s - S) = z - (S + v) by ring] at this
  linarith

theorem acc_sub (hB : pow2 (-1022) ≤ B) (hW : 0 ≤ W) (hB1 : (W + 3) * B ≤ pow2 1023) (hs : |s - S| ≤ E) (hE : E ≤ 2 * B) (hS : |S - o| ≤ W * B) :
    ∃ z, (dbl s - dbl o : Dbl) = dbl z ∧ |z - (S - o)| ≤ E + (W + 3) * B * u64 := by
  have hBp : 0 < B := lt_of_lt_of_le (pow2_pos _) hB
  have h1 : |s - o| ≤ (W + 3) * B := by
    have := abs_add_le (s - S) (S - o)
    rw [show s - S + (S - o) = s - o by ring] at this
    nlinarith
  obtain ⟨z, e, hz⟩ := dbl_sub h1 (hB.trans (by nlinarith)) hB1
  refine ⟨z, e, ?_⟩
  have := abs_add_le (z - (s - o)) (s - S)
  rw [show z - (s - o) + (s - S) = z - (S - o) by ring] at this
  linarith

theorem window_abs {x : ℕ → ℚ} {w : ℕ} (hx : ∀ i, |x i| ≤ B) (i : ℕ) : |∑ j ∈ Ico (i - w) i, x j| ≤ w * B := by
  have hB : 0 ≤ B := (abs_nonneg _).trans (hx 0)
  calc _ ≤ ∑ j ∈ Ico (i - w) i, |x j| := abs_sum_le_sum_abs _ _
    _ ≤ ∑ j ∈ Ico (i - w) i, B := sum_le_sum fun j _ => hx j
    _ = ((i - (i - w) : ℕ) : ℚ) * B := by rw [sum_const, Nat.card_Ico, nsmul_eq_mul]
    _ ≤ w * B := mul_le_mul_of_nonneg_right (by exact_mod_cast (by omega : i - (i - w) ≤ w)) hB

/-- the running values of the mean after `i` bars (those of the sum are among them) -/
theorem mean_acc {n w : ℕ} {x : ℕ → ℚ} (hw : 1 ≤ w) (hx : ∀ i, |x i| ≤ B) (hB : pow2 (-1022) ≤ B) (hB1 : ((w : ℚ) + 3) * B ≤ pow2 1023)
    (hn : 2 * (n : ℚ) * (w + 3) * u64 ≤ 1) : ∀ i, i ≤ n → ∃ s, |s - ∑ j ∈ Ico (i - w) i, x j| ≤ 2 * i * (w + 3) * B * u64 ∧
    Run.state w Run.meanStep ⟨0, 0, lit 0⟩ (prepL (dbls n x)) i =
      ⟨Nat.min i w, ∑ j ∈ Ico (i - w) i, (if x j < 0 then 1 else 0), dbl s⟩ ∧
    Run.state w Run.sumStep ⟨0, lit 0⟩ (prepL (dbls n x)) i = ⟨Nat.min i w, dbl s⟩ := by
  have hBp : 0 < B := lt_of_lt_of_le (pow2_pos _) hB
  have hu := u64_pos
  have hW : (0 : ℚ) ≤ w := by positivity
  have l0 : (lit 0 : Dbl) = dbl 0 := dbl_lit (by unfold fl64; simp)
  have hlt : ∀ y : ℚ, lt (dbl y) (lit 0 : Dbl) = decide (y < 0) := fun y => by rw [l0]; exact Ext.lt_fin y 0
  intro i
  induction i with
  | zero => intro _; exact ⟨0, by simp, by simp [Run.state, l0], by simp [Run.state, l0]⟩
  | succ i ih =>
    intro hi
    obtain ⟨s, hs, e1, e2⟩ := ih (by omega)
    have hi' : ((i : ℚ) + 1) ≤ n := by exact_mod_cast hi
    have hC : (0 : ℚ) < (w + 3) * B * u64 := by positivity
    have hbig : 2 * ((i : ℚ) + 1) * (w + 3) * B * u64 ≤ B := by
      calc 2 * ((i : ℚ) + 1) * (w + 3) * B * u64 = ((i : ℚ) + 1) * (2 * (w + 3) * B * u64) := by ring
        _ ≤ n * (2 * (w + 3) * B * u64) := mul_le_mul_of_nonneg_right hi' (by positivity)
        _ = (2 * (n : ℚ) * (w + 3) * u64) * B := by ring
        _ ≤ 1 * B := mul_le_mul_of_nonneg_right hn hBp.le
        _ = B := one_mul B
    have hsplit : 2 * ((i : ℚ) + 1) * (w + 3) * B * u64 = 2 * i * (w + 3) * B * u64 + 2 * ((w + 3) * B * u64) := by ring
    have hE : 2 * (i : ℚ) * (w + 3) * B * u64 ≤ B := by linarith
    have hSi := window_abs (w := w) hx i
    have hSv : |∑ j ∈ Ico (i - w) i, x j + x i| ≤ ((w : ℚ) + 1) * B := by
      have := abs_add_le (∑ j ∈ Ico (i - w) i, x j) (x i)
      have := hx i
      linarith
    obtain ⟨z, ez, hz⟩ := acc_add hB hW hB1 hs hE hSv
    have hsl := slide x hw i
    have hsn := slide (fun j => if x j < 0 then 1 else 0 : ℕ → ℕ) hw i
    rw [Run.state, e1, Run.state, e2, dbls_get x (by omega)]
    push_cast
    by_cases h : w ≤ i
    · rw [if_pos h] at hsl hsn ⊢
      rw [dbls_get x (by omega)]
      have hS' : |∑ j ∈ Ico (i - w) i, x j + x i - x (i - w)| ≤ w * B := by
        rw [← hsl, add_sub_cancel_right]; exact window_abs hx (i + 1)
      obtain ⟨z', ez', hz'⟩ := acc_sub hB hW hB1 hz (by linarith) hS'
      have m1 : Nat.min i w = w := Nat.min_eq_right h
      have m2 : Nat.min (i + 1) w = w := Nat.min_eq_right (by omega)
      refine ⟨z', ?_, ?_, ?_⟩
      · rw [← hsl, add_sub_cancel_right] at hz'
        linarith
      · simp only [Run.meanStep, Run.MeanSt.add, Run.MeanSt.remove, hlt, decide_eq_true_eq, show isNaN (dbl (x i)) = false from rfl,
          show isNaN (dbl (x (i - w))) = false from rfl, Bool.false_eq_true, if_false, ez, ez', Run.MeanSt.mk.injEq, and_true, m1, m2]
        refine ⟨by omega, ?_⟩
        by_cases c1 : x i < 0 <;> by_cases c2 : x (i - w) < 0 <;> simp only [c1, c2, if_true, if_false] at hsn ⊢ <;> omega
      · simp only [Run.sumStep, Run.SumSt.add, Run.SumSt.remove, show isNaN (dbl (x i)) = false from rfl,
          show isNaN (dbl (x (i - w))) = false from rfl, Bool.false_eq_true, if_false, ez, ez', Run.SumSt.mk.injEq, and_true, m1, m2]
        omega
    · rw [if_neg h, add_zero] at hsl hsn
      rw [if_neg h]
      have m1 : Nat.min i w = i := Nat.min_eq_left (by omega)
      have m2 : Nat.min (i + 1) w = i + 1 := Nat.min_eq_left (by omega)
      refine ⟨z, ?_, ?_, ?_⟩
      · rw [hsl]; linarith
      · simp only [Run.meanStep, Run.MeanSt.add, hlt, decide_eq_true_eq, show isNaN (dbl (x i)) = false from rfl,
          Bool.false_eq_true, if_false, ez, Run.MeanSt.mk.injEq, and_true, m1, m2]
        refine ⟨trivial, ?_⟩
        rw [hsn]
        by_cases c1 : x i < 0 <;> simp only [c1, if_true, if_false] <;> omega
      · simp only [Run.sumStep, Run.SumSt.add, show isNaN (dbl (x i)) = false from rfl,
          Bool.false_eq_true, if_false, ez, m1, m2]

/-- C146: in double precision the errors of the updated values grow at most in proportion to the number of bars: the sum of `w` prices of at most `B` is
off by at most `2 (i + 1) (w + 3) B 2^-53` at bar `i` and the simple moving average by `10 (i + 1) B 2^-53`. -/
theorem C146_accuracy {n w : ℕ} {x : ℕ → ℚ} (hw : 1 ≤ w) (hx : ∀ i, |x i| ≤ B) (hB : pow2 (-1022) ≤ B) (hB1 : ((w : ℚ) + 3) * B ≤ pow2 1023)
    (hn : n * (w + 3) ≤ 2 ^ 52) {i : ℕ} (hwi : w ≤ i + 1) (hi : i < n) :
    (∃ t, (Run.sum w (dbls n x)).getD i nan = dbl t ∧ |t - Spec.winSum x w i| ≤ 2 * (i + 1) * (w + 3) * B / 2 ^ 53) ∧
    ∃ t, (Run.mean w (dbls n x)).getD i nan = dbl t ∧ |t - Spec.winMean x w i| ≤ 10 * (i + 1) * B / 2 ^ 53 := by
  have hBp : 0 < B := lt_of_lt_of_le (pow2_pos _) hB
  have hu := u64_pos
  have hw0 : (1 : ℚ) ≤ w := by exact_mod_cast hw
  have hwp : (0 : ℚ) < w := by linarith
  have hn' : 2 * (n : ℚ) * (w + 3) * u64 ≤ 1 := by
    have : (n : ℚ) * (w + 3) ≤ 2 ^ 52 := by exact_mod_cast hn
    calc 2 * (n : ℚ) * (w + 3) * u64 = 2 * u64 * (n * (w + 3)) := by ring
      _ ≤ 2 * u64 * 2 ^ 52 := mul_le_mul_of_nonneg_left this (by positivity)
      _ = 1 := by unfold u64; norm_num
  obtain ⟨s, hs, e1, e2⟩ := mean_acc hw hx hB hB1 hn' (i + 1) hi
  have hl : i < (dbls n x).length := by simpa [dbls] using hi
  have m : Nat.min (i + 1) w = w := Nat.min_eq_right hwi
  rw [← winSum_Ico x hwi] at hs
  push_cast at hs
  have hi' : ((i : ℚ) + 1) ≤ n := by exact_mod_cast hi
  refine ⟨⟨s, ?_, ?_⟩, ?_⟩
  · unfold Run.sum
    rw [loop_getD _ _ _ _ hl, if_neg (by omega), e2]
    simp only [m, le_refl, if_true]
  · calc _ ≤ 2 * ((i : ℚ) + 1) * (w + 3) * B * u64 := hs
      _ = _ := by unfold u64; ring
  · -- the quotient
    have hE : 2 * ((i : ℚ) + 1) * (w + 3) * B * u64 ≤ B := by
      calc 2 * ((i : ℚ) + 1) * (w + 3) * B * u64 = ((i : ℚ) + 1) * (2 * (w + 3) * B * u64) := by ring
        _ ≤ n * (2 * (w + 3) * B * u64) := mul_le_mul_of_nonneg_right hi' (by positivity)
        _ = (2 * (n : ℚ) * (w + 3) * u64) * B := by ring
        _ ≤ 1 * B := mul_le_mul_of_nonneg_right hn' hBp.le
        _ = B := one_mul B
    have hM : |Spec.winSum x w i| ≤ w * B := by rw [winSum_Ico x hwi]; exact window_abs hx (i + 1)
    have hq : |s / w| ≤ 2 * B := by
      rw [abs_div, abs_of_pos hwp, div_le_iff₀ hwp]
      have := abs_sub_abs_le_abs_sub s (Spec.winSum x w i)
      nlinarith
    obtain ⟨r, hr, hre⟩ := dbl_div (x := s) (y := (w : ℚ)) hwp.ne' hq (by linarith) (by nlinarith)
    have hd : |s / w - Spec.winMean x w i| ≤ 8 * (i + 1) * B * u64 := by
      unfold Spec.winMean
      rw [← sub_div, abs_div, abs_of_pos hwp, div_le_iff₀ hwp]
      refine hs.trans ?_
      have h3 : (w : ℚ) + 3 ≤ 4 * w := by linarith
      have hk : (0 : ℚ) ≤ 2 * (i + 1) * B * u64 := by positivity
      calc 2 * ((i : ℚ) + 1) * (w + 3) * B * u64 = (2 * (i + 1) * B * u64) * (w + 3) := by ring
        _ ≤ (2 * (i + 1) * B * u64) * (4 * w) := mul_le_mul_of_nonneg_left h3 hk
        _ = _ := by ring
    have hBu : 0 < B * u64 := by positivity
    have hi0 : (0 : ℚ) ≤ i := by positivity
    have htot : |r - Spec.winMean x w i| ≤ 10 * (i + 1) * B * u64 := by
      have := abs_add_le (r - s / w) (s / w - Spec.winMean x w i)
      rw [show r - s / w + (s / w - Spec.winMean x w i) = r - Spec.winMean x w i by ring] at this
      nlinarith
    have hfin : 10 * ((i : ℚ) + 1) * B * u64 = 10 * (i + 1) * B / 2 ^ 53 := by unfold u64; ring
    rw [hfin] at htot
    have l0 : (lit 0 : Dbl) = dbl 0 := dbl_lit (by unfold fl64; simp)
    have lw : (lit (w : ℚ) : Dbl) = dbl w := dbl_lit (fl64_nat w (by nlinarith))
    have mean0 : Spec.winMean x w i = (∑ j ∈ Ico (i + 1 - w) (i + 1), x j) / w := by rw [← winSum_Ico x hwi]; rfl
    have card : ∑ j ∈ Ico (i + 1 - w) (i + 1), 1 = w := by rw [sum_const, Nat.card_Ico]; simp; omega
    unfold Run.mean
    rw [loop_getD _ _ _ _ hl, if_neg (by omega), e1]
    unfold Run.meanOut
    simp only [m, le_refl, if_true, lw, hr, l0, show ∀ a b : ℚ, lt (dbl a) (dbl b) = decide (a < b) from Ext.lt_fin, decide_eq_true_eq]
    split
    · rename_i h
      refine ⟨0, rfl, le_trans ?_ htot⟩
      have : 0 ≤ Spec.winMean x w i := by
        rw [mean0]
        refine div_nonneg (sum_nonneg fun j hj => ?_) hwp.le
        have := sum_eq_zero_iff.mp h.1 j hj
        by_contra hc
        rw [if_pos (by linarith)] at this
        exact absurd this (by omega)
      rw [zero_sub, abs_neg, abs_of_nonneg this, abs_sub_comm]
      exact le_trans (by linarith [h.2]) (le_abs_self _)
    · split
      · rename_i _ h
        refine ⟨0, rfl, le_trans ?_ htot⟩
        have : Spec.winMean x w i ≤ 0 := by
          rw [mean0]
          refine div_nonpos_of_nonpos_of_nonneg (sum_nonpos fun j hj => ?_) hwp.le
          by_contra hc
          have hlt : ∑ j ∈ Ico (i + 1 - w) (i + 1), (if x j < 0 then 1 else 0) < ∑ j ∈ Ico (i + 1 - w) (i + 1), 1 :=
            sum_lt_sum (fun k _ => by split <;> omega) ⟨j, hj, by rw [if_neg (by linarith)]; omega⟩
          omega
        rw [zero_sub, abs_neg, abs_of_nonpos this]
        exact le_trans (by linarith [h.2]) (le_abs_self _)
      · exact ⟨r, rfl, htot⟩

/-- a million bars of a price up to 1000: the average of 20 bars is off by at most two millionths -/
example {x : ℕ → ℚ} (hx : ∀ i, |x i| ≤ 1000) {i : ℕ} (h1 : 19 ≤ i) (h2 : i < 1000000) :
    ∃ t, (Run.mean 20 (dbls 1000000 x)).getD i nan = dbl t ∧ |t - Spec.winMean x 20 i| ≤ 1 / 500000 := by
  obtain ⟨t, e, ht⟩ := (C146_accuracy (w := 20) (n := 1000000) (by omega) hx (by decide +kernel) (by decide +kernel) (by norm_num) (by omega) h2).2
  refine ⟨t, e, ht.trans ?_⟩
  have : (i : ℚ) + 1 ≤ 1000000 := by exact_mod_cast h2
  rw [div_le_div_iff₀ (by positivity) (by positivity)]
  nlinarith

end accuracy

end Bta
