import Verif.Props.Follow

/-!
# C141 in floating point arithmetic: averages of prices which never fall
-/

set_option linter.unusedSectionVars false
set_option linter.unusedVariables false

namespace Spec
open Bta

/-- no bar from the minimum period on is below the one before it (missing bars aside) -/
def NeverFalls {R : Rounding} (l : Line (Flt R)) : Prop :=
  ∀ (i : ℕ) (v w : Flt R), l.minperiod ≤ (i : Int) + 1 → l.series[i]? = some v → l.series[i + 1]? = some w → NotOver v w

end Spec

namespace Bta
open Line Spec

variable {R : Rounding} {a : Line (Flt R)}

theorem neverFalls_of_rep {n m : ℕ} {g : ℕ → Flt R} (ha : RepW a n m g) (h : ∀ i, m ≤ i + 1 → i + 1 < n → NotOver (g i) (g (i + 1))) :
    NeverFalls a := by
  intro i v w hi hv hw
  have hn : i + 1 < n := by
    have := (List.getElem?_eq_some_iff.mp hw).1
    rw [ha.len] at this
    exact this
  rw [ha.mp] at hi
  rw [ha.val i (by omega) (by omega)] at hv
  rw [ha.val (i + 1) (by omega) hn] at hw
  cases hv; cases hw
  exact h i (by omega) hn

theorem NeverFalls.rep {n m : ℕ} {g : ℕ → Flt R} (ha : RepW a n m g) (h : NeverFalls a) {i : ℕ} (h1 : m ≤ i + 1) (h2 : i + 1 < n) :
    NotOver (g i) (g (i + 1)) :=
  h i _ _ (by rw [ha.mp]; omega) (ha.val i h1 (by omega)) (ha.val (i + 1) (by omega) h2)

theorem neverFalls_rolling {agg : List (Flt R) → Flt R} (hagg : ∀ xs ys, Lists xs ys → NotOver (agg xs) (agg ys)) {p : ℕ} (hp : 1 ≤ p)
    {n m : ℕ} {g : ℕ → Flt R} (ha : RepW a n m g) (h : NeverFalls a) : NeverFalls (rolling p agg a) := by
  refine neverFalls_of_rep (rep_rolling hp ha).toRepW fun i h1 h2 => hagg _ _ ?_
  have hm := ha.pos
  have key : ∀ l : List ℕ, (∀ j ∈ l, j < p) →
      Lists (l.map fun j => g (i + 1 - p + j)) (l.map fun j => g (i + 1 + 1 - p + j)) := by
    intro l
    induction l with
    | nil => exact fun _ => .nil
    | cons j t ih =>
      intro hl
      refine .cons ?_ (ih fun k hk => hl k (List.mem_cons_of_mem _ hk))
      have hj := hl j List.mem_cons_self
      have := NeverFalls.rep ha h (i := i + 1 - p + j) (by omega) (by omega)
      rwa [show i + 1 - p + j + 1 = i + 1 + 1 - p + j by omega] at this
  exact key _ fun j hj => List.mem_range.mp hj

/-- **C141** in floating point arithmetic: of prices which never fall the rolling sum, maximum, minimum and the simple, weighted and triangular average
never fall (each window summed by itself). -/
theorem C141_rounded {p : ℕ} (hp : 1 ≤ p) (h1 : 1 ≤ a.minperiod) (h : NeverFalls a) :
    NeverFalls (Ind.sumN p a) ∧ NeverFalls (Ind.highest p a) ∧ NeverFalls (Ind.lowest p a) ∧ (Gives (Ind.sma p a) NeverFalls) ∧
    (Gives (Ind.wma p a) NeverFalls) ∧ Gives (Ind.trima p a) NeverFalls := by
  obtain ⟨m, hm⟩ : ∃ m : ℕ, a.minperiod = m := ⟨a.minperiod.toNat, by omega⟩
  have ha := repW_self a nan hm (by omega)
  have w : NeverFalls (rolling p (aggApply fun w => dotV w (Ind.wmaWeights p)) a) := by
    refine neverFalls_rolling (fun xs ys hxy => ?_) hp ha h
    refine na_whenAll fun _ _ => na_dot (fun w hw => ?_) hxy
    obtain ⟨j, _, rfl⟩ := List.mem_map.mp hw
    exact nn_lit (by positivity)
  refine ⟨neverFalls_rolling (fun _ _ => na_aggSum) hp ha h, neverFalls_rolling (fun _ _ => na_aggMax) hp ha h,
    neverFalls_rolling (fun _ _ => na_aggMin) hp ha h, ⟨_, rfl, neverFalls_rolling (fun _ _ => na_aggMean) hp ha h⟩, ⟨_, rfl, ?_⟩, ?_⟩
  · refine neverFalls_of_rep (rep_rmulS (rep_rolling hp ha).toRepW _).toRepW fun i i1 i2 => ?_
    exact na_mul (nn_div (nn_lit (by norm_num)) (nn_lit (by positivity))) (NeverFalls.rep (rep_rolling hp ha).toRepW w i1 i2)
  · unfold Ind.trima
    split
    rename_i p1 p2 he
    have hq : 1 ≤ p1 ∧ 1 ≤ p2 := by
      split at he <;> cases he <;> omega
    exact ⟨_, rfl, neverFalls_rolling (fun _ _ => na_aggMean) hq.1 (rep_rolling hq.2 ha).toRepW
      (neverFalls_rolling (fun _ _ => na_aggMean) hq.2 ha h)⟩

/-- some bar is below the one before it -/
def someFall (l : Line (Flt binary64)) : Bool := (l.series.zip l.series.tail).any fun p => lt p.2 p.1

/-- **C141** (negation) in double precision the exponential and the smoothed average of prices which never fall can fall: ten bars at 79.52 and nine at
84.23, each followed by the next number of the format. -/
theorem C141_rounded_false : ∃ xs ys : List ℚ, (∀ b ∈ xs.zip xs.tail, b.1 ≤ b.2) ∧ (∀ b ∈ ys.zip ys.tail, b.1 ≤ b.2) ∧
    (match Ind.ema 10 (doubles xs) with | .ok r => someFall r | _ => false) = true ∧
    (match Ind.smma 9 (doubles ys) with | .ok r => someFall r | _ => false) = true :=
  ⟨List.replicate 10 (5595722537007841/70368744177664) ++ [2797861268503921/35184372088832],
    List.replicate 9 (5927159322084639/70368744177664) ++ [185223728815145/2199023255552], by decide +kernel, by decide +kernel, by decide +kernel,
    by decide +kernel⟩

/-- prices in double precision which meet the hypothesis, and their averages -/
example : NeverFalls (doubles [1/10, 1/5, 3/10, 3/10, 7/10]) ∧ Gives (Ind.sma 3 (doubles [1/10, 1/5, 3/10, 3/10, 7/10])) NeverFalls := by
  have h : NeverFalls (doubles [1/10, 1/5, 3/10, 3/10, 7/10]) := by
    intro i v w _ hv hw
    have hi : i < 4 := by
      have := (List.getElem?_eq_some_iff.mp hw).1
      have : i + 1 < 5 := this
      omega
    right; right
    interval_cases i <;> (simp only [doubles] at hv hw; cases hv; cases hw; decide +kernel)
  exact ⟨h, (C141_rounded (p := 3) (by decide) (by decide) h).2.2.2.1⟩

end Bta
