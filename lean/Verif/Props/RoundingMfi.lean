import Verif.Props.Spread

/-!
# C107: the money flow index in floating point arithmetic
-/

set_option linter.unusedSectionVars false
set_option linter.unusedVariables false

namespace Bta
open Line Ind Spec

variable {R : Rounding}

/-- **C107** the money flow index of prices and volumes which are not negative is from 0 to 100 at each bar (missing and infinite values included), however
results are rounded (each window summed by itself). -/
theorem C107_mfi {p : ℕ} (hp : 1 ≤ p) {h l c v : Line (Flt R)} (hh : NoneNegative h) (hl : NoneNegative l) (hc : NoneNegative c)
    (hv : NoneNegative v) : InRange 0 100 (mfi p h l c v) := by
  have e100 : (lit 100 : Flt R) = Ext.fin 100 := R.fl_hundred
  have t : NoneNegative ((h + l + c).divS (lit 3)) :=
    each_binopS (γ := Flt R) nn_nan (fun x hx => nn_div hx (nn_lit (by norm_num)))
      (each_binop (γ := Flt R) nn_nan (fun x y hx hy => nn_add hx hy) (each_binop (γ := Flt R) nn_nan (fun x y hx hy => nn_add hx hy) hh hl) hc)
  have f : NoneNegative ((h + l + c).divS (lit 3) * v) := each_binop (γ := Flt R) nn_nan (fun x y hx hy => nn_mul hx hy) t hv
  have s : ∀ {a : Line (Flt R)}, NoneNegative a → NoneNegative (sumN p a) := by
    intro a ha
    refine each_rolling (V := Flt R) hp nn_nan fun win _ hw => ?_
    unfold aggSum whenAllFin
    split
    · exact nn_sumV fun x hx => ha x (hw x hx)
    · exact nn_nan
  unfold mfi
  generalize (h + l + c).divS (lit 3) = tp at *
  have h1 : NoneNegative (sumN p (mulB (tp * v) (gtL tp (ago (-1) tp))) / sumN p (mulB (tp * v) (ltL tp (ago (-1) tp)))) :=
    each_binop (γ := Flt R) nn_nan (fun x y hx hy => nn_div hx hy) (s (nn_mulB f)) (s (nn_mulB f))
  refine each_binopS (γ := Flt R) (P := fun v : Flt R => Within 0 100 (lit 100 - v : Flt R)) (Or.inl rfl) (fun x hx => hx) ?_
  refine each_binopS (γ := Flt R) (P := fun v : Flt R => Within 0 100 (lit 100 - lit 100 / v : Flt R)) ?_ (fun x hx => hx) ?_
  · left; rw [e100]; rfl
  refine each_binopS ?_ (fun x hx => rsi_core hx) h1
  left; rw [e100]; rfl

/-- bars in double precision -/
example : InRange 0 100 (mfi 2 (doubles [1/10, 1/5, 3/10]) (doubles [1/10, 1/5, 3/10]) (doubles [1/10, 1/5, 1/10]) (doubles [7, 7/10, 1])) := by
  have nn : ∀ xs : List ℚ, (∀ x ∈ xs, 0 ≤ x) → NoneNegative (doubles xs) := by
    intro xs hx v hv
    obtain ⟨x, hm, rfl⟩ := List.mem_map.mp hv
    exact nn_lit (hx x hm)
  exact C107_mfi (by decide) (nn _ (by decide +kernel)) (nn _ (by decide +kernel)) (nn _ (by decide +kernel)) (nn _ (by decide +kernel))

end Bta
