import Verif.Lemmas.Checked
import Verif.Lemmas.Units3
import Mathlib.Analysis.Real.Sqrt

/-!
# C88: units of price and volume

`Spec.unitIn`, `Spec.unitsOut` (Spec/Unit.lean) say which unit each input and output of a call has; `Spec.inUnit` is a line in
another unit.  The lines are arbitrary: any length, missing values and infinities anywhere.
-/

set_option linter.unusedSectionVars false
set_option linter.unusedVariables false

namespace Bta
open Line

variable {K : Type} [Field K] [LinearOrder K] [IsStrictOrderedRing K]

/-- **C88** whatever the data: with prices in a unit `u` times smaller and volumes in a unit `v` times smaller, a call gives
the same lines in the units of its outputs, and raises if and only if it raised before, with the same exception. -/
theorem C88_units {u v : K} (hu : 0 < u) (hv : 0 < v) (x : ℕ → Line (Ext K)) (c : Call (Ext K)) {us : List K}
    (hc : Spec.unitsOut u v c = some us) (hp : Spec.unitParams c) :
    c.run (fun k => Spec.inUnit (Spec.unitIn u v c k) (x k)) = (c.run x).map (List.zipWith Spec.inUnit us) :=
  Un.call hu hv x c us hc hp

/-- the indicators which have no unit: oscillators, ratios, indices, signals -/
def _root_.Spec.unitFree (c : Call (Ext K)) : Prop := ∀ u v : K, Spec.unitsOut u v c = some [1] ∨
  Spec.unitsOut u v c = some [1, 1] ∨ Spec.unitsOut u v c = some [1, 1, 1]

theorem call_len (c : Call (Ext K)) (x : ℕ → Line (Ext K)) {u v : K} {us : List K} (hc : Spec.unitsOut u v c = some us)
    {r : List (Line (Ext K))} (hr : c.run x = .ok r) : r.length = us.length := by
  have o : ∀ {l m : List K}, some l = some m → l = m := fun h => Option.some.inj h
  have l1 : ∀ {y : Except Err (Line (Ext K))}, oneE y = .ok r → r.length = 1 := by
    intro y h; cases y with
    | error e => exact nomatch h
    | ok l => injection h with h; subst h; rfl
  have l2 : ∀ {y : Except Err (Line (Ext K) × Line (Ext K))}, twoE y = .ok r → r.length = 2 := by
    intro y h; cases y with
    | error e => exact nomatch h
    | ok l => injection h with h; subst h; rfl
  have l3 : ∀ {y : Except Err (Line (Ext K) × Line (Ext K) × Line (Ext K))}, threeE y = .ok r → r.length = 3 := by
    intro y h; cases y with
    | error e => exact nomatch h
    | ok l => injection h with h; subst h; rfl
  have k1 : ∀ {y : Line (Ext K)}, Bta.one y = .ok r → r.length = 1 := by
    intro y h; injection h with h; subst h; rfl
  have k2 : ∀ {y z : Line (Ext K)}, (Except.ok [y, z] : Except Err (List (Line (Ext K)))) = .ok r → r.length = 2 := by
    intro y z h; injection h with h; subst h; rfl
  cases c with
  | avg m p => cases m <;> (obtain rfl := o hc; exact l1 hr)
  | sarext P =>
    by_cases hP : P.startval = .fin 0
    · obtain rfl := o ((if_pos hP).symm.trans hc); exact l1 hr
    · exact absurd ((if_neg hP).symm.trans hc) (by simp)
  | beta b _ _ => cases b <;> (obtain rfl := o hc; exact k1 hr)
  | linregAngle _ _ _ => exact absurd hc (by simp [Spec.unitsOut])
  | mathFn _ => exact absurd hc (by simp [Spec.unitsOut])
  | _ =>
    obtain rfl := o hc
    first
      | exact k1 hr
      | exact l1 hr
      | exact k2 hr
      | exact l2 hr
      | exact l3 hr
      | exact k1 (checked_ok hr)
      | exact k2 (checked_ok hr)

/-- **C88** such indicators give the very same lines, whatever the units -/
theorem C88_unit_free {u v : K} (hu : 0 < u) (hv : 0 < v) (x : ℕ → Line (Ext K)) (c : Call (Ext K))
    (hc : Spec.unitFree c) (hp : Spec.unitParams c) :
    c.run (fun k => Spec.inUnit (Spec.unitIn u v c k) (x k)) = c.run x := by
  have key : ∀ us : List K, Spec.unitsOut u v c = some us → (∀ w ∈ us, w = 1) →
      c.run (fun k => Spec.inUnit (Spec.unitIn u v c k) (x k)) = c.run x := by
    intro us h1 h2
    rw [C88_units hu hv x c h1 hp]
    cases hr : c.run x with
    | error e => rfl
    | ok r =>
      have hl := call_len c x h1 hr
      show Except.ok _ = Except.ok _
      congr 1
      refine List.ext_getElem (by simp [hl]) fun i h3 h4 => ?_
      rw [List.getElem_zipWith, h2 _ (List.getElem_mem _), Un.one]
  rcases hc u v with h | h | h
  · exact key _ h (by simp)
  · exact key _ h (by simp)
  · exact key _ h (by simp)

/-- a square root on floats with infinities -/
noncomputable def rootR : Ext ℝ → Ext ℝ
  | .fin x => if 0 ≤ x then .fin (Real.sqrt x) else .nan
  | .pinf => .pinf
  | _ => .nan

/-- The square root is one (`Spec.RootLike`). -/
theorem C88_root : Spec.RootLike rootR := by
  intro u x hu
  cases x with
  | fin x =>
    show (if 0 ≤ u * u * x then Ext.fin (Real.sqrt (u * u * x)) else Ext.nan) = Ext.sc u (if 0 ≤ x then Ext.fin (Real.sqrt x) else Ext.nan)
    have h : 0 ≤ u * u * x ↔ 0 ≤ x := mul_nonneg_iff_of_pos_left (mul_pos hu hu)
    by_cases hx : 0 ≤ x
    · rw [if_pos (h.mpr hx), if_pos hx, Ext.sc_fin, Real.sqrt_mul (mul_nonneg hu.le hu.le), Real.sqrt_mul_self hu.le]
    · rw [if_neg (fun e => hx (h.mp e)), if_neg hx]; rfl
  | pinf => rfl
  | ninf => rfl
  | nan => rfl

/-- prices in cents instead of dollars: Bollinger bands are in cents ... -/
example (x : ℕ → Line (Ext ℝ)) :
    (Call.bbands rootR .sma (.fin 2) 20).run (fun k => Spec.inUnit 100 (x k)) =
      ((Call.bbands rootR .sma (.fin 2) 20).run x).map (List.zipWith Spec.inUnit [100, 100, 100]) :=
  C88_units (u := 100) (v := 1) (by norm_num) one_pos x (.bbands rootR .sma (.fin 2) 20) rfl ⟨C88_root, trivial⟩

/-- ... and the relative strength index is the same -/
example (x : ℕ → Line (Ext ℚ)) :
    (Call.rsi (.smma .avg) 1 14).run (fun k => Spec.inUnit 100 (x k)) = (Call.rsi (.smma .avg) 1 14).run x :=
  C88_unit_free (u := 100) (v := 1) (by norm_num) one_pos x (.rsi (.smma .avg) 1 14) (fun _ _ => Or.inl rfl) trivial

/-- volume in thousands, prices in cents: the money flow index is the same -/
example (x : ℕ → Line (Ext ℚ)) :
    (Call.mfi 14).run (fun k => Spec.inUnit (if k ≤ 2 then 100 else 1 / 1000) (x k)) = (Call.mfi 14).run x :=
  C88_unit_free (u := 100) (v := 1 / 1000) (by norm_num) (by norm_num) x (.mfi 14) (fun _ _ => Or.inl rfl) trivial

/-- **C88** the exceptions are exceptions: the angle of a slope depends on the unit of price, and so does `sarext` with a start
value, which is a price itself. -/
theorem C88_not_unit_free :
    (∃ (x : ℕ → Line (Ext ℚ)), (Call.linregAngle (fun v => v) (.fin 1) 2).run (fun k => Spec.inUnit 100 (x k)) ≠
      (Call.linregAngle (fun v => v) (.fin 1) 2).run x) ∧
    ∃ (P : Ind.SarExtP (Ext ℚ)) (x : ℕ → Line (Ext ℚ)), (Call.sarext P).run (fun k => Spec.inUnit 100 (x k)) ≠
      ((Call.sarext P).run x).map (List.zipWith Spec.inUnit [100]) := by
  refine ⟨⟨fun _ => ⟨[.fin 1, .fin 2], 1⟩, by decide +kernel⟩,
    ⟨⟨.fin 5, .fin (2 / 100), .fin (2 / 10), .fin (2 / 100), .fin (2 / 10), .fin 0⟩, fun _ => ⟨[.fin 6, .fin 7, .fin 8], 1⟩, by decide +kernel⟩⟩

end Bta
