import Verif.Props.Rounding
import Verif.Props.Lines2

/-!
# C11 in floating point arithmetic

`Props/Lines2.lean` has C11 in exact arithmetic, for each smoothing factor.  With rounded results it is true for the factor 1, which is
the one the accumulations use, and false for others.
-/

set_option linter.unusedSectionVars false
set_option linter.unusedVariables false

namespace Bta
open Line

variable {R : Rounding}

/-- A value of the number type: an infinity, NaN or a number which needs no rounding. -/
def Spec.IsFloat (R : Rounding) (v : Flt R) : Prop := R.round v = v

theorem isFloat_round (v : Ext ℚ) : Spec.IsFloat R (R.round v) := by
  unfold Spec.IsFloat
  cases v with
  | fin x =>
    show R.round (R.fl x) = R.fl x
    cases h : R.fl x with
    | fin y => exact R.idem x y h
    | _ => rfl
  | _ => rfl

theorem flt_add_comm (a b : Flt R) : (a + b : Flt R) = b + a :=
  congrArg R.round (Ext.add_comm' (K := ℚ) a b)

theorem lfilterGo_smAccGo_flt (al be : Flt R) : ∀ (xs : List (Flt R)) (y : Flt R),
    lfilterGo al be y xs = smAccGo al be y xs := by
  intro xs
  induction xs with
  | nil => intro y; rfl
  | cons x xs ih => intro y; simp only [lfilterGo, smAccGo, ih, flt_add_comm (al * x)]

theorem flt_first {v : Flt R} (hv : isFin v = true) {x : Flt R} (hx : Spec.IsFloat R x) :
    ((lit 1 : Flt R) * (x / (lit 1 : Flt R)) + v * lit 0 : Flt R) = x := by
  obtain ⟨b, rfl⟩ : ∃ b : ℚ, v = Ext.fin b := by
    cases v with
    | fin b => exact ⟨b, rfl⟩
    | _ => cases hv
  have h1 : R.fl 1 = .fin 1 := R.fl_nat 1 (by norm_num) (by norm_num)
  have h0 : R.fl 0 = .fin 0 := R.fl_nat 0 (by norm_num) (by norm_num)
  show R.round (Ext.add (R.round (Ext.mul (R.fl 1) (R.round (Ext.div x (R.fl 1))))) (R.round (Ext.mul (.fin b) (R.fl 0)))) = x
  rw [h1, h0]
  have hd : Ext.div x (Ext.fin (1 : ℚ)) = x := by
    cases x with
    | fin q => simp [Ext.div]
    | nan => rfl
    | pinf => simp [Ext.div]
    | ninf => simp [Ext.div]
  have hm : Ext.mul (Ext.fin (1 : ℚ)) x = x := by
    cases x with
    | fin q => simp [Ext.mul]
    | nan => rfl
    | pinf => simp [Ext.mul, Ext.infSign]
    | ninf => simp [Ext.mul, Ext.infSign]
  have ha : Ext.add x (Ext.fin (0 : ℚ)) = x := by
    cases x with
    | fin q => simp [Ext.add]
    | nan => rfl
    | pinf => rfl
    | ninf => rfl
  have hx' : R.round x = x := hx
  have hz : R.round (Ext.mul (Ext.fin b) (Ext.fin 0)) = .fin 0 := by
    have : Ext.mul (Ext.fin b) (Ext.fin 0) = Ext.fin 0 := by simp [Ext.mul]
    rw [this]
    exact h0
  rw [hz, hd, hx', hm, hx', ha, hx']

/-- **C11** in rounded arithmetic, for the smoothing factor 1: the results with and without scipy are identical, however the results of
the operations are rounded, for any (finite) factor of the old value and any data, with missing values and infinities. -/
theorem C11_scipy_same_rounded (b : Option (Flt R)) (hb : ∀ v, b = some v → isFin v = true) (t : List (Flt R))
    (ht : ∀ x ∈ t, Spec.IsFloat R x) : lfilter true (lit 1) b t = lfilter false (lit 1) b t := by
  have hz : isFin (lit 1 - lit 1 : Flt R) = true := by
    have : (lit 1 - lit 1 : Flt R) = (Ext.fin 0 : Ext ℚ) := by
      show R.round (Ext.add (R.fl 1) (Ext.neg (R.fl 1))) = _
      rw [R.fl_nat 1 (by norm_num) (by norm_num)]
      have : Ext.add (Ext.fin (1 : ℚ)) (Ext.neg (Ext.fin 1)) = Ext.fin 0 := by simp [Ext.add, Ext.neg]
      rw [this]
      exact R.fl_nat 0 (by norm_num) (by norm_num)
    rw [this]
    rfl
  have hf : isFin (betaOf (lit 1 : Flt R) b) = true := by
    unfold betaOf
    cases b with
    | none => exact hz
    | some v =>
      simp only
      split
      · exact hz
      · exact hb v rfl
  cases t with
  | nil => rfl
  | cons x xs =>
    unfold lfilter
    simp only [if_true, Bool.false_eq_true, if_false, spLfilter, smAcc]
    generalize betaOf (lit 1 : Flt R) b = v at hf
    rw [lfilterGo, flt_first hf (ht x List.mem_cons_self), lfilterGo_smAccGo_flt]

theorem isFloat_nan : Spec.IsFloat R (nan : Flt R) := rfl
theorem isFloat_lit (q : ℚ) : Spec.IsFloat R (lit q : Flt R) := isFloat_round (.fin q)
theorem isFloat_add (a b : Flt R) : Spec.IsFloat R (a + b : Flt R) := isFloat_round _
theorem isFloat_div (a b : Flt R) : Spec.IsFloat R (a / b : Flt R) := isFloat_round _

theorem isFloat_sumV (xs : List (Flt R)) : Spec.IsFloat R (sumV xs) := by
  unfold sumV
  have : ∀ (xs : List (Flt R)) (acc : Flt R), Spec.IsFloat R acc → Spec.IsFloat R (xs.foldl (· + ·) acc) := by
    intro xs
    induction xs with
    | nil => intro acc h; exact h
    | cons x xs ih => intro acc h; exact ih _ (isFloat_add _ _)
  exact this xs _ (isFloat_lit 0)

theorem isFloat_ewmPrefix {a : Line (Flt R)} {seed : Seed} {p1 pidx p2 : ℤ} {r : List (Flt R)}
    (ha : Spec.EachBar (Spec.IsFloat R) a) (h : ewmPrefix a seed p1 pidx p2 = .ok r) : ∀ v ∈ r, Spec.IsFloat R v := by
  have rep : ∀ {n : ℕ} {c v : Flt R}, Spec.IsFloat R c → v ∈ List.replicate n c → Spec.IsFloat R v := by
    intro n c v hc hv; rw [List.eq_of_mem_replicate hv]; exact hc
  have last : ∀ {n : ℕ} {c : Flt R} {r : List (Flt R)}, Spec.IsFloat R c →
      (if (List.replicate n (nan : Flt R)).isEmpty then Except.error Err.indexError
        else .ok ((List.replicate n (nan : Flt R)).dropLast ++ [c])) = .ok r → ∀ v ∈ r, Spec.IsFloat R v := by
    intro n c r hc h v hv
    split at h
    · exact nomatch h
    · injection h with h
      rw [← h] at hv
      rcases List.mem_append.mp hv with hv | hv
      · exact rep isFloat_nan (List.mem_of_mem_dropLast hv)
      · rw [List.mem_singleton.mp hv]; exact hc
  unfold ewmPrefix at h
  cases seed with
  | avg =>
    refine last ?_ h
    unfold meanSkipNa
    simp only
    split
    · exact isFloat_nan
    · exact isFloat_div _ _
  | last =>
    simp only at h
    cases hg : pyGet a.series pidx with
    | none => rw [hg] at h; exact nomatch h
    | some v =>
      rw [hg] at h
      refine last (ha v ?_) h
      unfold pyGet at hg
      split at hg
      · exact List.mem_of_getElem? hg
      · split at hg
        · exact List.mem_of_getElem? hg
        · exact nomatch hg
  | sum => exact last (isFloat_sumV _) h
  | none =>
    injection h with h
    intro v hv; rw [← h] at hv; exact rep isFloat_nan hv
  | zero => exact last (isFloat_lit 0) h
  | zfill =>
    injection h with h
    intro v hv; rw [← h] at hv; exact rep (isFloat_lit 0) hv

theorem isFloat_prepL {xs : List (Flt R)} (h : ∀ x ∈ xs, Spec.IsFloat R x) : ∀ x ∈ prepL xs, Spec.IsFloat R x := by
  intro v hv
  obtain ⟨x, hx, rfl⟩ := List.mem_map.mp hv
  split
  · exact h x hx
  · exact isFloat_nan

/-- **C11** (the accumulation): `smacc` gives the same line with and without scipy, however results are rounded, for each period from 1
to 16777216, each seed, and any line. -/
theorem C11_smacc_rounded (early : Bool) (seed : Seed) {p : ℕ} (hp : 1 ≤ p) (hp2 : p ≤ 2 ^ 24) (a : Line (Flt R))
    (ha : ∀ v ∈ a.series, Spec.IsFloat R v) : Ind.smacc true early seed p a = Ind.smacc false early seed p a := by
  have hfin : isFin (lit ((p : ℚ) - 1) / lit p : Flt R) = true := by
    have e1 : R.fl ((p : ℚ) - 1) = .fin ((p : ℚ) - 1) := R.fl_nat (p - 1) (by push_cast [Nat.cast_sub hp]; ring) (by omega)
    have e2 : R.fl (p : ℚ) = .fin p := R.nat p hp2
    have hp0 : (p : ℚ) ≠ 0 := by positivity
    show isFin (R.round (Ext.div (R.fl ((p : ℚ) - 1)) (R.fl p)) : Flt R) = true
    rw [e1, e2]
    have e3 : Ext.div (Ext.fin ((p : ℚ) - 1)) (Ext.fin (p : ℚ)) = Ext.fin (((p : ℚ) - 1) / p) := by simp [Ext.div, hp0]
    rw [e3]
    have hpos : (0 : ℚ) < p := by positivity
    have hp1 : (1 : ℚ) ≤ p := by exact_mod_cast hp
    have hw := R.round_within (lo := 0) (hi := 1) (R.fl_nat 0 (by norm_num) (by norm_num))
      (R.fl_nat 1 (by norm_num) (by norm_num)) (v := .fin (((p : ℚ) - 1) / p))
      (Or.inr ⟨_, rfl, div_nonneg (by linarith) hpos.le, by rw [div_le_one hpos]; linarith⟩)
    rcases hw with h | ⟨y, h, -, -⟩
    · exact absurd h (R.notNan _)
    · rw [h]; rfl
  unfold Ind.smacc ewmLfilter
  cases hn : ewmNew { pval := p, pearly := if early then 1 else 0, seed := seed } a with
  | error e => rfl
  | ok o =>
    have ht : ∀ x ∈ o.trailer, Spec.IsFloat R x := by
      unfold ewmNew at hn
      simp only at hn
      split at hn
      · exact nomatch hn
      · rename_i q hq
        injection hn with hn
        intro x hx
        rw [← hn] at hx
        rcases List.mem_append.mp hx with hx | hx
        · exact isFloat_ewmPrefix ha hq x hx
        · exact ha x (mem_pyFrom hx)
    simp only [ewmCall]
    rw [C11_scipy_same_rounded _ (by rintro v ⟨⟩; exact hfin) _ (isFloat_prepL ht)]

/-- a case: bars, minimum period and parameters -/
example : (1 ≤ 14 ∧ 14 ≤ 2 ^ 24) ∧ ∀ v ∈ ([Ext.fin 1, Ext.fin 3, Ext.nan, Ext.pinf] : List (Flt binary64)),
    Spec.IsFloat binary64 v := by
  refine ⟨by norm_num, ?_⟩
  intro v hv
  unfold Spec.IsFloat
  rcases List.mem_cons.mp hv with rfl | hv
  · decide +kernel
  rcases List.mem_cons.mp hv with rfl | hv
  · decide +kernel
  rcases List.mem_cons.mp hv with rfl | hv
  · rfl
  rcases List.mem_cons.mp hv with rfl | hv
  · rfl
  cases hv

/-- the first value with scipy, in double precision, for the factor 7/8 and the value 29 -/
def firstScipy : Ext ℚ := (fun al x : Flt binary64 => (al * (x / al) + betaOf al none * lit 0 : Flt binary64)) (Ext.fin (7/8) : Ext ℚ) (Ext.fin 29 : Ext ℚ)

/-- **C11** (only this factor): with the factor 7/8 instead of 1, in double precision, the two differ in the first value. -/
theorem C11_other_factors_differ : ∃ al x : Flt binary64, al = (Ext.fin (7/8) : Ext ℚ) ∧ Spec.IsFloat binary64 x ∧
    lfilter true al none [x] ≠ lfilter false al none [x] := by
  refine ⟨(Ext.fin (7/8) : Ext ℚ), (Ext.fin 29 : Ext ℚ), rfl, ?_, ?_⟩
  · unfold Spec.IsFloat
    decide +kernel
  · intro h
    have h2 : (firstScipy : Ext ℚ) = Ext.fin 29 := by
      injection h with h
      injection h
    exact absurd h2 (by unfold firstScipy; decide +kernel)

end Bta
