import Verif.Props.Rounding

/-!
# C131: averages follow their input in floating point arithmetic

C101 is about exact numbers.  Here each operation is rounded, in any way which keeps the order (`Rounding`, Float.lean), and data may be
missing or infinite.
-/

set_option linter.unusedSectionVars false
set_option linter.unusedVariables false

namespace Spec
open Bta

/-- `v` is not above `w`, or one of the two is missing -/
def NotOver (v w : Ext ℚ) : Prop := v = .nan ∨ w = .nan ∨ Ext.Le v w

/-- two lines with the same bars and minimum period; the first is nowhere above the second -/
structure Beneath {R : Rounding} (a b : Line (Flt R)) : Prop where
  minperiod : a.minperiod = b.minperiod
  length : a.series.length = b.series.length
  bar : ∀ (i : ℕ) (v w : Flt R), a.series[i]? = some v → b.series[i]? = some w → NotOver v w

/-- data is missing in both lines or in none -/
def SameGaps {R : Rounding} (a b : Line (Flt R)) : Prop :=
  ∀ (i : ℕ) (v w : Flt R), a.series[i]? = some v → b.series[i]? = some w → (v = (Ext.nan : Ext ℚ) ↔ w = (Ext.nan : Ext ℚ))

end Spec

namespace Bta
open Line Spec

/-! ## values -/

namespace Ext

theorem na_refl (v : Ext ℚ) : NotOver v v := by
  by_cases h : v = nan
  · exact Or.inl h
  · exact Or.inr (Or.inr (le_refl' h))

theorem na_add {a a' b b' : Ext ℚ} (h : NotOver a a') (g : NotOver b b') : NotOver (Ext.add a b) (Ext.add a' b') := by
  cases a <;> cases a' <;> cases b <;> cases b' <;>
    first
    | exact Or.inl rfl
    | exact Or.inr (Or.inl rfl)
    | exact Or.inr (Or.inr rfl)
    | (rcases h with h | h | h <;> first | cases h | exact (Bool.false_ne_true h).elim | (rcases g with g | g | g <;> first | cases g | exact (Bool.false_ne_true g).elim | (
        refine Or.inr (Or.inr ?_)
        first
        | exact h
        | exact g
        | (rw [le_fin'] at h g; exact le_fin'.mpr (add_le_add h g)))))

theorem na_infSign {x y : ℚ} (h : x ≤ y) : NotOver (infSign x) (infSign y) := by
  unfold infSign
  split_ifs <;> first | exact Or.inl rfl | exact Or.inr (Or.inl rfl) | exact Or.inr (Or.inr rfl) | (exfalso; linarith)

theorem na_infSign_pinf (x : ℚ) : NotOver (infSign x) pinf := by
  unfold infSign
  split_ifs <;> first | exact Or.inl rfl | exact Or.inr (Or.inr rfl)

theorem na_ninf_infSign (x : ℚ) : NotOver ninf (infSign x) := by
  unfold infSign
  split_ifs <;> first | exact Or.inr (Or.inl rfl) | exact Or.inr (Or.inr rfl)

theorem na_ninf_any (v : Ext ℚ) : NotOver ninf v := by
  by_cases h : v = nan
  · exact Or.inr (Or.inl h)
  · exact Or.inr (Or.inr (ninf_le h))

theorem na_any_pinf (v : Ext ℚ) : NotOver v pinf := by
  by_cases h : v = nan
  · exact Or.inl h
  · exact Or.inr (Or.inr (le_pinf h))

theorem na_mul {c a a' : Ext ℚ} (hc : NotNegative c) (h : NotOver a a') : NotOver (Ext.mul c a) (Ext.mul c a') := by
  rcases hc with rfl | hc
  · exact Or.inl rfl
  rcases h with rfl | rfl | h
  · left; cases c <;> rfl
  · right; left; cases c <;> rfl
  rcases nonneg_cases hc with rfl | ⟨k, rfl, hk⟩
  · cases a <;> cases a' <;> first | exact (Bool.false_ne_true h).elim | exact na_infSign (le_fin'.mp h) | exact na_infSign_pinf _ | exact na_ninf_any _ | exact na_any_pinf _
  · cases a <;> cases a' <;> first
      | exact (Bool.false_ne_true h).elim
      | exact Or.inr (Or.inr (le_fin'.mpr (mul_le_mul_of_nonneg_left (le_fin'.mp h) hk)))
      | exact na_refl _
      | (show NotOver _ (infSign k)
         rcases eq_or_lt_of_le hk with rfl | hk
         · right; left; simp [infSign]
         · rw [infSign, if_pos hk]; exact na_any_pinf _)
      | (show NotOver (infSign (-k)) _
         rcases eq_or_lt_of_le hk with rfl | hk
         · left; simp [infSign]
         · rw [infSign, if_neg (by linarith), if_pos (by linarith)]; exact na_ninf_any _)

theorem na_div {c a a' : Ext ℚ} (hc : NotNegative c) (h : NotOver a a') : NotOver (Ext.div a c) (Ext.div a' c) := by
  rcases hc with rfl | hc
  · left; cases a <;> rfl
  rcases h with rfl | rfl | h
  · left; cases c <;> rfl
  · right; left; cases c <;> rfl
  rcases nonneg_cases hc with rfl | ⟨k, rfl, hk⟩
  · cases a <;> cases a' <;> first | exact (Bool.false_ne_true h).elim | exact na_refl _ | exact Or.inl rfl | exact Or.inr (Or.inl rfl)
  · cases a <;> cases a' <;> first
      | exact (Bool.false_ne_true h).elim
      | (show NotOver (if k = 0 then _ else _) (if k = 0 then _ else _)
         split
         · exact na_infSign (le_fin'.mp h)
         · exact Or.inr (Or.inr (le_fin'.mpr (div_le_div_of_nonneg_right (le_fin'.mp h) hk))))
      | (show NotOver _ (if k < 0 then _ else _); rw [if_neg (not_lt.mpr hk)]; exact na_any_pinf _)
      | (show NotOver (if k < 0 then _ else _) _; rw [if_neg (not_lt.mpr hk)]; exact na_ninf_any _)

theorem na_mulr {c a a' : Ext ℚ} (hc : NotNegative c) (h : NotOver a a') : NotOver (Ext.mul a c) (Ext.mul a' c) := by
  have e : ∀ x y : Ext ℚ, Ext.mul x y = Ext.mul y x := by
    intro x y
    cases x <;> cases y <;> first | rfl | (show Ext.fin _ = Ext.fin _; rw [mul_comm])
  rw [e a, e a']
  exact na_mul hc h

theorem na_max {a a' b b' : Ext ℚ} (h : Ext.Le a a') (g : Ext.Le b b') : Ext.Le (if Ext.lt a b then b else a) (if Ext.lt a' b' then b' else a') := by
  by_cases h1 : Ext.lt a b = true <;> by_cases h2 : Ext.lt a' b' = true
  · rw [if_pos h1, if_pos h2]; exact g
  · rw [if_pos h1, if_neg h2]
    refine g.trans ?_
    cases a' <;> cases b' <;> first | rfl | (exfalso; exact h2 rfl) | (exfalso; revert h g; cases a <;> cases b <;> first | (intro h g; exact (Bool.false_ne_true h).elim) | (intro h g; exact (Bool.false_ne_true g).elim)) | skip
    simp [Ext.lt] at h2
    exact Ext.le_fin'.mpr h2
  · rw [if_neg h1, if_pos h2]
    refine h.trans ?_
    unfold Ext.Le Ext.le
    rw [h2]; rfl
  · rw [if_neg h1, if_neg h2]; exact h

theorem na_min {a a' b b' : Ext ℚ} (h : Ext.Le a a') (g : Ext.Le b b') : Ext.Le (if Ext.lt b a then b else a) (if Ext.lt b' a' then b' else a') := by
  by_cases h1 : Ext.lt b a = true <;> by_cases h2 : Ext.lt b' a' = true
  · rw [if_pos h1, if_pos h2]; exact g
  · rw [if_pos h1, if_neg h2]
    refine Ext.Le.trans ?_ h
    unfold Ext.Le Ext.le
    rw [h1]; rfl
  · rw [if_neg h1, if_pos h2]
    refine Ext.Le.trans ?_ g
    cases a <;> cases b <;> first | rfl | (exfalso; exact h1 rfl) | (exfalso; revert h g; cases a' <;> cases b' <;> first | (intro h g; exact (Bool.false_ne_true h).elim) | (intro h g; exact (Bool.false_ne_true g).elim)) | skip
    simp [Ext.lt] at h1
    exact Ext.le_fin'.mpr h1
  · rw [if_neg h1, if_neg h2]; exact h

end Ext

variable {R : Rounding}

theorem Rounding.na_round (R : Rounding) {a b : Ext ℚ} (h : NotOver a b) : NotOver (R.round a) (R.round b) := by
  rcases h with rfl | rfl | h
  · exact Or.inl rfl
  · exact Or.inr (Or.inl rfl)
  · exact Or.inr (Or.inr (R.round_mono h))

theorem na_add {a a' b b' : Flt R} (h : NotOver a a') (g : NotOver b b') : NotOver (a + b : Flt R) (a' + b' : Flt R) :=
  R.na_round (Ext.na_add h g)
theorem na_mul {c a a' : Flt R} (hc : NotNegative c) (h : NotOver a a') : NotOver (c * a : Flt R) (c * a' : Flt R) :=
  R.na_round (Ext.na_mul hc h)
theorem na_mulr {c a a' : Flt R} (hc : NotNegative c) (h : NotOver a a') : NotOver (a * c : Flt R) (a' * c : Flt R) := by
  exact R.na_round (Ext.na_mulr hc h)
theorem na_div {c a a' : Flt R} (hc : NotNegative c) (h : NotOver a a') : NotOver (a / c : Flt R) (a' / c : Flt R) :=
  R.na_round (Ext.na_div hc h)

theorem na_max {a a' b b' : Flt R} (h : Ext.Le a a') (g : Ext.Le b b') : Ext.Le (maxV a b : Flt R) (maxV a' b' : Flt R) := Ext.na_max h g
theorem na_min {a a' b b' : Flt R} (h : Ext.Le a a') (g : Ext.Le b b') : Ext.Le (minV a b : Flt R) (minV a' b' : Flt R) := Ext.na_min h g

/-! ## lists -/

abbrev Lists (xs ys : List (Flt R)) : Prop := List.Forall₂ (NotOver : Ext ℚ → Ext ℚ → Prop) xs ys

theorem na_foldl {f : Flt R → Flt R → Flt R} (hf : ∀ a a' b b', NotOver a a' → NotOver b b' → NotOver (f a b) (f a' b'))
    {xs ys : List (Flt R)} (h : Lists xs ys) : ∀ {a b : Flt R}, NotOver a b → NotOver (xs.foldl f a) (ys.foldl f b) := by
  induction h with
  | nil => intro a b h; exact h
  | cons hx _ ih => intro a b h; exact ih (hf _ _ _ _ h hx)

theorem na_sumV {xs ys : List (Flt R)} (h : Lists xs ys) : NotOver (sumV xs : Flt R) (sumV ys : Flt R) :=
  na_foldl (fun _ _ _ _ => na_add) h (Ext.na_refl _)

theorem na_whenAll {f : List (Flt R) → Flt R} {xs ys : List (Flt R)} (h : xs.all isFin = true → ys.all isFin = true → NotOver (f xs) (f ys)) :
    NotOver (whenAllFin f xs : Flt R) (whenAllFin f ys : Flt R) := by
  unfold whenAllFin
  by_cases h1 : xs.all isFin = true
  · by_cases h2 : ys.all isFin = true
    · rw [if_pos h1, if_pos h2]; exact h h1 h2
    · rw [if_neg h2]; exact Or.inr (Or.inl rfl)
  · rw [if_neg h1]; exact Or.inl rfl

theorem na_aggSum {xs ys : List (Flt R)} (h : Lists xs ys) : NotOver (aggSum xs : Flt R) (aggSum ys : Flt R) :=
  na_whenAll fun _ _ => na_sumV h

theorem na_aggMean {xs ys : List (Flt R)} (h : Lists xs ys) : NotOver (aggMean xs : Flt R) (aggMean ys : Flt R) :=
  na_whenAll fun _ _ => by
    have e : xs.length = ys.length := h.length_eq
    rw [e]
    exact na_div (nn_lit (by positivity)) (na_sumV h)

theorem le_of_fin {a b : Flt R} (h : NotOver a b) (ha : isFin a = true) (hb : isFin b = true) : Ext.Le a b := by
  rcases h with rfl | rfl | h
  · exact nomatch ha
  · exact nomatch hb
  · exact h

theorem na_extreme {f : Flt R → Flt R → Flt R} (hf : ∀ a a' b b', Ext.Le a a' → Ext.Le b b' → Ext.Le (f a b) (f a' b'))
    {xs ys : List (Flt R)} (h : Lists xs ys) (h1 : xs.all isFin = true) (h2 : ys.all isFin = true) :
    ∀ {a b : Flt R}, Ext.Le a b → Ext.Le (xs.foldl f a) (ys.foldl f b) := by
  induction h with
  | nil => intro a b h; exact h
  | cons hx _ ih =>
    intro a b hab
    rw [List.all_cons, Bool.and_eq_true] at h1 h2
    exact ih h1.2 h2.2 (hf _ _ _ _ hab (le_of_fin hx h1.1 h2.1))

theorem na_aggMax {xs ys : List (Flt R)} (h : Lists xs ys) : NotOver (aggMax xs : Flt R) (aggMax ys : Flt R) := by
  refine na_whenAll fun h1 h2 => ?_
  cases h with
  | nil => exact Or.inl rfl
  | cons hx ht =>
    rw [List.all_cons, Bool.and_eq_true] at h1 h2
    exact Or.inr (Or.inr (na_extreme (fun _ _ _ _ => na_max) ht h1.2 h2.2 (le_of_fin hx h1.1 h2.1)))
theorem na_aggMin {xs ys : List (Flt R)} (h : Lists xs ys) : NotOver (aggMin xs : Flt R) (aggMin ys : Flt R) := by
  refine na_whenAll fun h1 h2 => ?_
  cases h with
  | nil => exact Or.inl rfl
  | cons hx ht =>
    rw [List.all_cons, Bool.and_eq_true] at h1 h2
    exact Or.inr (Or.inr (na_extreme (fun _ _ _ _ => na_min) ht h1.2 h2.2 (le_of_fin hx h1.1 h2.1)))

theorem na_dot {ws : List (Flt R)} (hw : ∀ w ∈ ws, NotNegative w) {xs ys : List (Flt R)} (h : Lists xs ys) :
    NotOver (dotV xs ws : Flt R) (dotV ys ws : Flt R) := by
  refine na_sumV ?_
  induction h generalizing ws with
  | nil => cases ws <;> exact .nil
  | cons hx _ ih =>
    cases ws with
    | nil => exact .nil
    | cons w ws =>
      exact .cons (na_mulr (hw w List.mem_cons_self) hx) (ih fun v hv => hw v (List.mem_cons_of_mem _ hv))

/-! ## lines -/

namespace Follow

theorem lists {a b : Line (Flt R)} (h : Beneath a b) : Lists a.series b.series := by
  exact List.forall₂_iff_get.mpr ⟨h.length, fun i h1 h2 => h.bar i _ _ (List.getElem?_eq_getElem h1) (List.getElem?_eq_getElem h2)⟩

theorem of {a b : Line (Flt R)} (h1 : a.minperiod = b.minperiod) (h2 : Lists a.series b.series) : Beneath a b := by
  refine ⟨h1, h2.length_eq, fun i v w hv hw => ?_⟩
  obtain ⟨hi, rfl⟩ := List.getElem?_eq_some_iff.mp hv
  obtain ⟨hi', rfl⟩ := List.getElem?_eq_some_iff.mp hw
  exact (List.forall₂_iff_get.mp h2).2 i hi hi'

theorem drop {xs ys : List (Flt R)} (h : Lists xs ys) (k : ℕ) : Lists (xs.drop k) (ys.drop k) := List.forall₂_drop k h
theorem take {xs ys : List (Flt R)} (h : Lists xs ys) (k : ℕ) : Lists (xs.take k) (ys.take k) := List.forall₂_take k h

theorem pyFrom {xs ys : List (Flt R)} (h : Lists xs ys) (i : Int) : Lists (Bta.pyFrom xs i) (Bta.pyFrom ys i) := by
  unfold Bta.pyFrom
  have e : xs.length = ys.length := List.Forall₂.length_eq h
  rw [e]
  exact drop h _

theorem setFrom (n : ℕ) (i : Int) {xs ys : List (Flt R)} (h : Lists xs ys) : Lists (Bta.setFrom n nan i xs) (Bta.setFrom n nan i ys) := by
  unfold Bta.setFrom
  refine List.rel_append ?_ h
  exact List.forall₂_same.mpr fun v _ => Ext.na_refl v

theorem zipWith {f : Flt R → Flt R → Flt R} (hf : ∀ a a' b b', NotOver a a' → NotOver b b' → NotOver (f a b) (f a' b'))
    {xs xs' ys ys' : List (Flt R)} (h : Lists xs xs') (g : Lists ys ys') : Lists (List.zipWith f xs ys) (List.zipWith f xs' ys') := by
  induction h generalizing ys ys' with
  | nil => exact .nil
  | cons hx _ ih =>
    cases g with
    | nil => exact .nil
    | cons hy g => exact .cons (hf _ _ _ _ hx hy) (ih g)

theorem binop {f : Flt R → Flt R → Flt R} (hf : ∀ a a' b b', NotOver a a' → NotOver b b' → NotOver (f a b) (f a' b'))
    {a a' b b' : Line (Flt R)} (h : Beneath a a') (g : Beneath b b') : Beneath (bin f a b) (bin f a' b') := by
  unfold bin Line.binop
  simp only [h.minperiod, g.minperiod, h.length]
  refine of ?_ ?_
  · unfold clone; simp only [h.minperiod]
  · exact setFrom _ _ (zipWith hf (pyFrom (lists h) _) (pyFrom (lists g) _))

theorem binopS {f : Flt R → Flt R → Flt R} {c : Flt R} (hf : ∀ a a', NotOver a a' → NotOver (f a c) (f a' c))
    {a a' : Line (Flt R)} (h : Beneath a a') : Beneath (binS f a c) (binS f a' c) := by
  unfold binS Line.binopS
  simp only [h.minperiod, h.length]
  refine of ?_ ?_
  · unfold clone; simp only [h.minperiod]
  · refine setFrom _ _ ?_
    have := pyFrom (lists h) (max a'.minperiod 1 - 1)
    exact List.forall₂_map_left_iff.mpr (List.forall₂_map_right_iff.mpr (List.Forall₂.imp (fun _ _ => hf _ _) this))

theorem rolling {agg : List (Flt R) → Flt R} (hf : ∀ xs ys, Lists xs ys → NotOver (agg xs) (agg ys)) (w : ℕ)
    {a a' : Line (Flt R)} (h : Beneath a a') : Beneath (Line.rolling w agg a) (Line.rolling w agg a') := by
  unfold Line.rolling
  simp only [h.minperiod, h.length]
  refine of ?_ ?_
  · unfold clone; simp only [h.minperiod]
  · refine setFrom _ _ ?_
    have := pyFrom (lists h) (a'.minperiod - 1)
    unfold rollL
    have e : (Bta.pyFrom a.series (a'.minperiod - 1)).length = (Bta.pyFrom a'.series (a'.minperiod - 1)).length := List.Forall₂.length_eq this
    rw [e]
    refine List.forall₂_map_left_iff.mpr (List.forall₂_map_right_iff.mpr (List.forall₂_same.mpr fun i _ => ?_))
    split
    · exact Or.inl rfl
    · exact hf _ _ (drop (take this _) _)

theorem add {a a' b b' : Line (Flt R)} (h : Beneath a a') (g : Beneath b b') : Beneath (a + b) (a' + b') :=
  binop (fun _ _ _ _ => na_add) h g
theorem divS {c : Flt R} (hc : NotNegative c) {a a' : Line (Flt R)} (h : Beneath a a') : Beneath (a.divS c) (a'.divS c) :=
  binopS (fun _ _ => na_div hc) h
theorem mulS {c : Flt R} (hc : NotNegative c) {a a' : Line (Flt R)} (h : Beneath a a') : Beneath (a.mulS c) (a'.mulS c) :=
  binopS (fun _ _ => na_mulr hc) h
theorem rmulS {c : Flt R} (hc : NotNegative c) {a a' : Line (Flt R)} (h : Beneath a a') : Beneath (Line.rmulS c a) (Line.rmulS c a') :=
  binopS (f := fun x c => c * x) (fun _ _ => na_mul hc) h

/-! ### the recursive accumulation -/

/-- not above, and missing together -/
def Both (v w : Ext ℚ) : Prop := NotOver v w ∧ (v = .nan ↔ w = .nan)

theorem both {a b : Line (Flt R)} (h : Beneath a b) (g : SameGaps a b) : List.Forall₂ Both a.series b.series :=
  List.forall₂_iff_get.mpr ⟨h.length, fun i h1 h2 => ⟨h.bar i _ _ (List.getElem?_eq_getElem h1) (List.getElem?_eq_getElem h2),
    g i _ _ (List.getElem?_eq_getElem h1) (List.getElem?_eq_getElem h2)⟩⟩

theorem both_slice {xs ys : List (Flt R)} (h : List.Forall₂ Both xs ys) (i j : Int) :
    List.Forall₂ Both (pySlice xs i j : List (Flt R)) (pySlice ys i j : List (Flt R)) := by
  unfold pySlice
  have e : xs.length = ys.length := List.Forall₂.length_eq h
  rw [e]
  exact List.forall₂_drop _ (List.forall₂_take _ h)

theorem isNaN_iff (v : Flt R) : isNaN v = true ↔ v = (Ext.nan : Ext ℚ) := by
  cases v <;> (constructor <;> intro h <;> first | rfl | cases h)

theorem both_filter {xs ys : List (Flt R)} (h : List.Forall₂ Both xs ys) :
    Lists (xs.filter fun x => !isNaN x) (ys.filter fun x => !isNaN x) := by
  induction h with
  | nil => exact .nil
  | @cons v w vs ws hv _ ih =>
    have e : isNaN (v : Flt R) = isNaN (w : Flt R) := by
      rw [Bool.eq_iff_iff, isNaN_iff, isNaN_iff]
      exact hv.2
    rw [List.filter_cons, List.filter_cons, e]
    split
    · exact .cons hv.1 ih
    · exact ih

theorem na_sumSkip {xs ys : List (Flt R)} (h : List.Forall₂ Both xs ys) : NotOver (sumSkipNa xs : Flt R) (sumSkipNa ys : Flt R) :=
  na_sumV (both_filter h)

theorem na_meanSkip {xs ys : List (Flt R)} (h : List.Forall₂ Both xs ys) : NotOver (meanSkipNa xs : Flt R) (meanSkipNa ys : Flt R) := by
  have k := both_filter h
  have e : (xs.filter fun x => !isNaN x).length = (ys.filter fun x => !isNaN x).length := List.Forall₂.length_eq k
  have e' : (xs.filter fun x => !isNaN x).isEmpty = (ys.filter fun x => !isNaN x).isEmpty := by
    rw [Bool.eq_iff_iff, List.isEmpty_iff_length_eq_zero, List.isEmpty_iff_length_eq_zero, e]
  unfold meanSkipNa
  simp only [e', e]
  split
  · exact Or.inl rfl
  · exact na_div (nn_lit (by positivity)) (na_sumV k)

theorem same (xs : List (Flt R)) : Lists xs xs := List.forall₂_same.mpr fun v _ => Ext.na_refl v

/-- the seed -/
theorem ewmPrefix {a b : Line (Flt R)} {seed : Seed} {p1 pidx p2 : Int} {r r' : List (Flt R)} (h : List.Forall₂ Both a.series b.series)
    (hr : Line.ewmPrefix a seed p1 pidx p2 = .ok r) (hr' : Line.ewmPrefix b seed p1 pidx p2 = .ok r') : Lists r r' := by
  have e : a.series.length = b.series.length := List.Forall₂.length_eq h
  unfold Line.ewmPrefix at hr hr'
  simp only [e] at hr hr'
  have last : ∀ {t : List (Flt R)} {v w : Flt R} {r r' : List (Flt R)}, NotOver v w →
      (if t.isEmpty then (.error .indexError : Except Err (List (Flt R))) else .ok (t.dropLast ++ [v])) = .ok r →
      (if t.isEmpty then (.error .indexError : Except Err (List (Flt R))) else .ok (t.dropLast ++ [w])) = .ok r' → Lists r r' := by
    intro t v w r r' hv h1 h2
    split at h1
    · cases h1
    · rename_i ht
      rw [if_neg ht] at h2
      cases h1; cases h2
      exact List.rel_append (same _) (.cons hv .nil)
  cases seed with
  | avg => exact last (na_meanSkip (both_slice h _ _)) hr hr'
  | sum => exact last (na_sumSkip (both_slice h _ _)) hr hr'
  | zero => exact last (Ext.na_refl _) hr hr'
  | none => cases hr; cases hr'; exact same _
  | zfill => cases hr; cases hr'; exact same _
  | last =>
    simp only at hr hr'
    cases h1 : pyGet a.series pidx with
    | none => rw [h1] at hr; cases hr
    | some v =>
      cases h2 : pyGet b.series pidx with
      | none => rw [h2] at hr'; cases hr'
      | some w =>
        rw [h1] at hr; rw [h2] at hr'
        refine last ?_ hr hr'
        have key : ∀ {k : ℕ}, a.series[k]? = some v → b.series[k]? = some w → NotOver v w := by
          intro k hk hk'
          obtain ⟨hi, rfl⟩ := List.getElem?_eq_some_iff.mp hk
          obtain ⟨hi', rfl⟩ := List.getElem?_eq_some_iff.mp hk'
          exact ((List.forall₂_iff_get.mp h).2 k hi hi').1
        unfold pyGet at h1 h2
        rw [e] at h1
        split at h1
        · rename_i hc; rw [if_pos hc] at h2; exact key h1 h2
        · rename_i hc
          rw [if_neg hc] at h2
          split at h1
          · rename_i hc; rw [if_pos hc] at h2; exact key h1 h2
          · cases h1

theorem prep {xs ys : List (Flt R)} (h : Lists xs ys) : Lists (prepL xs) (prepL ys) := by
  refine List.forall₂_map_left_iff.mpr (List.forall₂_map_right_iff.mpr (List.Forall₂.imp (fun v w hv => ?_) h))
  show NotOver (if isFin (v : Flt R) then v else nan) (if isFin (w : Flt R) then w else nan)
  by_cases h1 : isFin (v : Flt R) = true
  · by_cases h2 : isFin (w : Flt R) = true
    · simp only [h1, h2]; exact hv
    · simp only [h2]; exact Or.inr (Or.inl rfl)
  · simp only [h1]; exact Or.inl rfl

theorem smAccGo {alpha beta : Flt R} (h1 : NotNegative alpha) (h2 : NotNegative beta) {xs ys : List (Flt R)} (h : Lists xs ys) :
    ∀ {u v : Flt R}, NotOver u v → Lists (Line.smAccGo alpha beta u xs) (Line.smAccGo alpha beta v ys) := by
  induction h with
  | nil => intro u v _; exact .nil
  | cons hx _ ih =>
    intro u v huv
    have := na_add (na_mul h2 huv) (na_mul h1 hx)
    exact .cons this (ih this)

theorem lfilterGo {alpha beta : Flt R} (h1 : NotNegative alpha) (h2 : NotNegative beta) {xs ys : List (Flt R)} (h : Lists xs ys) :
    ∀ {u v : Flt R}, NotOver u v → Lists (Line.lfilterGo alpha beta u xs) (Line.lfilterGo alpha beta v ys) := by
  induction h with
  | nil => intro u v _; exact .nil
  | cons hx _ ih =>
    intro u v huv
    have := na_add (na_mul h1 hx) (na_mul h2 huv)
    exact .cons this (ih this)

theorem lfilter {scipy : Bool} {alpha : Flt R} {beta : Option (Flt R)} (h1 : NotNegative alpha) (h2 : NotNegative (betaOf alpha beta : Flt R))
    {xs ys r r' : List (Flt R)} (h : Lists xs ys) (hr : Line.lfilter scipy alpha beta xs = .ok r)
    (hr' : Line.lfilter scipy alpha beta ys = .ok r') : Lists r r' := by
  unfold Line.lfilter at hr hr'
  cases h with
  | nil => cases scipy <;> cases hr
  | cons hx ht =>
    cases scipy
    · cases hr; cases hr'
      exact .cons hx (smAccGo h1 h2 ht hx)
    · cases hr; cases hr'
      exact lfilterGo h1 h2 (.cons (na_div h1 hx) ht) (Ext.na_refl _)

theorem ewmLfilter {scipy : Bool} {c : EwmCfg} {alpha : Flt R} {beta : Option (Flt R)} (h1 : NotNegative alpha)
    (h2 : NotNegative (betaOf alpha beta : Flt R)) {a b r r' : Line (Flt R)} (h : Beneath a b) (g : SameGaps a b)
    (hr : Line.ewmLfilter scipy c alpha beta a = .ok r) (hr' : Line.ewmLfilter scipy c alpha beta b = .ok r') : Beneath r r' := by
  have hb := both h g
  unfold Line.ewmLfilter Line.ewmNew at hr hr'
  simp only [h.minperiod] at hr hr'
  cases k1 : Line.ewmPrefix a c.seed (c.p2 b.minperiod - c.pval) (c.p2 b.minperiod - 1) (c.p2 b.minperiod) with
  | error e => rw [k1] at hr; cases hr
  | ok t =>
    cases k2 : Line.ewmPrefix b c.seed (c.p2 b.minperiod - c.pval) (c.p2 b.minperiod - 1) (c.p2 b.minperiod) with
    | error e => rw [k2] at hr'; cases hr'
    | ok t' =>
      rw [k1] at hr; rw [k2] at hr'
      have ht := ewmPrefix hb k1 k2
      unfold Line.ewmCall at hr hr'
      simp only [h.minperiod, h.length] at hr hr'
      cases k3 : Line.lfilter scipy alpha beta (prepL (t ++ Bta.pyFrom a.series (c.p2 b.minperiod))) with
      | error e => rw [k3] at hr; cases hr
      | ok u =>
        cases k4 : Line.lfilter scipy alpha beta (prepL (t' ++ Bta.pyFrom b.series (c.p2 b.minperiod))) with
        | error e => rw [k4] at hr'; cases hr'
        | ok u' =>
          rw [k3] at hr; rw [k4] at hr'
          simp only at hr hr'
          have hu := lfilter h1 h2 (prep (List.rel_append ht (pyFrom (lists h) _))) k3 k4
          split at hr
          · split at hr'
            · cases hr; cases hr'
              exact of (by unfold clone; simp only [h.minperiod]) (setFrom _ _ hu)
            · cases hr'
          · cases hr

end Follow

/-! ## C131 -/

section
variable {a b : Line (Flt R)}

/-- **C131** the rolling sum -/
theorem C131_sum (p : ℕ) (h : Beneath a b) : Beneath (Ind.sumN p a) (Ind.sumN p b) := Follow.rolling (fun _ _ => na_aggSum) p h
/-- **C131** the rolling maximum -/
theorem C131_max (p : ℕ) (h : Beneath a b) : Beneath (Ind.highest p a) (Ind.highest p b) := Follow.rolling (fun _ _ => na_aggMax) p h
/-- **C131** the rolling minimum -/
theorem C131_min (p : ℕ) (h : Beneath a b) : Beneath (Ind.lowest p a) (Ind.lowest p b) := Follow.rolling (fun _ _ => na_aggMin) p h

/-- **C131** the simple average -/
theorem C131_sma (p : ℕ) (h : Beneath a b) : ∃ r s, Ind.sma p a = .ok r ∧ Ind.sma p b = .ok s ∧ Beneath r s :=
  ⟨_, _, rfl, rfl, Follow.rolling (fun _ _ => na_aggMean) p h⟩

/-- **C131** the weighted average -/
theorem C131_wma (p : ℕ) (h : Beneath a b) : ∃ r s, Ind.wma p a = .ok r ∧ Ind.wma p b = .ok s ∧ Beneath r s := by
  refine ⟨_, _, rfl, rfl, Follow.rmulS (nn_div (nn_lit (by norm_num)) (nn_lit (by positivity))) (Follow.rolling (fun xs ys hxy => ?_) p h)⟩
  refine na_whenAll fun _ _ => na_dot (fun w hw => ?_) hxy
  obtain ⟨j, _, rfl⟩ := List.mem_map.mp hw
  exact nn_lit (by positivity)

/-- **C131** the triangular average -/
theorem C131_trima (p : ℕ) (h : Beneath a b) : ∃ r s, Ind.trima p a = .ok r ∧ Ind.trima p b = .ok s ∧ Beneath r s := by
  unfold Ind.trima
  split
  exact ⟨_, _, rfl, rfl, Follow.rolling (fun _ _ => na_aggMean) _ (Follow.rolling (fun _ _ => na_aggMean) _ h)⟩

/-- **C131** the recursive accumulation, with every seed, early start, with or without scipy: if data are missing at the same bars -/
theorem C131_smacc (scipy pearly : Bool) (seed : Seed) {p : ℕ} (hp : 1 ≤ p) {r s : Line (Flt R)} (h : Beneath a b) (g : SameGaps a b)
    (hr : Ind.smacc scipy pearly seed p a = .ok r) (hs : Ind.smacc scipy pearly seed p b = .ok s) : Beneath r s := by
  refine Follow.ewmLfilter (nn_lit (by norm_num)) ?_ h g hr hs
  unfold betaOf
  simp only
  split
  · show NotNegative (R.round (Ext.add (R.round (.fin 1)) (Ext.neg (R.round (.fin 1)))))
    cases R.round (.fin 1) with
    | fin x =>
      right
      show Ext.Le (.fin 0) (R.fl (x + -x))
      rw [add_neg_cancel, R.fl_zero]
      exact Ext.le_fin'.mpr le_rfl
    | _ => exact Or.inl rfl
  · exact nn_div (nn_lit (by have : (1 : ℚ) ≤ p := by exact_mod_cast hp
                             linarith)) (nn_lit (by positivity))

variable {a' b' c c' d d' : Line (Flt R)}

/-- **C131** the middle of the highest and lowest price -/
theorem C131_midprice (p : ℕ) (h : Beneath a a') (l : Beneath b b') : Beneath (Ind.midprice p a b) (Ind.midprice p a' b') :=
  Follow.divS (nn_lit (by norm_num)) (Follow.add (C131_max p h) (C131_min p l))
/-- **C131** the middle of the highest and lowest value -/
theorem C131_midpoint (p : ℕ) (h : Beneath a a') : Beneath (Ind.midpoint p a) (Ind.midpoint p a') := C131_midprice p h h

/-- **C131** the prices of a bar -/
theorem C131_prices {divisor weight : Flt R} (k : NotNegative divisor) (w : NotNegative weight) (ho : Beneath a a') (hh : Beneath b b')
    (hl : Beneath c c') (hc : Beneath d d') :
    Beneath (Ind.medprice divisor b c) (Ind.medprice divisor b' c') ∧ Beneath (Ind.typprice divisor b c d) (Ind.typprice divisor b' c' d') ∧
      Beneath (Ind.avgprice divisor a b c d) (Ind.avgprice divisor a' b' c' d') ∧
      Beneath (Ind.wclprice weight divisor b c d) (Ind.wclprice weight divisor b' c' d') :=
  ⟨Follow.divS k (Follow.add hh hl), Follow.divS k (Follow.add (Follow.add hh hl) hc),
    Follow.divS k (Follow.add (Follow.add (Follow.add ho hh) hl) hc), Follow.divS k (Follow.add (Follow.add hh hl) (Follow.mulS w hc))⟩

end

/-! ## cases and counterparts -/

theorem Follow.doubles {xs ys : List ℚ} (h : List.Forall₂ (· ≤ ·) xs ys) : Beneath (doubles xs) (doubles ys) :=
  Follow.of rfl (List.forall₂_map_left_iff.mpr (List.forall₂_map_right_iff.mpr
    (h.imp fun _ _ hx => Or.inr (Or.inr (binary64.round_mono (Ext.le_fin'.mpr hx))))))

/-- both are lines and at bar `i` the second one is below the first one -/
def crosses (i : ℕ) (r s : Except Err (Line (Flt binary64))) : Bool :=
  match r, s with
  | .ok r, .ok s => match r.series[i]?, s.series[i]? with
    | some v, some w => lt w v
    | _, _ => false
  | _, _ => false

theorem Follow.crosses {i : ℕ} {r s : Except Err (Line (Flt binary64))} (h : crosses i r s = true) :
    ∃ r' s', r = .ok r' ∧ s = .ok s' ∧ ¬ Beneath r' s' := by
  cases r with
  | error e => cases h
  | ok r =>
    cases s with
    | error e => cases h
    | ok s =>
      refine ⟨r, s, rfl, rfl, fun g => ?_⟩
      simp only [Bta.crosses] at h
      cases h1 : r.series[i]? with
      | none => rw [h1] at h; cases h
      | some v =>
        cases h2 : s.series[i]? with
        | none => rw [h1, h2] at h; cases h
        | some w =>
          rw [h1, h2] at h
          have k := g.bar i v w h1 h2
          change Ext.lt w v = true at h
          rcases k with rfl | rfl | k
          · cases w <;> cases h
          · cases v <;> cases h
          · cases v <;> cases w <;> first | exact (Bool.false_ne_true k).elim | exact (Bool.false_ne_true h).elim | skip
            rw [Ext.le_fin'] at k
            exact absurd (of_decide_eq_true h) (not_lt.mpr k)

/-- **C131** (counterpart) in double precision a higher price can lower the exponential average: eleven bars at 79.52, and the same
with the last price raised to the next number of the format.  The value of the average is then below each of the prices. -/
theorem C131_not_ema : ∃ xs ys : List ℚ, List.Forall₂ (· ≤ ·) xs ys ∧ Beneath (doubles xs) (doubles ys) ∧
    ∃ r s, Ind.ema 10 (doubles xs) = .ok r ∧ Ind.ema 10 (doubles ys) = .ok s ∧ ¬ Beneath r s :=
  have h : List.Forall₂ (· ≤ ·) (List.replicate 10 (5595722537007841/70368744177664 : ℚ) ++ [5595722537007841/70368744177664]) (List.replicate 10 (5595722537007841/70368744177664 : ℚ) ++ [2797861268503921/35184372088832]) := by
    decide +kernel
  ⟨_, _, h, Follow.doubles h, Follow.crosses (i := 10) (by decide +kernel)⟩

/-- **C131** (counterpart) and the smoothed average: ten bars at 84.23 -/
theorem C131_not_smma : ∃ xs ys : List ℚ, List.Forall₂ (· ≤ ·) xs ys ∧ Beneath (doubles xs) (doubles ys) ∧
    ∃ r s, Ind.smma 9 (doubles xs) = .ok r ∧ Ind.smma 9 (doubles ys) = .ok s ∧ ¬ Beneath r s :=
  have h : List.Forall₂ (· ≤ ·) (List.replicate 9 (5927159322084639/70368744177664 : ℚ) ++ [5927159322084639/70368744177664]) (List.replicate 9 (5927159322084639/70368744177664 : ℚ) ++ [185223728815145/2199023255552]) := by
    decide +kernel
  ⟨_, _, h, Follow.doubles h, Follow.crosses (i := 9) (by decide +kernel)⟩

/-- **C107** (negation) the exponential average can be below all the prices it averages, in double precision: ten bars at 79.52, then the next number of the format. -/
theorem C107_not_ema : ∃ (lo : ℚ) (xs : List ℚ), (∀ x ∈ xs, lo ≤ x) ∧
    (match Ind.ema 10 (doubles xs) with | .ok r => someBelow lo r | _ => false) = true :=
  ⟨5595722537007841/70368744177664, List.replicate 10 (5595722537007841/70368744177664) ++ [2797861268503921/35184372088832], by decide +kernel, by decide +kernel⟩

/-- **C107** (negation) the smoothed average can be below all the prices it averages, in double precision. -/
theorem C107_not_smma : ∃ (lo : ℚ) (xs : List ℚ), (∀ x ∈ xs, lo ≤ x) ∧
    (match Ind.smma 9 (doubles xs) with | .ok r => someBelow lo r | _ => false) = true :=
  ⟨5927159322084639/70368744177664, List.replicate 9 (5927159322084639/70368744177664) ++ [185223728815145/2199023255552], by decide +kernel, by decide +kernel⟩

/-- C131, a case: data with missing and infinite values in double precision -/
def lowData : Line (Flt binary64) := ⟨[lit (1/10), lit (2/10), lit (3/10), Ext.nan, lit (1/3), lit 4, lit 5, Ext.ninf, lit 1], 1⟩
@[inherit_doc lowData]
def highData : Line (Flt binary64) := ⟨[lit (2/10), lit (2/10), lit (4/10), Ext.nan, lit (1/3), lit 6, lit 5, lit 0, Ext.pinf], 1⟩

theorem lowData_beneath : Beneath lowData highData :=
  Follow.of rfl (by
    unfold lowData highData
    repeat' first
      | exact List.Forall₂.nil
      | refine List.Forall₂.cons ?_ ?_
    all_goals first
      | exact Or.inl rfl
      | exact Or.inr (Or.inr (by decide +kernel)))

theorem lowData_gaps : SameGaps lowData highData := by
  intro i v w hv hw
  match i with
  | 0 | 1 | 2 | 4 | 5 | 6 | 7 | 8 =>
    cases hv; cases hw
    exact (Follow.isNaN_iff _).symm.trans (Iff.trans (by decide +kernel) (Follow.isNaN_iff _))
  | 3 => cases hv; cases hw; simp
  | n + 9 => cases hv

example : Beneath (Ind.sumN 2 lowData) (Ind.sumN 2 highData) := C131_sum 2 lowData_beneath
/-- the sums at bars 1, 2 and 5 are numbers, and those of the second line are greater -/
example : ([1, 2, 5].map fun i => match (Ind.sumN 2 lowData).series[i]?, (Ind.sumN 2 highData).series[i]? with
    | some v, some w => lt v w | _, _ => false) = [true, true, true] := by decide +kernel
example : ∃ r s, Ind.smacc true false .sum 3 lowData = .ok r ∧ Ind.smacc true false .sum 3 highData = .ok s ∧ Beneath r s :=
  ⟨_, _, rfl, rfl, C131_smacc true false .sum (p := 3) (by norm_num) lowData_beneath lowData_gaps rfl rfl⟩

end Bta
