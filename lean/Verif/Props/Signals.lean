import Verif.Props.Rounding
import Verif.Lemmas.Natural

/-!
# C111: signals do not depend on rounding

The values of a line in an arithmetic with rounding (`Flt R`) are exact numbers as well: `Spec.exact` is the same line for exact
arithmetic.  Indicators which answer which of two values is the greater give the same answers in both.
-/

set_option linter.unusedSectionVars false
set_option linter.unusedVariables false

namespace Spec
open Bta

/-- the same numbers, for exact arithmetic -/
def exact {R : Rounding} (a : Line (Flt R)) : Line (Ext ℚ) := a

/-- Each value is missing, infinite or a number of the arithmetic (not one which would have to be rounded). -/
def Stored {R : Rounding} (a : Line (Flt R)) : Prop := ∀ x ∈ a.series, ∀ q : ℚ, x = Ext.fin q → R.fl q = Ext.fin q

/-- two numbers of the arithmetic which are not the same have a difference which is not rounded to zero -/
def Gradual (R : Rounding) : Prop := ∀ x y : ℚ, R.fl x = Ext.fin x → R.fl y = Ext.fin y → x ≠ y → R.fl (x - y) ≠ Ext.fin 0

end Spec

namespace Bta
open Line Spec

/-! ## binary64 has the property, thanks to its subnormal numbers -/

theorem fl64_grid {x : ℚ} (h : fl64 x = .fin x) : ∃ n : ℤ, x = n * pow2 (-1074) := by
  have pos : ∀ x : ℚ, 0 < x → fl64 x = .fin x → ∃ n : ℤ, x = n * pow2 (-1074) := by
    intro x hx h
    rw [fl64_pos hx] at h
    obtain ⟨e, _⟩ := overflow_fin h
    have hu : -1074 ≤ ulpExp x := le_max_right _ _
    obtain ⟨k, hk⟩ := Int.le.dest hu
    have hp : pow2 (ulpExp x) = ((2 ^ k : ℕ) : ℚ) * pow2 (-1074) := by
      rw [← hk, pow2_add, pow2_nat]; ring
    have e' : (roundEven (x / pow2 (ulpExp x)) : ℚ) * pow2 (ulpExp x) = x := e
    generalize roundEven (x / pow2 (ulpExp x)) = r at e'
    refine ⟨r * (2 ^ k : ℕ), ?_⟩
    rw [← e', hp]
    push_cast
    ring
  rcases lt_trichotomy x 0 with h0 | h0 | h0
  · have : fl64 (-x) = .fin (-x) := by rw [fl64_neg, h]; rfl
    obtain ⟨n, hn⟩ := pos (-x) (by linarith) this
    exact ⟨-n, by push_cast; linarith⟩
  · exact ⟨0, by rw [h0]; simp⟩
  · exact pos x h0 h

theorem fl64_tiny : fl64 (pow2 (-1074)) = .fin (pow2 (-1074)) := by decide +kernel

theorem fl64_pos_of_grid {n : ℤ} (hn : 0 < n) : fl64 (n * pow2 (-1074)) ≠ .fin 0 := by
  intro h
  have h1 : (1 : ℚ) ≤ n := by exact_mod_cast hn
  have h2 : pow2 (-1074) ≤ n * pow2 (-1074) := by
    have := mul_le_mul_of_nonneg_right h1 (pow2_pos (-1074)).le
    rwa [one_mul] at this
  have := fl64_mono _ _ h2
  rw [h, fl64_tiny] at this
  exact absurd (Ext.le_fin'.mp this) (not_le.mpr (pow2_pos _))

/-- double precision has the property -/
theorem binary64_gradual : Gradual binary64 := by
  intro x y hx hy hne h
  obtain ⟨n, hn⟩ := fl64_grid hx
  obtain ⟨k, hk⟩ := fl64_grid hy
  have e : x - y = ((n - k : ℤ) : ℚ) * pow2 (-1074) := by rw [hn, hk]; push_cast; ring
  have hnk : n ≠ k := fun h => hne (by rw [hn, hk, h])
  have h : fl64 (x - y) = .fin 0 := h
  rcases lt_or_gt_of_ne hnk with hlt | hgt
  · have : fl64 (((k - n : ℤ) : ℚ) * pow2 (-1074)) = .fin 0 := by
      have e2 : ((k - n : ℤ) : ℚ) * pow2 (-1074) = -(x - y) := by rw [e]; push_cast; ring
      rw [e2, fl64_neg, h]; simp [Ext.neg]
    exact fl64_pos_of_grid (by omega) this
  · rw [e] at h
    exact fl64_pos_of_grid (by omega) h

/-! ## the sign of a difference -/

variable {R : Rounding}

theorem binop_congr {α β γ : Type} {f g : α → β → γ} {fill : γ} {a : Line α} {b : Line β}
    (h : ∀ x ∈ a.series, ∀ y ∈ b.series, f x y = g x y) : binop f fill a b = binop g fill a b := by
  unfold binop
  dsimp only
  congr 2
  have hl : ∀ (xs : List α) (ys : List β), (∀ x ∈ xs, ∀ y ∈ ys, f x y = g x y) → List.zipWith f xs ys = List.zipWith g xs ys := by
    intro xs
    induction xs with
    | nil => intro ys _; rfl
    | cons x xs ih =>
      intro ys h
      cases ys with
      | nil => rfl
      | cons y ys =>
        rw [List.zipWith_cons_cons, List.zipWith_cons_cons, h x (by simp) y (by simp), ih ys fun x hx y hy => h x (by simp [hx]) y (by simp [hy])]
  exact hl _ _ fun x hx y hy => h x (List.mem_of_mem_drop hx) y (List.mem_of_mem_drop hy)

/-- a difference of numbers of the arithmetic, or no number -/
def Diff (R : Rounding) (v : Ext ℚ) : Prop := ∀ q : ℚ, v = .fin q → ∃ x y, R.fl x = .fin x ∧ R.fl y = .fin y ∧ q = x - y

open Classical in
/-- rounding of differences, nothing else -/
noncomputable def rd (R : Rounding) (v : Ext ℚ) : Ext ℚ := if Diff R v then R.round v else v

theorem rd_nan : rd R Ext.nan = Ext.nan := by unfold rd; split <;> rfl
theorem rd_zero : rd R (.fin 0) = .fin 0 := by
  unfold rd; split
  · exact R.fl_zero
  · rfl

theorem rd_cases (hR : Gradual R) (v : Ext ℚ) : rd R v = v ∨ ∃ q, v = .fin q ∧ rd R v = R.fl q ∧ (q ≠ 0 → R.fl q ≠ .fin 0) := by
  unfold rd
  split
  · rename_i h
    cases v with
    | fin q =>
      right
      refine ⟨q, rfl, rfl, fun hq => ?_⟩
      obtain ⟨x, y, hx, hy, e⟩ := h q rfl
      rw [e]
      exact hR x y hx hy fun h => hq (by rw [e, h, sub_self])
    | _ => left; rfl
  · left; rfl

theorem fl_pos (hq : R.fl q ≠ .fin 0) (h : 0 < q) : Ext.lt (.fin 0) (R.fl q) = true := by
  have := R.mono 0 q h.le
  rw [R.fl_zero] at this
  revert this hq
  cases R.fl q with
  | fin y =>
    intro hq h
    have h := Ext.le_fin'.mp h
    have : (0 : ℚ) ≠ y := fun e => hq (by rw [e])
    simp [Ext.lt, lt_of_le_of_ne h this]
  | pinf => intros; rfl
  | ninf => intro _ h; exact nomatch h
  | nan => intro _ h; exact nomatch h

theorem fl_neg' (hq : R.fl q ≠ .fin 0) (h : q < 0) : Ext.lt (R.fl q) (.fin 0) = true := by
  have := R.mono q 0 h.le
  rw [R.fl_zero] at this
  revert this hq
  cases R.fl q with
  | fin y =>
    intro hq h
    have h := Ext.le_fin'.mp h
    have : y ≠ (0 : ℚ) := fun e => hq (by rw [e])
    simp [Ext.lt, lt_of_le_of_ne h this]
  | pinf => intro _ h; exact nomatch h
  | ninf => intros; rfl
  | nan => intro _ h; exact nomatch h

theorem lt_asymm' {a b : Ext ℚ} (h : Ext.lt a b = true) : Ext.lt b a = false ∧ Ext.eqv a b = false ∧ Ext.eqv b a = false := by
  cases a <;> cases b <;> simp_all [Ext.lt, Ext.eqv, le_of_lt, ne_of_lt, ne_of_gt]

/-- rounding a difference changes neither its sign nor whether it is zero -/
theorem rd_sign (hR : Gradual R) (v : Ext ℚ) :
    Ext.lt (rd R v) (.fin 0) = Ext.lt v (.fin 0) ∧ Ext.lt (.fin 0) (rd R v) = Ext.lt (.fin 0) v ∧ Ext.eqv (rd R v) (.fin 0) = Ext.eqv v (.fin 0) := by
  rcases rd_cases hR v with e | ⟨q, rfl, e, h⟩
  · rw [e]; exact ⟨rfl, rfl, rfl⟩
  · rw [e]
    rcases lt_trichotomy q 0 with hq | hq | hq
    · have h1 := fl_neg' (h hq.ne) hq
      have h2 : Ext.lt (.fin q) (.fin 0) = true := by simp [Ext.lt, hq]
      obtain ⟨a, b, c⟩ := lt_asymm' h1
      obtain ⟨a', b', c'⟩ := lt_asymm' h2
      rw [h1, h2, a, a', b, b']; exact ⟨rfl, rfl, rfl⟩
    · subst hq; rw [R.fl_zero]; exact ⟨rfl, rfl, rfl⟩
    · have h1 := fl_pos (h hq.ne') hq
      have h2 : Ext.lt (.fin 0) (.fin q) = true := by simp [Ext.lt, hq]
      obtain ⟨a, b, c⟩ := lt_asymm' h1
      obtain ⟨a', b', c'⟩ := lt_asymm' h2
      rw [h1, h2, a, a', c, c']; exact ⟨rfl, rfl, rfl⟩

/-! ## crossings -/

/-- a value as value of the arithmetic -/
def up (R : Rounding) (v : Ext ℚ) : Flt R := v

/-- rounding of differences, to a value of the arithmetic -/
noncomputable def rdF (R : Rounding) (v : Ext ℚ) : Flt R := rd R v

theorem up_exact (a : Line (Flt R)) : lmap (up R) (exact a) = a := lmap_id (exact a)
theorem rdF_nan : rdF R nan = nan := rd_nan
theorem rdF_zero : rdF R (lit 0) = lit 0 := Eq.trans rd_zero R.fl_zero.symm
theorem up_nan : up R nan = nan := rfl
theorem rdF_eqv (hR : Gradual R) (x : Ext ℚ) : eqv (rdF R x) (lit 0) = eqv x (lit 0) := by
  rw [show (lit 0 : Flt R) = up R (.fin 0) from R.fl_zero]
  exact (rd_sign hR x).2.2
theorem rdF_lt (hR : Gradual R) (x : Ext ℚ) : lt (rdF R x) (lit 0) = lt x (lit 0) := by
  rw [show (lit 0 : Flt R) = up R (.fin 0) from R.fl_zero]
  exact (rd_sign hR x).1
theorem rdF_gt (hR : Gradual R) (x : Ext ℚ) : lt (lit 0) (rdF R x) = lt (lit 0) x := by
  rw [show (lit 0 : Flt R) = up R (.fin 0) from R.fl_zero]
  exact (rd_sign hR x).2.1

theorem sub_rd {a b : Line (Flt R)} (ha : Stored a) (hb : Stored b) : a - b = lmap (rdF R) (exact a - exact b) := by
  have e := lmap_binop (σ := up R) (τ := up R) (ρ := rdF R) (fill := (nan : Ext ℚ)) (fill' := (nan : Flt R))
    (f := fun x y => x - y) (f' := fun x y => rdF R (Ext.add x (Ext.neg y))) rdF_nan.symm (fun x y => rfl) (exact a) (exact b)
  rw [up_exact, up_exact] at e
  refine Eq.trans ?_ e
  refine binop_congr fun x hx y hy => ?_
  show R.round (Ext.add x (Ext.neg y)) = rd R (Ext.add x (Ext.neg y))
  unfold rd
  rw [if_pos]
  intro q hq
  have hx := ha x hx
  have hy := hb y hy
  change Ext ℚ at x y
  cases x with
  | fin p =>
    cases y with
    | fin r =>
      refine ⟨p, r, hx p rfl, hy r rfl, ?_⟩
      simp only [Ext.neg, Ext.add, Ext.fin.injEq] at hq
      rw [← hq, sub_eq_add_neg]
    | _ => simp [Ext.neg, Ext.add] at hq
  | _ => cases y <;> simp [Ext.neg, Ext.add] at hq

theorem shiftL_rd (k : Int) (xs : List (Ext ℚ)) : shiftL k (xs.map (rdF R)) = (shiftL k xs).map (rdF R) := by
  unfold shiftL
  split <;> simp only [List.map_append, List.map_replicate, List.map_take, List.map_drop, List.length_map, rdF_nan]

theorem rz_rd (hR : Gradual R) : ∀ (xs : List (Ext ℚ)) (p : Ext ℚ),
    replaceZeroGo (rdF R p) (xs.map (rdF R)) = (replaceZeroGo p xs).map (rdF R)
  | [], _ => rfl
  | x :: xs, p => by
    simp only [List.map_cons, replaceZeroGo, rdF_eqv hR]
    split
    · rw [List.map_cons, rz_rd hR xs]
    · rw [List.map_cons, rz_rd hR xs]

theorem crossDiff_rd (hR : Gradual R) (st : Bool) {a b : Line (Flt R)} (ha : Stored a) (hb : Stored b) :
    Ind.crossDiff st a b = lmap (rdF R) (Ind.crossDiff st (exact a) (exact b)) := by
  unfold Ind.crossDiff
  rw [sub_rd ha hb]
  have hs : shift 1 (lmap (rdF R) (exact a - exact b)) = lmap (rdF R) (shift 1 (exact a - exact b)) :=
    lmap_stdop rdF_nan.symm (shiftL_rd 1) _
  rw [hs]
  cases st with
  | true => rfl
  | false =>
    refine lmap_stdop (σ := rdF R) (ρ := rdF R) rdF_nan.symm (fun xs => ?_) _
    have := rz_rd hR xs (lit 0)
    rw [rdF_zero] at this
    exact this

theorem lt_rd (hR : Gradual R) (d : Line (Ext ℚ)) : ltS (lmap (rdF R) d) (lit 0) = ltS d (lit 0) := by
  have := lmap_binopS (σ := rdF R) (ρ := fun x : Bool => x) (c := (lit 0 : Ext ℚ)) (c' := (lit 0 : Flt R)) (f := fun x y => lt x y)
    (f' := fun x y => lt x y) (fill := true) (fill' := true) rfl (fun x => rdF_lt hR x) d
  rw [lmap_id] at this; exact this

theorem gt_rd (hR : Gradual R) (d : Line (Ext ℚ)) : gtS (lmap (rdF R) d) (lit 0) = gtS d (lit 0) := by
  have := lmap_binopS (σ := rdF R) (ρ := fun x : Bool => x) (c := (lit 0 : Ext ℚ)) (c' := (lit 0 : Flt R)) (f := fun x y => lt y x)
    (f' := fun x y => lt y x) (fill := true) (fill' := true) rfl (fun x => rdF_gt hR x) d
  rw [lmap_id] at this; exact this

theorem one_flt (y : Bool) : (lit 1 : Flt R) * ofBool y = up R (lit 1 * ofBool y) := by
  cases y with
  | true =>
    show R.round (Ext.mul (R.fl 1) (R.fl 1)) = Ext.mul (.fin ((1 : ℚ) : ℚ)) (.fin ((1 : ℚ) : ℚ))
    rw [R.fl_one]
    simp [Ext.mul, Rounding.round]
  | false =>
    show R.round (Ext.mul (R.fl 1) (R.fl 0)) = Ext.mul (.fin ((1 : ℚ) : ℚ)) (.fin ((0 : ℚ) : ℚ))
    rw [R.fl_one, R.fl_zero]
    simp [Ext.mul, Rounding.round]

theorem negone_flt (y : Bool) : (lit (-1) : Flt R) * ofBool y = up R (lit (-1) * ofBool y) := by
  cases y with
  | true =>
    show R.round (Ext.mul (R.fl (-1)) (R.fl 1)) = Ext.mul (.fin ((-1 : ℚ) : ℚ)) (.fin ((1 : ℚ) : ℚ))
    rw [R.fl_one, R.fl_negone]
    simp [Ext.mul, Rounding.round]
  | false =>
    show R.round (Ext.mul (R.fl (-1)) (R.fl 0)) = Ext.mul (.fin ((-1 : ℚ) : ℚ)) (.fin ((0 : ℚ) : ℚ))
    rw [R.fl_negone, R.fl_zero]
    simp [Ext.mul, Rounding.round]

theorem lift_bool {c : ℚ} (h : ∀ y, (lit c : Flt R) * ofBool y = up R (lit c * ofBool y)) (b : Line Bool) :
    rmulSB (lit c : Flt R) b = lmap (up R) (rmulSB (lit c) b) := by
  have := lmap_binopS (σ := fun x : Bool => x) (ρ := up R) (c := (lit c : Ext ℚ)) (c' := (lit c : Flt R)) (f := fun x c => c * ofBool x)
    (f' := fun x c => c * ofBool x) (fill := (nan : Ext ℚ)) (fill' := (nan : Flt R)) rfl h b
  rw [lmap_id] at this; exact this

theorem exact_up (a : Line (Ext ℚ)) : exact (lmap (up R) a) = a := lmap_id a

/-- **C111** crossing upwards: the signals of rounded arithmetic are the exact ones, for any data (missing and infinite values included). -/
theorem C111_crossup (hR : Gradual R) (st : Bool) {a b : Line (Flt R)} (ha : Stored a) (hb : Stored b) :
    exact (Ind.crossup st a b) = Ind.crossup st (exact a) (exact b) := by
  unfold Ind.crossup Ind.cup
  rw [crossDiff_rd hR st ha hb, lt_rd hR, lift_bool one_flt, exact_up]
  rfl

/-- **C111** crossing downwards -/
theorem C111_crossdown (hR : Gradual R) (st : Bool) {a b : Line (Flt R)} (ha : Stored a) (hb : Stored b) :
    exact (Ind.crossdown st a b) = Ind.crossdown st (exact a) (exact b) := by
  unfold Ind.crossdown Ind.cdown
  rw [crossDiff_rd hR st ha hb, gt_rd hR, lift_bool negone_flt, exact_up]
  rfl

/-- **C111** in double precision, the signals of the library -/
theorem C111_crossup_binary64 (st : Bool) {a b : Line (Flt binary64)} (ha : Stored a) (hb : Stored b) :
    exact (Ind.crossup st a b) = Ind.crossup st (exact a) (exact b) := C111_crossup binary64_gradual st ha hb

/-- **C111** in double precision -/
theorem C111_crossdown_binary64 (st : Bool) {a b : Line (Flt binary64)} (ha : Stored a) (hb : Stored b) :
    exact (Ind.crossdown st a b) = Ind.crossdown st (exact a) (exact b) := C111_crossdown binary64_gradual st ha hb

/-! ## extremes -/

/-- **C111** greatest and least value of a period are exact ... -/
theorem C111_extremes (p : ℕ) (a : Line (Flt R)) :
    exact (Ind.highest p a) = Ind.highest p (exact a) ∧ exact (Ind.lowest p a) = Ind.lowest p (exact a) := ⟨rfl, rfl⟩

theorem rolling_congr {f g : List (Ext ℚ) → Ext ℚ} {p : ℕ} (h : ∀ w, w.length ≤ p → f w = g w) (a : Line (Ext ℚ)) :
    rolling p f a = rolling p g a := by
  unfold rolling rollL
  dsimp only
  congr 3
  funext i
  rw [h]
  simp only [window, List.length_drop, List.length_take]
  omega

theorem argmaxV_le (w : List (Flt R)) : argmaxV w ≤ w.length := by
  cases w with
  | nil => exact le_rfl
  | cons x xs =>
    have := argGo_lt (fun y b => lt b y) xs x 0 1 (by omega)
    simp only [argmaxV, List.length_cons]; omega

theorem argminV_le (w : List (Flt R)) : argminV w ≤ w.length := by
  cases w with
  | nil => exact le_rfl
  | cons x xs =>
    have := argGo_lt (fun y b => lt y b) xs x 0 1 (by omega)
    simp only [argminV, List.length_cons]; omega

theorem index_exact {arg : List (Ext ℚ) → ℕ} (h : ∀ w, arg w ≤ w.length) {p : ℕ} (hp : p ≤ 2 ^ 24) (a : Line (Ext ℚ)) :
    rolling p (fun w => if w.all isFin then R.fl (arg w) else Ext.nan) a =
      rolling p (fun w => if w.all isFin then (lit (arg w) : Ext ℚ) else Ext.nan) a := by
  refine rolling_congr (fun w hw => ?_) a
  have := h w
  rw [R.nat _ (le_trans (le_trans this hw) hp)]
  simp

/-- **C111** ... and so are their positions, for periods up to 2 ^ 24. -/
theorem C111_index {p : ℕ} (hp : p ≤ 2 ^ 24) (a : Line (Flt R)) :
    exact (Ind.maxindex p a) = Ind.maxindex p (exact a) ∧ exact (Ind.minindex p a) = Ind.minindex p (exact a) :=
  ⟨index_exact (R := R) (argmaxV_le (R := R)) hp (exact a), index_exact (R := R) (argminV_le (R := R)) hp (exact a)⟩

/-! ## cases -/

/-- prices which differ in the last digit only, with a missing and an infinite value -/
def near (up : Bool) : Line (Flt binary64) :=
  ⟨[.fin 1, if up then .fin (1 - 1 / 2 ^ 53) else .fin (1 + 1 / 2 ^ 52), .nan, .pinf, .fin 1, .fin (1 + 1 / 2 ^ 52)], 1⟩

theorem stored_of {a : Line (Flt R)} (h : ∀ x ∈ (exact a).series, R.round x = x) : Stored a := fun x hx q hq => by
  have := h x hx
  rw [hq] at this; exact this

example (b : Bool) : Stored (near b) := stored_of (by cases b <;> exact (by decide +kernel))

/-- and a crossing by the last digit is seen -/
example : Ind.crossup true (⟨[.fin (1 - 1 / 2 ^ 53), .fin (1 + 1 / 2 ^ 52)], 1⟩ : Line (Flt binary64)) ⟨[.fin 1, .fin 1], 1⟩ =
    ⟨[.nan, .fin 1], 2⟩ := by decide +kernel

/-- the positions in a window of three -/
example : Ind.maxindex 3 (near false) = ⟨[.nan, .nan, .nan, .nan, .nan, .nan], 3⟩ ∧
    Ind.maxindex 2 (near false) = ⟨[.nan, .fin 1, .nan, .nan, .nan, .fin 1], 2⟩ := by decide +kernel

end Bta
