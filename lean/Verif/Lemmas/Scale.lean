import Verif.Lemmas.Natural
import Verif.Spec.Unit

/-!
# Lines in another unit

`U u a a'`: `a'` is `a` with prices in a unit `u` times smaller.  Line operations preserve it, with the unit which
dimensional analysis gives.
-/

set_option linter.unusedSectionVars false
set_option linter.unusedVariables false

namespace Bta
open Line

variable {K : Type} [Field K] [LinearOrder K] [IsStrictOrderedRing K]

namespace Ext
variable {u v : K}

@[simp] theorem sc_fin (u x : K) : sc u (fin x) = fin (u * x) := rfl
@[simp] theorem sc_nan (u : K) : sc u (Ext.nan : Ext K) = Ext.nan := rfl
theorem sc_nan' (u : K) : sc u (PyFloat.nan : Ext K) = PyFloat.nan := rfl
@[simp] theorem sc_pinf (u : K) : sc u (Ext.pinf : Ext K) = Ext.pinf := rfl
@[simp] theorem sc_ninf (u : K) : sc u (Ext.ninf : Ext K) = Ext.ninf := rfl
theorem sc_one (x : Ext K) : sc 1 x = x := by cases x <;> simp
theorem sc_zero (u : K) : sc u (lit 0 : Ext K) = lit 0 := by simp

theorem infSign_scale (hu : 0 < u) (x : K) : infSign (u * x) = infSign x := by
  unfold infSign
  have h1 : (0 < u * x) = (0 < x) := by rw [eq_iff_iff]; exact mul_pos_iff_of_pos_left hu
  have h2 : (u * x < 0) = (x < 0) := by
    rw [eq_iff_iff]; constructor
    · intro h; by_contra hx; exact absurd (mul_nonneg hu.le (not_lt.mp hx)) (not_le.mpr h)
    · intro h; exact mul_neg_of_pos_of_neg hu h
  simp only [h1, h2]

theorem sc_infSign (u x : K) : sc u (infSign x : Ext K) = infSign x := by
  unfold infSign; split
  · rfl
  · split <;> rfl

theorem sc_add (u : K) (x y : Ext K) : sc u x + sc u y = sc u (x + y) := by
  cases x <;> cases y <;> first | rfl | (simp [mul_add])

theorem sc_neg (u : K) (x : Ext K) : -sc u x = sc u (-x) := by
  cases x <;> first | rfl | (simp)

theorem sc_sub (u : K) (x y : Ext K) : sc u x - sc u y = sc u (x - y) := by
  cases x <;> cases y <;> first | rfl | (simp [mul_sub])

theorem sc_mul (hu : 0 < u) (hv : 0 < v) (x y : Ext K) : sc u x * sc v y = sc (u * v) (x * y) := by
  have hn : ∀ (w z : K), -(w * z) = w * -z := fun w z => by ring
  cases x <;> cases y <;> first
    | rfl
    | (simp only [sc_fin, fin_mul]; rw [fin_inj]; ring; done)
    | (show infSign (v * _) = sc _ (infSign _); rw [infSign_scale hv, sc_infSign])
    | (show infSign (-(v * _)) = sc _ (infSign (-_)); rw [hn, infSign_scale hv, sc_infSign])
    | (simp only [sc_fin, sc_pinf, sc_ninf, fin_mul_pinf, fin_mul_ninf, hn, infSign_scale hu, sc_infSign])

theorem sc_div (hu : 0 < u) (hv : 0 < v) (x y : Ext K) : sc u x / sc v y = sc (u / v) (x / y) := by
  cases x with
  | fin x =>
    cases y with
    | fin y =>
      simp only [sc_fin, fin_div_def]
      by_cases hy : y = 0
      · rw [if_pos (by rw [hy, mul_zero]), if_pos hy, infSign_scale hu, sc_infSign]
      · rw [if_neg (mul_ne_zero hv.ne' hy), if_neg hy, sc_fin]
        congr 1
        field_simp
    | pinf => show fin 0 = fin _; simp
    | ninf => show fin 0 = fin _; simp
    | nan => rfl
  | pinf =>
    cases y with
    | fin y =>
      simp only [sc_fin, sc_pinf, pinf_div_fin]
      have h2 : (v * y < 0) = (y < 0) := by
        rw [eq_iff_iff]; constructor
        · intro h; by_contra hx; exact absurd (mul_nonneg hv.le (not_lt.mp hx)) (not_le.mpr h)
        · intro h; exact mul_neg_of_pos_of_neg hv h
      simp only [h2]
      split <;> rfl
    | _ => rfl
  | ninf =>
    cases y with
    | fin y =>
      simp only [sc_fin, sc_ninf, ninf_div_fin]
      have h2 : (v * y < 0) = (y < 0) := by
        rw [eq_iff_iff]; constructor
        · intro h; by_contra hx; exact absurd (mul_nonneg hv.le (not_lt.mp hx)) (not_le.mpr h)
        · intro h; exact mul_neg_of_pos_of_neg hv h
      simp only [h2]
      split <;> rfl
    | _ => rfl
  | nan => cases y <;> rfl

/-- a factor without unit -/
theorem sc_cmul (hu : 0 < u) (c x : Ext K) : c * sc u x = sc u (c * x) := by
  have := sc_mul zero_lt_one hu c x
  rw [sc_one, one_mul] at this; exact this

theorem sc_mulc (hu : 0 < u) (c x : Ext K) : sc u x * c = sc u (x * c) := by
  have := sc_mul hu zero_lt_one x c
  rw [sc_one, mul_one] at this; exact this

theorem sc_divc (hu : 0 < u) (c x : Ext K) : sc u x / c = sc u (x / c) := by
  have := sc_div hu zero_lt_one x c
  rw [sc_one, div_one] at this; exact this

theorem sc_abs (hu : 0 < u) (x : Ext K) : absv (sc u x) = sc u (absv x) := by
  cases x <;> first | rfl | (simp [abs_mul, abs_of_pos hu])

theorem sc_lt (hu : 0 < u) (x y : Ext K) : lt (sc u x) (sc u y) = lt x y := by
  cases x <;> cases y <;> first | rfl | (simp [hu])

theorem sc_eqv (hu : 0 < u) (x y : Ext K) : eqv (sc u x) (sc u y) = eqv x y := by
  cases x <;> cases y <;> first | rfl | (simp [hu.ne'])

theorem sc_le (hu : 0 < u) (x y : Ext K) : le (sc u x) (sc u y) = le x y := by
  show (lt (sc u x) (sc u y) || eqv (sc u x) (sc u y)) = (lt x y || eqv x y)
  rw [sc_lt hu, sc_eqv hu]

theorem sc_isNaN (u : K) (x : Ext K) : isNaN (sc u x) = isNaN x := by cases x <;> rfl
theorem sc_isFin (u : K) (x : Ext K) : isFin (sc u x) = isFin x := by cases x <;> rfl

theorem sc_ite {c : Bool} (u : K) (x y : Ext K) : sc u (if c then x else y) = if c then sc u x else sc u y := by
  cases c <;> rfl

theorem sc_seed (hu : 0 < u) : SeedOk (sc u : Ext K → Ext K) where
  nan := rfl
  zero := sc_zero u
  isNaN := sc_isNaN u
  add := sc_add u
  divn x n := sc_divc hu _ x

theorem sc_sum (hu : 0 < u) (xs : List (Ext K)) : sumV (xs.map (sc u)) = sc u (sumV xs) := (sc_seed hu).sumV xs

theorem sc_all (u : K) (l : List (Ext K)) : (l.map (sc u)).all isFin = l.all isFin := by
  rw [List.all_map]; congr 1; funext x; exact sc_isFin u x

theorem sc_whenAll {v : K} {f : List (Ext K) → Ext K} (u : K) (h : ∀ l, f (l.map (sc u)) = sc v (f l)) (l : List (Ext K)) :
    whenAllFin f (l.map (sc u)) = sc v (whenAllFin f l) := by
  unfold whenAllFin
  rw [sc_all, h, sc_ite]; rfl

theorem sc_maxV (hu : 0 < u) (x y : Ext K) : maxV (sc u x) (sc u y) = sc u (maxV x y) := by
  unfold maxV; rw [sc_lt hu, sc_ite]

theorem sc_minV (hu : 0 < u) (x y : Ext K) : minV (sc u x) (sc u y) = sc u (minV x y) := by
  unfold minV; rw [sc_lt hu, sc_ite]

theorem sc_fold {f : Ext K → Ext K → Ext K} (h : ∀ x y, f (sc u x) (sc u y) = sc u (f x y)) :
    ∀ (xs : List (Ext K)) (z : Ext K), (xs.map (sc u)).foldl f (sc u z) = sc u (xs.foldl f z)
  | [], z => rfl
  | x :: xs, z => by
    simp only [List.map_cons, List.foldl_cons]
    rw [h]; exact sc_fold h xs _

theorem sc_aggSum (hu : 0 < u) (l : List (Ext K)) : aggSum (l.map (sc u)) = sc u (aggSum l) := sc_whenAll u (sc_sum hu) l

theorem sc_aggMean (hu : 0 < u) (l : List (Ext K)) : aggMean (l.map (sc u)) = sc u (aggMean l) :=
  sc_whenAll u (fun l => by rw [sc_sum hu, List.length_map, sc_divc hu]) l

theorem sc_aggMax (hu : 0 < u) (l : List (Ext K)) : aggMax (l.map (sc u)) = sc u (aggMax l) :=
  sc_whenAll u (fun l => by
    cases l with
    | nil => rfl
    | cons x xs => exact sc_fold (sc_maxV hu) xs x) l

theorem sc_aggMin (hu : 0 < u) (l : List (Ext K)) : aggMin (l.map (sc u)) = sc u (aggMin l) :=
  sc_whenAll u (fun l => by
    cases l with
    | nil => rfl
    | cons x xs => exact sc_fold (sc_minV hu) xs x) l

theorem sc_aggVar (hu : 0 < u) (d : ℕ) (l : List (Ext K)) : aggVar d (l.map (sc u)) = sc (u * u) (aggVar d l) :=
  sc_whenAll u (fun l => by
    simp only [List.length_map, sc_sum hu, sc_divc hu, List.map_map]
    split
    · rw [← sc_divc (mul_pos hu hu), ← sc_sum (mul_pos hu hu), List.map_map]
      congr 2
      refine List.map_congr_left fun x _ => ?_
      simp only [Function.comp, sc_sub, sc_mul hu hu]
    · rfl) l

theorem sc_dot (hu : 0 < u) (xs ws : List (Ext K)) : dotV (xs.map (sc u)) ws = sc u (dotV xs ws) := by
  unfold dotV
  rw [← sc_sum hu]
  congr 1
  have := zipWith_map2 (σ := sc u) (τ := fun x : Ext K => x) (ρ := sc u) (f := fun x y => x * y) (f' := fun x y => x * y)
    (fun x y => sc_mulc hu y x) xs ws
  simpa using this

theorem sc_argGo (hu : 0 < u) {b : Ext K → Ext K → Bool} (h : ∀ x y, b (sc u x) (sc u y) = b x y) : ∀ (xs : List (Ext K))
    (best : Ext K) (bi i : ℕ), argGo b (sc u best) bi i (xs.map (sc u)) = argGo b best bi i xs
  | [], _, _, _ => rfl
  | x :: xs, best, bi, i => by
    simp only [List.map_cons, argGo, h]
    split
    · exact sc_argGo hu h xs _ _ _
    · exact sc_argGo hu h xs _ _ _

theorem sc_argmax (hu : 0 < u) (xs : List (Ext K)) : argmaxV (xs.map (sc u)) = argmaxV xs := by
  cases xs with
  | nil => rfl
  | cons x xs => exact sc_argGo hu (fun x y => sc_lt hu y x) xs _ _ _

theorem sc_argmin (hu : 0 < u) (xs : List (Ext K)) : argminV (xs.map (sc u)) = argminV xs := by
  cases xs with
  | nil => rfl
  | cons x xs => exact sc_argGo hu (fun x y => sc_lt hu x y) xs _ _ _

theorem sc_clipLo (hu : 0 < u) (x t : Ext K) : clipLo (sc u x) (sc u t) = sc u (clipLo x t) := by
  unfold clipLo; rw [sc_le hu, sc_isNaN, sc_ite]

theorem sc_clipHi (hu : 0 < u) (x t : Ext K) : clipHi (sc u x) (sc u t) = sc u (clipHi x t) := by
  unfold clipHi; rw [sc_le hu, sc_isNaN, sc_ite]

theorem sc_sign (hu : 0 < u) (x : Ext K) : signV (sc u x) = signV x := by
  have h0 := sc_zero (K := K) u
  unfold signV
  rw [← h0, sc_lt hu, sc_lt hu, sc_isNaN, h0]

theorem sc_mulBool (hu : 0 < u) (x : Ext K) (b : Bool) : sc u x * ofBool b = sc u (x * ofBool b) := sc_mulc hu _ x

theorem sc_cumGo (hu : 0 < u) : ∀ (xs : List (Ext K)) (acc : Ext K),
    cumsumGo (sc u acc) (xs.map (sc u)) = (cumsumGo acc xs).map (sc u)
  | [], _ => rfl
  | x :: xs, acc => by
    simp only [List.map_cons, cumsumGo, sc_isNaN, sc_add]
    split
    · simp only [List.map_cons]; rw [sc_cumGo hu xs]
    · simp only [List.map_cons]; rw [sc_cumGo hu xs]

theorem sc_cumsum (hu : 0 < u) (xs : List (Ext K)) : cumsumL (xs.map (sc u)) = (cumsumL xs).map (sc u) := by
  unfold cumsumL
  have := sc_cumGo hu xs (lit 0)
  rw [sc_zero] at this; exact this

theorem sc_rzGo (hu : 0 < u) : ∀ (xs : List (Ext K)) (p : Ext K),
    replaceZeroGo (sc u p) (xs.map (sc u)) = (replaceZeroGo p xs).map (sc u)
  | [], _ => rfl
  | x :: xs, p => by
    have h : eqv (sc u x) (lit 0) = eqv x (lit 0) := by
      have := sc_eqv hu x (lit 0); rw [sc_zero] at this; exact this
    simp only [List.map_cons, replaceZeroGo, h]
    split
    · simp only [List.map_cons]; rw [sc_rzGo hu xs]
    · simp only [List.map_cons]; rw [sc_rzGo hu xs]

theorem sc_replaceZero (hu : 0 < u) (xs : List (Ext K)) : replaceZeroL (xs.map (sc u)) = (replaceZeroL xs).map (sc u) := by
  unfold replaceZeroL
  have := sc_rzGo hu xs (lit 0)
  rw [sc_zero] at this; exact this

theorem sc_ffillGo (u : K) : ∀ (xs : List (Ext K)) (p : Ext K),
    ffillGo (sc u p) (xs.map (sc u)) = (ffillGo p xs).map (sc u)
  | [], _ => rfl
  | x :: xs, p => by
    simp only [List.map_cons, ffillGo, sc_isNaN]
    split
    · simp only [List.map_cons]; rw [sc_ffillGo u xs]
    · simp only [List.map_cons]; rw [sc_ffillGo u xs]

theorem sc_ffill (u : K) (xs : List (Ext K)) : ffillL (xs.map (sc u)) = (ffillL xs).map (sc u) :=
  sc_ffillGo u xs Ext.nan

theorem sc_pct (hu : 0 < u) (k : ℕ) (xs : List (Ext K)) : pctChangeL k (xs.map (sc u)) = pctChangeL k xs := by
  unfold pctChangeL
  rw [List.length_map, sc_ffill, ← List.map_drop]
  congr 1
  have := zipWith_map2 (σ := sc u) (τ := sc u) (ρ := fun x : Ext K => x) (f := fun a b => a / b - lit 1)
    (f' := fun a b => a / b - lit 1) (fun x y => by rw [sc_div hu hu, div_self hu.ne', sc_one])
    ((ffillL xs).drop k) (ffillL xs)
  simpa using this

theorem sc_prep (u : K) (xs : List (Ext K)) : prepL (xs.map (sc u)) = (prepL xs).map (sc u) := by
  simp only [prepL, List.map_map]
  refine List.map_congr_left fun x _ => ?_
  simp only [Function.comp, sc_isFin, sc_ite]
  rfl

theorem sc_ewmGo (hu : 0 < u) (al : Ext K) : ∀ (xs : List (Ext K)) (avg w : Ext K),
    ewmGo al (sc u avg) w (xs.map (sc u)) = (ewmGo al avg w xs).map (sc u)
  | [], _, _ => rfl
  | x :: xs, avg, w => by
    simp only [List.map_cons, ewmGo, sc_isNaN]
    split
    · simp only [List.map_cons]; rw [sc_ewmGo hu al xs]
    · split
      · simp only [List.map_cons]; rw [sc_ewmGo hu al xs]
      · simp only [List.map_cons, sc_eqv hu, sc_cmul hu, sc_add, sc_divc hu, ← sc_ite]
        rw [sc_ewmGo hu al xs]

theorem sc_ewm (hu : 0 < u) (al : Ext K) (xs : List (Ext K)) : ewmL al (xs.map (sc u)) = (ewmL al xs).map (sc u) := by
  unfold ewmL
  rw [sc_prep]
  cases prepL xs with
  | nil => rfl
  | cons x xs => simp only [List.map_cons]; rw [sc_ewmGo hu]

theorem sc_ewmAdjGo (hu : 0 < u) (al : Ext K) : ∀ (xs : List (Ext K)) (avg w : Ext K),
    ewmAdjGo al (sc u avg) w (xs.map (sc u)) = (ewmAdjGo al avg w xs).map (sc u)
  | [], _, _ => rfl
  | x :: xs, avg, w => by
    simp only [List.map_cons, ewmAdjGo, sc_isNaN]
    split
    · simp only [List.map_cons]; rw [sc_ewmAdjGo hu al xs]
    · split
      · simp only [List.map_cons]; rw [sc_ewmAdjGo hu al xs]
      · simp only [List.map_cons, sc_eqv hu, sc_cmul hu, sc_add, sc_divc hu, ← sc_ite]
        rw [sc_ewmAdjGo hu al xs]

theorem sc_ewmMean (hu : 0 < u) (adj : Bool) (al : Ext K) (xs : List (Ext K)) :
    ewmMeanL adj al (xs.map (sc u)) = (ewmMeanL adj al xs).map (sc u) := by
  cases adj
  · exact sc_ewm hu al xs
  show ewmAdjL al _ = (ewmAdjL al _).map _
  unfold ewmAdjL
  rw [sc_prep]
  cases prepL xs with
  | nil => rfl
  | cons x xs => simp only [List.map_cons]; rw [sc_ewmAdjGo hu]

theorem sc_smAccGo (hu : 0 < u) (al be : Ext K) : ∀ (xs : List (Ext K)) (p : Ext K),
    smAccGo al be (sc u p) (xs.map (sc u)) = (smAccGo al be p xs).map (sc u)
  | [], _ => rfl
  | x :: xs, p => by
    simp only [List.map_cons, smAccGo, sc_cmul hu, sc_add]
    rw [sc_smAccGo hu al be xs]

theorem sc_lfilterGo (hu : 0 < u) (al be : Ext K) : ∀ (xs : List (Ext K)) (p : Ext K),
    lfilterGo al be (sc u p) (xs.map (sc u)) = (lfilterGo al be p xs).map (sc u)
  | [], _ => rfl
  | x :: xs, p => by
    simp only [List.map_cons, lfilterGo, sc_cmul hu, sc_add]
    rw [sc_lfilterGo hu al be xs]

theorem sc_lfilter (hu : 0 < u) (s : Bool) (al : Ext K) (be : Option (Ext K)) (t : List (Ext K)) :
    lfilter s al be (prepL (t.map (sc u))) = (lfilter s al be (prepL t)).map (List.map (sc u)) := by
  rw [sc_prep]
  unfold lfilter spLfilter smAcc
  cases prepL t with
  | nil => cases s <;> rfl
  | cons x xs =>
    cases s with
    | true =>
      simp only [List.map_cons, if_true, Except.map]
      have := sc_lfilterGo hu al (betaOf al be) (x / al :: xs) (lit 0)
      rw [sc_zero, List.map_cons, ← sc_divc hu] at this
      rw [this]
    | false =>
      simp only [List.map_cons, Except.map, Bool.false_eq_true, if_false]
      rw [sc_smAccGo hu]

theorem sc_dynGo (hu : 0 < u) : ∀ (vals als : List (Ext K)) (p : Ext K),
    dynGo (sc u p) (vals.map (sc u)) als = (dynGo p vals als).map (List.map (sc u))
  | vals, [], p => by cases vals <;> rfl
  | [], _ :: _, p => rfl
  | v :: vals, al :: als, p => by
    simp only [List.map_cons, dynGo, sc_sub, sc_cmul hu, sc_add]
    rw [sc_dynGo hu vals als]
    cases dynGo (p + al * (v - p)) vals als <;> rfl

theorem sc_dynAlpha (hu : 0 < u) (als t : List (Ext K)) :
    dynAlpha als (prepL (t.map (sc u))) = (dynAlpha als (prepL t)).map (List.map (sc u)) := by
  rw [sc_prep]
  cases prepL t with
  | nil => rfl
  | cons x xs =>
    simp only [List.map_cons, dynAlpha]
    rw [sc_dynGo hu]
    cases dynGo x xs als <;> rfl

end Ext

end Bta
