import Verif.Lemmas.Sign

/-!
# Functions of values with the sign changed
-/

set_option linter.unusedSectionVars false
set_option linter.unusedVariables false
set_option linter.unusedSimpArgs false

namespace Bta
open Line

variable {V : Type} [PyFloat V] [SignSym V]

namespace Sg

theorem ng_ite {c : Bool} (x y : V) : -(if c then x else y) = if c then -x else -y := by
  cases c <;> rfl

theorem ng_seed : SeedOk (fun x : V => -x) where
  nan := neg_nan
  zero := neg_zero'
  isNaN := ng_isNaN
  add := ng_add
  divn x n := ng_divc _ x

theorem ng_sum (xs : List (V)) : sumV (xs.map fun x => -x) = -sumV xs := ng_seed.sumV xs

theorem ng_all (l : List (V)) : (l.map fun x => -x).all isFin = l.all isFin := by
  rw [List.all_map]; congr 1; funext x; exact ng_isFin x

theorem ng_whenAll {f g : List (V) → V} (h : ∀ l, f (l.map fun x => -x) = -g l) (l : List (V)) :
    whenAllFin f (l.map fun x => -x) = -whenAllFin g l := by
  unfold whenAllFin
  rw [ng_all, h, ng_ite, neg_nan]

theorem ng_whenAll' {f g : List (V) → V} (h : ∀ l, f (l.map fun x => -x) = g l) (l : List (V)) :
    whenAllFin f (l.map fun x => -x) = whenAllFin g l := by
  unfold whenAllFin
  rw [ng_all, h]

theorem ng_maxV (x y : V) : maxV (-x) (-y) = -minV x y := by
  unfold maxV minV; rw [ng_lt, ng_ite]

theorem ng_minV (x y : V) : minV (-x) (-y) = -maxV x y := by
  unfold maxV minV; rw [ng_lt, ng_ite]

theorem ng_fold {f g : V → V → V} (h : ∀ x y, f (-x) (-y) = -g x y) :
    ∀ (xs : List (V)) (z : V), (xs.map fun x => -x).foldl f (-z) = -xs.foldl g z
  | [], z => rfl
  | x :: xs, z => by
    simp only [List.map_cons, List.foldl_cons]
    rw [h]; exact ng_fold h xs _

theorem ng_aggSum (l : List (V)) : aggSum (l.map fun x => -x) = -aggSum l := ng_whenAll ng_sum l

theorem ng_aggMean (l : List (V)) : aggMean (l.map fun x => -x) = -aggMean l :=
  ng_whenAll (fun l => by simp only [ng_sum, List.length_map, ng_divc]) l

theorem ng_aggMax (l : List (V)) : aggMax (l.map fun x => -x) = -aggMin l :=
  ng_whenAll (fun l => by
    cases l with
    | nil => exact neg_nan.symm
    | cons x xs => exact ng_fold ng_maxV xs x) l

theorem ng_aggMin (l : List (V)) : aggMin (l.map fun x => -x) = -aggMax l :=
  ng_whenAll (fun l => by
    cases l with
    | nil => exact neg_nan.symm
    | cons x xs => exact ng_fold ng_minV xs x) l

theorem ng_aggVar (d : ℕ) (l : List (V)) : aggVar d (l.map fun x => -x) = aggVar d l :=
  ng_whenAll' (fun l => by
    simp only [List.length_map, ng_sum, ng_divc, List.map_map]
    split
    · congr 2
      refine List.map_congr_left fun x _ => ?_
      simp only [Function.comp, ng_sub, ng_mul]
    · rfl) l

theorem ng_dot (xs ws : List (V)) : dotV (xs.map fun x => -x) ws = -dotV xs ws := by
  unfold dotV
  rw [← ng_sum]
  congr 1
  have := zipWith_map2 (σ := fun x : V => -x) (τ := fun x : V => x) (ρ := fun x : V => -x) (f := fun x y => x * y)
    (f' := fun x y => x * y) (fun x y => ng_mulc y x) xs ws
  simpa using this

theorem ng_argGo {b c : V → V → Bool} (h : ∀ x y, b (-x) (-y) = c x y) : ∀ (xs : List (V))
    (best : V) (bi i : ℕ), argGo b (-best) bi i (xs.map fun x => -x) = argGo c best bi i xs
  | [], _, _, _ => rfl
  | x :: xs, best, bi, i => by
    simp only [List.map_cons, argGo, h]
    split
    · exact ng_argGo h xs _ _ _
    · exact ng_argGo h xs _ _ _

theorem ng_argmax (xs : List (V)) : argmaxV (xs.map fun x => -x) = argminV xs := by
  cases xs with
  | nil => rfl
  | cons x xs => exact ng_argGo (fun x y => ng_lt y x) xs _ _ _

theorem ng_argmin (xs : List (V)) : argminV (xs.map fun x => -x) = argmaxV xs := by
  cases xs with
  | nil => rfl
  | cons x xs => exact ng_argGo (fun x y => ng_lt x y) xs _ _ _

theorem ng_clipLo (x t : V) : clipLo (-x) (-t) = -clipHi x t := by
  unfold clipLo clipHi; rw [ng_le, ng_isNaN, ng_ite]

theorem ng_clipHi (x t : V) : clipHi (-x) (-t) = -clipLo x t := by
  unfold clipLo clipHi; rw [ng_le, ng_isNaN, ng_ite]

theorem ng_cumGo : ∀ (xs : List (V)) (acc : V),
    cumsumGo (-acc) (xs.map fun x => -x) = (cumsumGo acc xs).map fun x => -x
  | [], _ => rfl
  | x :: xs, acc => by
    simp only [List.map_cons, cumsumGo, ng_isNaN, ng_add]
    split
    · simp only [List.map_cons]; rw [ng_cumGo xs]
    · simp only [List.map_cons]; rw [ng_cumGo xs]

theorem ng_cumsum (xs : List (V)) : cumsumL (xs.map fun x => -x) = (cumsumL xs).map fun x => -x := by
  unfold cumsumL
  have := ng_cumGo xs (lit 0)
  rw [neg_zero'] at this; exact this

theorem ng_rzGo : ∀ (xs : List (V)) (p : V),
    replaceZeroGo (-p) (xs.map fun x => -x) = (replaceZeroGo p xs).map fun x => -x
  | [], _ => rfl
  | x :: xs, p => by
    have h : eqv (-x) (lit 0) = eqv x (lit 0) := by
      have := ng_eqv x (lit 0); rw [neg_zero'] at this; exact this
    simp only [List.map_cons, replaceZeroGo, h]
    split
    · simp only [List.map_cons]; rw [ng_rzGo xs]
    · simp only [List.map_cons]; rw [ng_rzGo xs]

theorem ng_replaceZero (xs : List (V)) : replaceZeroL (xs.map fun x => -x) = (replaceZeroL xs).map fun x => -x := by
  unfold replaceZeroL
  have := ng_rzGo xs (lit 0)
  rw [neg_zero'] at this; exact this

theorem ng_prep (xs : List (V)) : prepL (xs.map fun x => -x) = (prepL xs).map fun x => -x := by
  simp only [prepL, List.map_map]
  refine List.map_congr_left fun x _ => ?_
  simp only [Function.comp, ng_isFin, ng_ite, neg_nan]

theorem ng_ewmGo (al : V) : ∀ (xs : List (V)) (avg w : V),
    ewmGo al (-avg) w (xs.map fun x => -x) = (ewmGo al avg w xs).map fun x => -x
  | [], _, _ => rfl
  | x :: xs, avg, w => by
    simp only [List.map_cons, ewmGo, ng_isNaN]
    split
    · simp only [List.map_cons]; rw [ng_ewmGo al xs]
    · split
      · simp only [List.map_cons]; rw [ng_ewmGo al xs]
      · simp only [List.map_cons, ng_eqv, ng_cmul, ng_add, ng_divc, ← ng_ite]
        rw [ng_ewmGo al xs]

theorem ng_ewm (al : V) (xs : List (V)) : ewmL al (xs.map fun x => -x) = (ewmL al xs).map fun x => -x := by
  unfold ewmL
  rw [ng_prep]
  cases prepL xs with
  | nil => rfl
  | cons x xs => simp only [List.map_cons]; rw [ng_ewmGo]

theorem ng_ewmAdjGo (al : V) : ∀ (xs : List (V)) (avg w : V),
    ewmAdjGo al (-avg) w (xs.map fun x => -x) = (ewmAdjGo al avg w xs).map fun x => -x
  | [], _, _ => rfl
  | x :: xs, avg, w => by
    simp only [List.map_cons, ewmAdjGo, ng_isNaN]
    split
    · simp only [List.map_cons]; rw [ng_ewmAdjGo al xs]
    · split
      · simp only [List.map_cons]; rw [ng_ewmAdjGo al xs]
      · simp only [List.map_cons, ng_eqv, ng_cmul, ng_add, ng_divc, ← ng_ite]
        rw [ng_ewmAdjGo al xs]

theorem ng_ewmMean (adj : Bool) (al : V) (xs : List (V)) :
    ewmMeanL adj al (xs.map fun x => -x) = (ewmMeanL adj al xs).map fun x => -x := by
  cases adj
  · exact ng_ewm al xs
  show ewmAdjL al _ = (ewmAdjL al _).map _
  unfold ewmAdjL
  rw [ng_prep]
  cases prepL xs with
  | nil => rfl
  | cons x xs => simp only [List.map_cons]; rw [ng_ewmAdjGo]

theorem ng_smAccGo (al be : V) : ∀ (xs : List (V)) (p : V),
    smAccGo al be (-p) (xs.map fun x => -x) = (smAccGo al be p xs).map fun x => -x
  | [], _ => rfl
  | x :: xs, p => by
    simp only [List.map_cons, smAccGo, ng_cmul, ng_add]
    rw [ng_smAccGo al be xs]

theorem ng_lfilterGo (al be : V) : ∀ (xs : List (V)) (p : V),
    lfilterGo al be (-p) (xs.map fun x => -x) = (lfilterGo al be p xs).map fun x => -x
  | [], _ => rfl
  | x :: xs, p => by
    simp only [List.map_cons, lfilterGo, ng_cmul, ng_add]
    rw [ng_lfilterGo al be xs]

theorem ng_lfilter (s : Bool) (al : V) (be : Option (V)) (t : List (V)) :
    lfilter s al be (prepL (t.map fun x => -x)) = (lfilter s al be (prepL t)).map (List.map fun x => -x) := by
  rw [ng_prep]
  unfold lfilter spLfilter smAcc
  cases prepL t with
  | nil => cases s <;> rfl
  | cons x xs =>
    cases s with
    | true =>
      simp only [List.map_cons, if_true, Except.map]
      have := ng_lfilterGo al (betaOf al be) (x / al :: xs) (lit 0)
      rw [neg_zero', List.map_cons, ← ng_divc] at this
      rw [this]
    | false =>
      simp only [List.map_cons, Except.map, Bool.false_eq_true, if_false]
      rw [ng_smAccGo]

theorem ng_dynGo : ∀ (vals als : List (V)) (p : V),
    dynGo (-p) (vals.map fun x => -x) als = (dynGo p vals als).map (List.map fun x => -x)
  | vals, [], p => by cases vals <;> rfl
  | [], _ :: _, p => rfl
  | v :: vals, al :: als, p => by
    simp only [List.map_cons, dynGo, ng_sub, ng_cmul, ng_add]
    rw [ng_dynGo vals als]
    cases dynGo (p + al * (v - p)) vals als <;> rfl

theorem ng_dynAlpha (als t : List (V)) :
    dynAlpha als (prepL (t.map fun x => -x)) = (dynAlpha als (prepL t)).map (List.map fun x => -x) := by
  rw [ng_prep]
  cases prepL t with
  | nil => rfl
  | cons x xs =>
    simp only [List.map_cons, dynAlpha]
    rw [ng_dynGo]
    cases dynGo x xs als with
    | error e => rfl
    | ok r => exact congrArg (fun y => Except.ok (y :: r.map fun x => -x)) neg_nan.symm

end Sg

end Bta
