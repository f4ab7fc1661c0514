import Verif.Lemmas.Units
import Verif.Lemmas.Ewm
import Verif.Spec.Level

/-!
# Values and lines with an amount added
-/

set_option linter.unusedSectionVars false
set_option linter.unusedVariables false

namespace Bta
open Line

variable {K : Type} [Field K] [LinearOrder K] [IsStrictOrderedRing K]

namespace Ext
variable {k j : K}

@[simp] theorem up_fin (k x : K) : up k (fin x) = fin (x + k) := rfl
@[simp] theorem up_nan (k : K) : up k (Ext.nan : Ext K) = Ext.nan := rfl
@[simp] theorem up_pinf (k : K) : up k (Ext.pinf : Ext K) = Ext.pinf := rfl
@[simp] theorem up_ninf (k : K) : up k (Ext.ninf : Ext K) = Ext.ninf := rfl
theorem up_zero (x : Ext K) : up 0 x = x := by cases x <;> simp

theorem up_infSign (k x : K) : up k (infSign x : Ext K) = infSign x := by
  unfold infSign; split
  · rfl
  · split <;> rfl

theorem up_add (k j : K) (x y : Ext K) : up k x + up j y = up (k + j) (x + y) := by
  cases x <;> cases y <;> first | rfl | (simp only [up_fin, fin_add, fin_inj]; ring)

theorem up_sub (k j : K) (x y : Ext K) : up k x - up j y = up (k - j) (x - y) := by
  cases x <;> cases y <;> first | rfl | (simp only [up_fin, fin_sub, fin_inj]; ring)

theorem up_addR (k : K) (x y : Ext K) : up k x + y = up k (x + y) := by
  have := up_add k 0 x y; rwa [up_zero, add_zero] at this

theorem up_subR (k : K) (x y : Ext K) : up k x - y = up k (x - y) := by
  have := up_sub k 0 x y; rwa [up_zero, sub_zero] at this

theorem up_cmul (c k : K) (x : Ext K) : fin c * up k x = up (c * k) (fin c * x) := by
  cases x <;> first
    | rfl
    | (simp only [up_fin, fin_mul, fin_inj]; ring)
    | (simp only [up_pinf, up_ninf, fin_mul_pinf, fin_mul_ninf, up_infSign])

theorem up_mulc (c k : K) (x : Ext K) : up k x * fin c = up (k * c) (x * fin c) := by
  cases x <;> first
    | rfl
    | (simp only [up_fin, fin_mul, fin_inj]; ring)
    | (show infSign _ = up _ (infSign _); rw [up_infSign])

theorem up_divc {d : K} (hd : d ≠ 0) (k : K) (x : Ext K) : up k x / fin d = up (k / d) (x / fin d) := by
  cases x with
  | fin x => simp only [up_fin, fin_div _ hd, fin_inj]; ring
  | pinf => show (if d < 0 then ninf else pinf) = up _ (if d < 0 then ninf else pinf); split <;> rfl
  | ninf => show (if d < 0 then pinf else ninf) = up _ (if d < 0 then pinf else ninf); split <;> rfl
  | nan => rfl

theorem up_lt (k : K) (x y : Ext K) : lt (up k x) (up k y) = lt x y := by
  cases x <;> cases y <;> first | rfl | (simp)

theorem up_eqv (k : K) (x y : Ext K) : eqv (up k x) (up k y) = eqv x y := by
  cases x <;> cases y <;> first | rfl | (simp)

theorem up_le (k : K) (x y : Ext K) : le (up k x) (up k y) = le x y := by
  show (lt (up k x) (up k y) || eqv (up k x) (up k y)) = (lt x y || eqv x y)
  rw [up_lt, up_eqv]

theorem up_isNaN (k : K) (x : Ext K) : isNaN (up k x) = isNaN x := by cases x <;> rfl
theorem up_isFin (k : K) (x : Ext K) : isFin (up k x) = isFin x := by cases x <;> rfl

theorem up_ite {c : Bool} (k : K) (x y : Ext K) : up k (if c then x else y) = if c then up k x else up k y := by
  cases c <;> rfl

theorem up_foldl (k : K) : ∀ (xs : List (Ext K)) (j : K) (z : Ext K),
    (xs.map (up k)).foldl (· + ·) (up j z) = up (j + xs.length * k) (xs.foldl (· + ·) z)
  | [], j, z => by simp
  | x :: xs, j, z => by
    simp only [List.map_cons, List.foldl_cons, up_add]
    rw [up_foldl k xs]
    congr 1
    push_cast [List.length_cons]; ring

theorem up_sum (k : K) (xs : List (Ext K)) : sumV (xs.map (up k)) = up (xs.length * k) (sumV xs) := by
  have := up_foldl k xs 0 (lit 0)
  rw [up_zero, zero_add] at this; exact this

/-- the mean of a list -/
theorem up_mean (k : K) (xs : List (Ext K)) :
    sumV (xs.map (up k)) / lit xs.length = up k (sumV xs / lit xs.length) := by
  rcases xs with - | ⟨x, xs⟩
  · show (fin ((0 : ℚ) : K) / fin _ : Ext K) = up k (fin ((0 : ℚ) : K) / fin _)
    simp
  · have h : ((((x :: xs).length : ℚ)) : K) ≠ 0 := by push_cast [List.length_cons]; positivity
    rw [up_sum, lit_def, up_divc h]
    congr 1
    rw [Rat.cast_natCast] at h ⊢
    field_simp

theorem up_all (k : K) (l : List (Ext K)) : (l.map (up k)).all isFin = l.all isFin := by
  rw [List.all_map]; congr 1; funext x; exact up_isFin k x

theorem up_whenAll {f : List (Ext K) → Ext K} {l : List (Ext K)} (h : f (l.map (up k)) = up j (f l)) :
    whenAllFin f (l.map (up k)) = up j (whenAllFin f l) := by
  unfold whenAllFin
  rw [up_all, h, up_ite]; rfl

theorem up_whenAll0 {f : List (Ext K) → Ext K} {l : List (Ext K)} (h : f (l.map (up k)) = f l) :
    whenAllFin f (l.map (up k)) = whenAllFin f l := by
  unfold whenAllFin
  rw [up_all, h]

theorem up_maxV (k : K) (x y : Ext K) : maxV (up k x) (up k y) = up k (maxV x y) := by
  unfold maxV; rw [up_lt, up_ite]

theorem up_minV (k : K) (x y : Ext K) : minV (up k x) (up k y) = up k (minV x y) := by
  unfold minV; rw [up_lt, up_ite]

theorem up_fold {f : Ext K → Ext K → Ext K} (h : ∀ x y, f (up k x) (up k y) = up k (f x y)) :
    ∀ (xs : List (Ext K)) (z : Ext K), (xs.map (up k)).foldl f (up k z) = up k (xs.foldl f z)
  | [], z => rfl
  | x :: xs, z => by
    simp only [List.map_cons, List.foldl_cons]
    rw [h]; exact up_fold h xs _

theorem up_aggMean (k : K) (l : List (Ext K)) : aggMean (l.map (up k)) = up k (aggMean l) :=
  up_whenAll (by rw [List.length_map]; exact up_mean k l)

theorem up_aggMax (k : K) (l : List (Ext K)) : aggMax (l.map (up k)) = up k (aggMax l) :=
  up_whenAll (by
    cases l with
    | nil => rfl
    | cons x xs => exact up_fold (up_maxV k) xs x)

theorem up_aggMin (k : K) (l : List (Ext K)) : aggMin (l.map (up k)) = up k (aggMin l) :=
  up_whenAll (by
    cases l with
    | nil => rfl
    | cons x xs => exact up_fold (up_minV k) xs x)

theorem up_subSelf (k : K) (x y : Ext K) : up k x - up k y = x - y := by rw [up_sub, sub_self, up_zero]

theorem up_aggVar (k : K) (d : ℕ) (l : List (Ext K)) : aggVar d (l.map (up k)) = aggVar d l :=
  up_whenAll0 (by
    simp only [List.length_map, up_mean, List.map_map]
    congr 3
    refine List.map_congr_left fun x _ => ?_
    simp only [Function.comp, up_subSelf])

theorem up_mad (k : K) (l : List (Ext K)) : aggApply Ind.madV (l.map (up k)) = aggApply Ind.madV l :=
  up_whenAll0 (by
    simp only [Ind.madV, List.length_map, up_mean, List.map_map]
    congr 2
    refine List.map_congr_left fun x _ => ?_
    simp only [Function.comp, up_subSelf])

theorem up_dotGo (k : K) : ∀ (xs : List (Ext K)) (W : List K) (j : K) (z : Ext K), xs.length = W.length →
    (List.zipWith (· * ·) (xs.map (up k)) (W.map fin)).foldl (· + ·) (up j z) =
      up (j + k * W.sum) ((List.zipWith (· * ·) xs (W.map fin)).foldl (· + ·) z)
  | [], [], j, z, _ => by simp
  | [], _ :: _, _, _, h => by simp at h
  | _ :: _, [], _, _, h => by simp at h
  | x :: xs, w :: W, j, z, h => by
    simp only [List.map_cons, List.zipWith_cons_cons, List.foldl_cons, up_mulc, up_add]
    rw [up_dotGo k xs W _ _ (by simpa using h)]
    congr 1
    rw [List.sum_cons]; ring

theorem up_dot (k : K) (xs : List (Ext K)) (W : List K) (h : xs.length = W.length) :
    dotV (xs.map (up k)) (W.map fin) = up (k * W.sum) (dotV xs (W.map fin)) := by
  have := up_dotGo k xs W 0 (lit 0) h
  rw [up_zero, zero_add] at this; exact this

theorem up_argGo {b : Ext K → Ext K → Bool} (h : ∀ x y, b (up k x) (up k y) = b x y) : ∀ (xs : List (Ext K))
    (best : Ext K) (bi i : ℕ), argGo b (up k best) bi i (xs.map (up k)) = argGo b best bi i xs
  | [], _, _, _ => rfl
  | x :: xs, best, bi, i => by
    simp only [List.map_cons, argGo, h]
    split
    · exact up_argGo h xs _ _ _
    · exact up_argGo h xs _ _ _

theorem up_argmax (k : K) (xs : List (Ext K)) : argmaxV (xs.map (up k)) = argmaxV xs := by
  cases xs with
  | nil => rfl
  | cons x xs => exact up_argGo (fun x y => up_lt k y x) xs _ _ _

theorem up_argmin (k : K) (xs : List (Ext K)) : argminV (xs.map (up k)) = argminV xs := by
  cases xs with
  | nil => rfl
  | cons x xs => exact up_argGo (fun x y => up_lt k x y) xs _ _ _

theorem up_clipLo (k : K) (x t : Ext K) : clipLo (up k x) (up k t) = up k (clipLo x t) := by
  unfold clipLo; rw [up_le, up_isNaN, up_ite]

theorem up_clipHi (k : K) (x t : Ext K) : clipHi (up k x) (up k t) = up k (clipHi x t) := by
  unfold clipHi; rw [up_le, up_isNaN, up_ite]

theorem up_ewmGo (k : K) {a : K} (ha : 0 < a) (ha1 : a ≤ 1) : ∀ (xs : List (Ext K)) (avg : Ext K) (w : K), 0 ≤ w →
    ewmGo (fin a) (up k avg) (fin w) (xs.map (up k)) = (ewmGo (fin a) avg (fin w) xs).map (up k)
  | [], _, _, _ => rfl
  | x :: xs, avg, w, hw => by
    have hwt : (fin w * (lit 1 - fin a) : Ext K) = fin (w * (1 - a)) := by simp
    have h0 : 0 ≤ w * (1 - a) := mul_nonneg hw (by linarith)
    have hs : w * (1 - a) + a ≠ 0 := by positivity
    simp only [List.map_cons, ewmGo, up_isNaN, hwt, up_eqv, up_cmul, up_add, fin_add]
    rw [up_divc hs, show (w * (1 - a) * k + a * k) / (w * (1 - a) + a) = k by field_simp, ← up_ite]
    split
    · rw [List.map_cons, up_ewmGo k ha ha1 xs _ _ hw]
    · split
      · rw [List.map_cons, up_ewmGo k ha ha1 xs _ _ h0]
      · rw [List.map_cons, lit_def, up_ewmGo k ha ha1 xs _ _ (by simp)]

theorem up_prep (k : K) (xs : List (Ext K)) : prepL (xs.map (up k)) = (prepL xs).map (up k) := by
  simp only [prepL, List.map_map]
  refine List.map_congr_left fun x _ => ?_
  simp only [Function.comp, up_isFin, up_ite]; rfl

theorem up_ewm (k : K) {a : K} (ha : 0 < a) (ha1 : a ≤ 1) (xs : List (Ext K)) :
    ewmL (fin a) (xs.map (up k)) = (ewmL (fin a) xs).map (up k) := by
  unfold ewmL
  rw [up_prep]
  cases prepL xs with
  | nil => rfl
  | cons x xs =>
    simp only [List.map_cons]
    rw [lit_def, up_ewmGo k ha ha1 xs x _ (by simp)]

theorem up_ewmAdjGo (k : K) {a : K} (ha1 : a ≤ 1) : ∀ (xs : List (Ext K)) (avg : Ext K) (w : K), 0 ≤ w →
    ewmAdjGo (fin a) (up k avg) (fin w) (xs.map (up k)) = (ewmAdjGo (fin a) avg (fin w) xs).map (up k)
  | [], _, _, _ => rfl
  | x :: xs, avg, w, hw => by
    have h1 : (lit 1 : Ext K) = fin 1 := by simp
    have hwt : (fin w * (fin 1 - fin a) : Ext K) = fin (w * (1 - a)) := by simp
    have h0 : 0 ≤ w * (1 - a) := mul_nonneg hw (by linarith)
    have hs : w * (1 - a) + 1 ≠ 0 := by positivity
    simp only [List.map_cons, ewmAdjGo, up_isNaN, h1, hwt, up_eqv, up_cmul, up_add, fin_add]
    rw [up_divc hs, show (w * (1 - a) * k + 1 * k) / (w * (1 - a) + 1) = k by field_simp, ← up_ite]
    split
    · rw [List.map_cons, up_ewmAdjGo k ha1 xs _ _ hw]
    · split
      · rw [List.map_cons, up_ewmAdjGo k ha1 xs _ _ h0]
      · rw [List.map_cons, up_ewmAdjGo k ha1 xs _ _ (by linarith)]

theorem up_ewmMean (k : K) {a : K} (ha : 0 < a) (ha1 : a ≤ 1) (adj : Bool) (xs : List (Ext K)) :
    ewmMeanL adj (fin a) (xs.map (up k)) = (ewmMeanL adj (fin a) xs).map (up k) := by
  cases adj
  · exact up_ewm k ha ha1 xs
  show ewmAdjL _ _ = (ewmAdjL _ _).map _
  unfold ewmAdjL
  rw [up_prep]
  cases prepL xs with
  | nil => rfl
  | cons x xs =>
    simp only [List.map_cons]
    rw [lit_def, up_ewmAdjGo k ha1 xs x _ (by simp)]

theorem up_dynGo (k : K) : ∀ (vals al : List (Ext K)) (prev : Ext K),
    dynGo (up k prev) (vals.map (up k)) al = (dynGo prev vals al).map (List.map (up k))
  | _, [], _ => by simp [dynGo, Except.map]
  | [], _ :: _, _ => rfl
  | v :: vals, a :: al, prev => by
    simp only [List.map_cons, dynGo, up_subSelf, up_addR, up_dynGo k vals al]
    cases dynGo (prev + a * (v - prev)) vals al <;> rfl

theorem up_dynAlpha (k : K) (al t : List (Ext K)) :
    dynAlpha al (prepL (t.map (up k))) = (dynAlpha al (prepL t)).map (List.map (up k)) := by
  rw [up_prep]
  cases prepL t with
  | nil => rfl
  | cons x xs =>
    simp only [List.map_cons, dynAlpha, up_dynGo]
    cases dynGo x xs al <;> rfl

theorem up_meanSkip (k : K) (xs : List (Ext K)) : meanSkipNa (xs.map (up k)) = up k (meanSkipNa xs) := by
  have hf : (xs.map (up k)).filter (fun x => !Bta.isNaN x) = (xs.filter fun x => !Bta.isNaN x).map (up k) := by
    rw [List.filter_map]
    congr 1
    exact List.filter_congr fun x _ => by simp [up_isNaN]
  unfold meanSkipNa
  simp only [hf, List.isEmpty_map, List.length_map, up_mean]
  split <;> rfl

end Ext

/-! ## windows of full length only -/

theorem window_length {α : Type} {w i : ℕ} {xs : List α} (hi : i < xs.length) (h : ¬ i + 1 < w) : (window w i xs).length = w := by
  simp only [window, List.length_drop, List.length_take]; omega

theorem lmap_rollingN {V : Type} [PyFloat V] {σ ρ : V → V} {w : ℕ} {agg agg' : List V → V} (hn : ρ nan = nan)
    (h : ∀ l, l.length = w → agg' (l.map σ) = ρ (agg l)) (a : Line V) :
    rolling w agg' (lmap σ a) = lmap ρ (rolling w agg a) := by
  have key : ∀ xs : List V, rollL w agg' (xs.map σ) = (rollL w agg xs).map ρ := fun xs => by
    simp only [rollL, List.length_map, List.map_map, window_map]
    refine List.map_congr_left fun i hi => ?_
    simp only [Function.comp]
    split
    · exact hn.symm
    · rename_i h'
      exact h _ (window_length (List.mem_range.mp hi) h')
  simp only [rolling, lmap, clone, pyFrom_map, List.length_map, key]
  rw [← setFrom_map, hn]
  rfl

/-- the common part of `ewmMean` and `ewmDyn` -/
def ewmRun {V : Type} [PyFloat V] (c : EwmCfg) (a : Line V) (op : List V → Except Err (List V)) : Except Err (Line V) :=
  match ewmNew c a with
  | .error e => .error e
  | .ok o => ewmCall c a o op

namespace Lv
open Spec (raised)
variable {k j : K} {a b : Line (Ext K)}

theorem zero (a : Line (Ext K)) : raised 0 a = a := by
  have : (Ext.up 0 : Ext K → Ext K) = fun x => x := funext Ext.up_zero
  unfold raised; rw [this]; simp

theorem add (a b : Line (Ext K)) : raised k a + raised j b = raised (k + j) (a + b) :=
  lmap_binop (ρ := Ext.up _) (fill := PyFloat.nan) (fill' := PyFloat.nan) rfl (Ext.up_add k j) a b
theorem sub (a b : Line (Ext K)) : raised k a - raised j b = raised (k - j) (a - b) :=
  lmap_binop (ρ := Ext.up _) (fill := PyFloat.nan) (fill' := PyFloat.nan) rfl (Ext.up_sub k j) a b
theorem sub' (a b : Line (Ext K)) : raised k a - raised k b = a - b := by rw [sub, sub_self, zero]
theorem addR (a b : Line (Ext K)) : raised k a + b = raised k (a + b) := by
  have := add (k := k) (j := 0) a b; rwa [zero, add_zero] at this
theorem subR (a b : Line (Ext K)) : raised k a - b = raised k (a - b) := by
  have := sub (k := k) (j := 0) a b; rwa [zero, sub_zero] at this
theorem rmulS (c : K) (a : Line (Ext K)) : Line.rmulS (.fin c) (raised k a) = raised (c * k) (Line.rmulS (.fin c) a) :=
  lmap_binopS (σ := Ext.up k) (ρ := Ext.up _) (c := Ext.fin c) (c' := Ext.fin c) (f := fun x c => c * x) (f' := fun x c => c * x)
    (fill := PyFloat.nan) (fill' := PyFloat.nan) rfl (fun x => Ext.up_cmul c k x) a
theorem rmulSl (q : ℚ) (a : Line (Ext K)) : Line.rmulS (lit q) (raised k a) = raised (q * k) (Line.rmulS (lit q) a) := rmulS _ a
theorem mulS (c : K) (a : Line (Ext K)) : (raised k a).mulS (.fin c) = raised (k * c) (a.mulS (.fin c)) :=
  lmap_binopS (σ := Ext.up k) (ρ := Ext.up _) (c := Ext.fin c) (c' := Ext.fin c) (f := fun x c => x * c) (f' := fun x c => x * c)
    (fill := PyFloat.nan) (fill' := PyFloat.nan) rfl (fun x => Ext.up_mulc c k x) a
theorem divS {d : K} (hd : d ≠ 0) (a : Line (Ext K)) : (raised k a).divS (.fin d) = raised (k / d) (a.divS (.fin d)) :=
  lmap_binopS (σ := Ext.up k) (ρ := Ext.up _) (c := Ext.fin d) (c' := Ext.fin d) (f := fun x c => x / c) (f' := fun x c => x / c)
    (fill := PyFloat.nan) (fill' := PyFloat.nan) rfl (fun x => Ext.up_divc hd k x) a
theorem divSl {q : ℚ} (hq : q ≠ 0) (a : Line (Ext K)) : (raised k a).divS (lit q) = raised (k / q) (a.divS (lit q)) :=
  divS (by exact_mod_cast hq) a
theorem clipLoL (a b : Line (Ext K)) : Line.clipLoL (raised k a) (raised k b) = raised k (Line.clipLoL a b) :=
  lmap_stdop2 (ρ := Ext.up _) (fill := PyFloat.nan) (fill' := PyFloat.nan) rfl (fun xs ys => zipWith_map2 (Ext.up_clipLo k) xs ys) a b
theorem clipHiL (a b : Line (Ext K)) : Line.clipHiL (raised k a) (raised k b) = raised k (Line.clipHiL a b) :=
  lmap_stdop2 (ρ := Ext.up _) (fill := PyFloat.nan) (fill' := PyFloat.nan) rfl (fun xs ys => zipWith_map2 (Ext.up_clipHi k) xs ys) a b
theorem ago (i : Int) (a : Line (Ext K)) : Line.ago i (raised k a) = raised k (Line.ago i a) := lmap_ago rfl i a
theorem diff (i : ℕ) (a : Line (Ext K)) : Line.diff i (raised k a) = Line.diff i a := by
  have := lmap_diff (σ := Ext.up k) (ρ := fun x : Ext K => x) rfl (Ext.up_subSelf k) i a
  rw [lmap_id] at this; exact this
theorem period (i : Int) (a : Line (Ext K)) : Line.period i none (raised k a) = raised k (Line.period i none a) :=
  lmap_period (σ := Ext.up k) (val := none) rfl a
theorem highest (p : ℕ) (a : Line (Ext K)) : Ind.highest p (raised k a) = raised k (Ind.highest p a) :=
  lmap_rolling rfl (Ext.up_aggMax k) a
theorem lowest (p : ℕ) (a : Line (Ext K)) : Ind.lowest p (raised k a) = raised k (Ind.lowest p a) :=
  lmap_rolling rfl (Ext.up_aggMin k) a
theorem sumN (p : ℕ) (a : Line (Ext K)) : Ind.sumN p (raised k a) = raised (p * k) (Ind.sumN p a) :=
  lmap_rollingN rfl (fun l hl => Ext.up_whenAll (by rw [Ext.up_sum, hl])) a
/-- a window function which does not depend on the level -/
theorem free {agg : List (Ext K) → Ext K} (h : ∀ l, agg (l.map (Ext.up k)) = agg l) (p : ℕ) (a : Line (Ext K)) :
    rolling p agg (raised k a) = rolling p agg a := by
  have := lmap_rolling (σ := Ext.up k) (ρ := fun x : Ext K => x) (w := p) (agg := agg) (agg' := agg) rfl h a
  rw [lmap_id] at this; exact this
theorem var (d p : ℕ) (a : Line (Ext K)) : Ind.var d p (raised k a) = Ind.var d p a := free (Ext.up_aggVar k d) p a
theorem stddev (sq : Ext K → Ext K) (d p : ℕ) (a : Line (Ext K)) : Ind.stddev sq d p (raised k a) = Ind.stddev sq d p a :=
  free (fun l => by rw [Ext.up_aggVar]) p a
theorem mad (p : ℕ) (a : Line (Ext K)) : Ind.mad p (raised k a) = Ind.mad p a := free (Ext.up_mad k) p a
theorem dot {p : ℕ} {W : List K} (hW : W.length = p) (a : Line (Ext K)) :
    rolling p (aggApply fun w => dotV w (W.map .fin)) (raised k a) =
      raised (k * W.sum) (rolling p (aggApply fun w => dotV w (W.map .fin)) a) :=
  lmap_rollingN rfl (fun l hl => Ext.up_whenAll (Ext.up_dot k l W (by rw [hl, hW]))) a
theorem arg {arg : List (Ext K) → ℕ} (h : ∀ l, arg (l.map (Ext.up k)) = arg l) (p : ℕ) (a : Line (Ext K)) :
    rolling p (aggApply fun w => lit (arg w)) (raised k a) = rolling p (aggApply fun w => lit (arg w)) a :=
  free (fun l => Ext.up_whenAll0 (by rw [h])) p a
theorem ltL (a b : Line (Ext K)) : Line.ltL (raised k a) (raised k b) = Line.ltL a b := by
  have := lmap_binop (σ := Ext.up k) (τ := Ext.up k) (ρ := fun x : Bool => x) (f := fun x y => lt x y)
    (f' := fun x y => lt x y) (fill := true) rfl (Ext.up_lt k) a b
  rw [lmap_id] at this; exact this
theorem gtL (a b : Line (Ext K)) : Line.gtL (raised k a) (raised k b) = Line.gtL a b := by
  have := lmap_binop (σ := Ext.up k) (τ := Ext.up k) (ρ := fun x : Bool => x) (f := fun x y => lt y x)
    (f' := fun x y => lt y x) (fill := true) rfl (fun x y => Ext.up_lt k y x) a b
  rw [lmap_id] at this; exact this

/-! ## exponential averages -/

theorem prefix_ {s : Seed} (hs : Spec.seedLevel s) (a : Line (Ext K)) (p1 pidx p2 : Int) :
    ewmPrefix (raised k a) s p1 pidx p2 = (ewmPrefix a s p1 pidx p2).map (List.map (Ext.up k)) := by
  have key : ∀ (n : ℕ) (v : Ext K), (if (List.replicate n (PyFloat.nan : Ext K)).isEmpty then .error .indexError
      else .ok ((List.replicate n (PyFloat.nan : Ext K)).dropLast ++ [Ext.up k v]) : Except Err (List (Ext K))) =
      Except.map (List.map (Ext.up k)) (if (List.replicate n (PyFloat.nan : Ext K)).isEmpty then .error .indexError
      else .ok ((List.replicate n (PyFloat.nan : Ext K)).dropLast ++ [v])) := by
    intro n v
    split
    · rfl
    · simp [Except.map]
  unfold ewmPrefix
  cases s with
  | avg => simp only [raised, List.length_map, pySlice_map, Ext.up_meanSkip]; exact key _ _
  | last =>
    simp only [raised, List.length_map, pyGet_map]
    cases pyGet a.series pidx with
    | none => rfl
    | some v => exact key _ _
  | none => simp [raised, Except.map]
  | _ => exact hs.elim

theorem ewm {c : EwmCfg} (hs : Spec.seedLevel c.seed) {op op' : List (Ext K) → Except Err (List (Ext K))}
    (ho : ∀ t, op' (t.map (Ext.up k)) = (op t).map (List.map (Ext.up k))) (a : Line (Ext K)) :
    ewmRun c (raised k a) op' = (ewmRun c a op).map (raised k) := by
  unfold ewmRun ewmNew
  simp only [prefix_ hs, show (raised k a).minperiod = a.minperiod from rfl]
  cases ewmPrefix a c.seed (c.p2 a.minperiod - c.pval) (c.p2 a.minperiod - 1) (c.p2 a.minperiod) with
  | error e => rfl
  | ok pre =>
    simp only [Except.map, show (raised k a).series = a.series.map (Ext.up k) from rfl, pyFrom_map, ← List.map_append]
    unfold ewmCall
    simp only [ho, show (raised k a).minperiod = a.minperiod from rfl, show (raised k a).series = a.series.map (Ext.up k) from rfl,
      List.length_map]
    cases op (pre ++ pyFrom a.series (c.p2 a.minperiod)) with
    | error e => rfl
    | ok r =>
      simp only [Except.map, List.length_map]
      split
      · simp only [raised, clone]
        rw [← setFrom_map]; rfl
      · rfl

theorem ewmMean {c : EwmCfg} (hs : Spec.seedLevel c.seed) {al : K} (h0 : 0 < al) (h1 : al ≤ 1) (a : Line (Ext K)) :
    Line.ewmMean c (.fin al) (raised k a) = (Line.ewmMean c (.fin al) a).map (raised k) :=
  ewm (k := k) hs (op := fun t => .ok (ewmL (.fin al) t)) (op' := fun t => .ok (ewmL (.fin al) t))
    (fun t => by simp only [Ext.up_ewm k h0 h1]; rfl) a

theorem ewmDyn {c : EwmCfg} (hs : Spec.seedLevel c.seed) (al : Line (Ext K)) (a : Line (Ext K)) :
    Line.ewmDyn c al (raised k a) = (Line.ewmDyn c al a).map (raised k) :=
  ewm (k := k) (c := { c with alphaP := al.minperiod }) hs
    (op := fun t => dynAlpha (pyFrom al.series (al.minperiod - 1)) (prepL t))
    (op' := fun t => dynAlpha (pyFrom al.series (al.minperiod - 1)) (prepL t)) (fun t => Ext.up_dynAlpha k _ t) a

end Lv
end Bta
