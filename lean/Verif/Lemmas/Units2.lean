import Verif.Lemmas.Units

/-!
# Calls on lines in other units
-/

set_option linter.unusedSectionVars false
set_option linter.unusedVariables false

namespace Bta
open Line
open Spec (inUnit unitIn unitsOut unitParams)

variable {K : Type} [Field K] [LinearOrder K] [IsStrictOrderedRing K]

namespace Un
variable {u v w : K} {a b : Line (Ext K)}

/-! ## single indicators -/

theorem ofMap {f f' : List (Ext K) → Ext K} (u v : K) (h : ∀ l, f' (l.map (Ext.sc u)) = Ext.sc v (f l)) (p : ℕ)
    (a : Line (Ext K)) : rolling p f' (inUnit u a) = inUnit v (rolling p f a) := lmap_rolling rfl h a

theorem mad (hu : 0 < u) (p : ℕ) (a : Line (Ext K)) : Ind.mad p (inUnit u a) = inUnit u (Ind.mad p a) :=
  lmap_rolling rfl (Ext.sc_whenAll u fun l => by
    simp only [Ind.madV, List.length_map, Ext.sc_sum hu, Ext.sc_divc hu, List.map_map]
    have e : l.map ((fun x => absv (x - Ext.sc u (sumV l / lit l.length))) ∘ Ext.sc u) =
        (l.map fun x => absv (x - sumV l / lit l.length)).map (Ext.sc u) := by
      rw [List.map_map]
      exact List.map_congr_left fun x _ => by simp only [Function.comp, Ext.sc_sub, Ext.sc_abs hu]
    rw [e, Ext.sc_sum hu, Ext.sc_divc hu]) a

theorem rsi {m : MA (Ext K)} (h : Keeps m) (hu : 0 < u) (k p : ℕ) (a : Line (Ext K)) :
    Ind.rsi m k p (inUnit u a) = Ind.rsi m k p a := by
  simp only [Ind.rsi, diff, clipLoS0 hu, clipHiS0 hu, abs hu, h u _ _ hu, bind_map, div' hu]

theorem absGo {arg : List (Ext K) → ℕ} (h : ∀ l, arg (l.map (Ext.sc u)) = arg l) (p : ℕ) (xs : List (Ext K)) :
    ∀ (k i c : ℕ), Ind.absIdxGo p arg (xs.map (Ext.sc u)) k i c = Ind.absIdxGo p arg xs k i c
  | 0, _, _ => rfl
  | k + 1, i, c => by
    simp only [Ind.absIdxGo, window_map, Ext.sc_all, h, absGo h p xs k]

theorem absIndex {arg : List (Ext K) → ℕ} (h : ∀ l, arg (l.map (Ext.sc u)) = arg l) (p : ℕ) (a : Line (Ext K)) :
    Ind.absIndex p arg (inUnit u a) = Ind.absIndex p arg a := by
  simp only [Ind.absIndex, inUnit, pyFrom_map, List.length_map, absGo h]

theorem aroonComp {arg : List (Ext K) → ℕ} (h : ∀ l, arg (l.map (Ext.sc u)) = arg l) (p : ℕ) (a : Line (Ext K)) :
    Ind.aroonComp arg p (inUnit u a) = Ind.aroonComp arg p a := by
  unfold Ind.aroonComp
  simp only
  rw [Un.arg (arg := fun w => arg w.reverse) (fun l => by rw [← List.map_reverse]; exact h _)]

theorem linregBase (hu : 0 < u) (m1 : Bool) (p : ℕ) (a : Line (Ext K)) :
    Ind.linregBase m1 p (inUnit u a) = (inUnit u (Ind.linregBase m1 p a).1, inUnit u (Ind.linregBase m1 p a).2) := by
  simp only [Ind.linregBase, sumN hu, dot hu, rmulS hu, sub, divS hu, mulS hu]

theorem truerange (hu : 0 < u) (q : ℕ) (h l c : Line (Ext K)) :
    Ind.truerange q (inUnit u h) (inUnit u l) (inUnit u c) = inUnit u (Ind.truerange q h l c) := by
  simp only [Ind.truerange, ago, clipLoL hu, clipHiL hu, sub]

theorem signOp (hu : 0 < u) (a : Line (Ext K)) : mapOp signV (inUnit u a) = mapOp signV a := by
  have := lmap_mapOp (σ := Ext.sc u) (ρ := fun x : Ext K => x) (f := signV) (f' := signV) rfl (Ext.sc_sign hu) a
  rw [lmap_id] at this; exact this

/-- the sign of a line whose bar before the first one was set to a positive value -/
theorem signFill (hu : 0 < u) (a : Line (Ext K)) :
    mapOp signV (Line.period (-1) (some (lit 1)) (inUnit u a)) = mapOp signV (Line.period (-1) (some (lit 1)) a) := by
  have key : ∀ b : Line (Ext K), ((Line.period (-1) (some (lit 1)) b).series.map signV) =
      (Line.period (-1) (some (signV (lit 1))) (lmap signV b)).series := by
    intro b
    have := congrArg Line.series (lmap_period (σ := signV) (inc := -1) (val := some (lit 1 : Ext K)) rfl b)
    exact this.symm
  have e : lmap signV (inUnit u a) = lmap signV a := by
    simp only [lmap, inUnit, List.map_map]
    congr 1
    exact List.map_congr_left fun x _ => Ext.sc_sign hu x
  have hm : (Line.period (-1) (some (lit 1)) (inUnit u a)).minperiod = (Line.period (-1) (some (lit 1)) a).minperiod := by
    simp [Line.period, inUnit]
  have hs := (key (inUnit u a)).trans ((congrArg _ (congrArg _ e)).trans (key a).symm)
  have hl := congrArg List.length hs
  simp only [List.length_map] at hl
  unfold mapOp stdop
  simp only [hm, ← pyFrom_map, hs, hl]
  rfl

theorem pdm1 (hu : 0 < u) (q : ℕ) (h l : Line (Ext K)) :
    Ind.pdm1 q (inUnit u h) (inUnit u l) = inUnit u (Ind.pdm1 q h l) := by
  simp only [Ind.pdm1, Ind.dmMoves, diff, ago, sub, clipLoS0 hu, gtL hu, mulB hu]

theorem mdm1 (hu : 0 < u) (q : ℕ) (h l : Line (Ext K)) :
    Ind.mdm1 q (inUnit u h) (inUnit u l) = inUnit u (Ind.mdm1 q h l) := by
  simp only [Ind.mdm1, Ind.dmMoves, diff, ago, sub, clipLoS0 hu, gtL hu, mulB hu]

/-- a smoother (`_smoother` with its period) -/
def KeepsS (s : Line (Ext K) → Except Err (Line (Ext K))) : Prop :=
  ∀ (u : K) (a : Line (Ext K)), 0 < u → s (inUnit u a) = (s a).map (inUnit u)

section dmi
variable {s : Line (Ext K) → Except Err (Line (Ext K))}

theorem plusDm (hs : KeepsS s) (hu : 0 < u) (q : ℕ) (h l : Line (Ext K)) :
    Ind.plusDm s q (inUnit u h) (inUnit u l) = (Ind.plusDm s q h l).map (inUnit u) := by
  unfold Ind.plusDm; rw [pdm1 hu, hs u _ hu]

theorem minusDm (hs : KeepsS s) (hu : 0 < u) (q : ℕ) (h l : Line (Ext K)) :
    Ind.minusDm s q (inUnit u h) (inUnit u l) = (Ind.minusDm s q h l).map (inUnit u) := by
  unfold Ind.minusDm; rw [mdm1 hu, hs u _ hu]

/-- the average true range as used in the directional indicators, in another unit -/
def hmap (u : K) (h : Holder (Ext K)) : Holder (Ext K) := ⟨inUnit u h.first, h.rest.map (inUnit u), h.minperiod⟩

theorem diTrp (hs : KeepsS s) (hu : 0 < u) (q : ℕ) (t : Bool) (h l c : Line (Ext K)) :
    Ind.diTrp s q t (inUnit u h) (inUnit u l) (inUnit u c) = (Ind.diTrp s q t h l c).map (hmap u) := by
  unfold Ind.diTrp; rw [truerange hu, hs u _ hu, bind_map, map_bind]
  rfl

theorem divHolder (hu : 0 < u) (a : Line (Ext K)) (h : Holder (Ext K)) :
    (inUnit u a).op (· / ·) PyFloat.nan (.holder (hmap u h)) = a.op (· / ·) PyFloat.nan (.holder h) :=
  div' hu a ⟨h.first.series, h.minperiod⟩

theorem plusDi (hs : KeepsS s) (hu : 0 < u) (q : ℕ) (t : Bool) (h l c : Line (Ext K)) :
    Ind.plusDi s q t (inUnit u h) (inUnit u l) (inUnit u c) = Ind.plusDi s q t h l c := by
  simp only [Ind.plusDi, plusDm hs hu, diTrp hs hu, bind_map, rmulS hu, divHolder hu]

theorem minusDi (hs : KeepsS s) (hu : 0 < u) (q : ℕ) (t : Bool) (h l c : Line (Ext K)) :
    Ind.minusDi s q t (inUnit u h) (inUnit u l) (inUnit u c) = Ind.minusDi s q t h l c := by
  simp only [Ind.minusDi, minusDm hs hu, diTrp hs hu, bind_map, rmulS hu, divHolder hu]

theorem dx (hs : KeepsS s) (hu : 0 < u) (q : ℕ) (t : Bool) (h l c : Line (Ext K)) :
    Ind.dx s q t (inUnit u h) (inUnit u l) (inUnit u c) = Ind.dx s q t h l c := by
  simp only [Ind.dx, plusDi hs hu, minusDi hs hu]

end dmi

/-! ## sar -/

/-- the loop variables in another unit -/
def sarSt (u : K) (s : Ind.SarSt (Ext K)) : Ind.SarSt (Ext K) :=
  ⟨s.trend, Ext.sc u s.sar, Ext.sc u s.ep, s.af, Ext.sc u s.hi, Ext.sc u s.lo⟩

theorem max3 (hu : 0 < u) (x y z : Ext K) : Ind.max3 (Ext.sc u x) (Ext.sc u y) (Ext.sc u z) = Ext.sc u (Ind.max3 x y z) := by
  simp only [Ind.max3, Ext.sc_maxV hu]

theorem min3 (hu : 0 < u) (x y z : Ext K) : Ind.min3 (Ext.sc u x) (Ext.sc u y) (Ext.sc u z) = Ext.sc u (Ind.min3 x y z) := by
  simp only [Ind.min3, Ext.sc_minV hu]

theorem sarStep (hu : 0 < u) (AF AM : Ext K) (s : Ind.SarSt (Ext K)) (h l : Ext K) :
    Ind.sarStep AF AM (sarSt u s) (Ext.sc u h) (Ext.sc u l) =
      (Ext.sc u (Ind.sarStep AF AM s h l).1, sarSt u (Ind.sarStep AF AM s h l).2) := by
  simp only [Ind.sarStep, sarSt, Ext.sc_le hu, Ext.sc_lt hu]
  cases s.trend
  · simp only [Bool.false_eq_true, if_false]
    cases le s.sar h
    · cases lt l s.ep <;>
        simp only [Bool.false_eq_true, if_false, if_true, Ext.sc_sub, Ext.sc_cmul hu, Ext.sc_add, max3 hu]
    · simp only [if_true, Ext.sc_sub, Ext.sc_cmul hu, Ext.sc_add, min3 hu]
  · simp only [if_true]
    cases le l s.sar
    · cases lt s.ep h <;>
        simp only [Bool.false_eq_true, if_false, if_true, Ext.sc_sub, Ext.sc_cmul hu, Ext.sc_add, min3 hu]
    · simp only [if_true, Ext.sc_sub, Ext.sc_cmul hu, Ext.sc_add, max3 hu]

/-- pairs of prices in another unit -/
def scP (u : K) (q : Ext K × Ext K) : Ext K × Ext K := (Ext.sc u q.1, Ext.sc u q.2)

theorem sarGo (hu : 0 < u) (AF AM : Ext K) : ∀ (xs : List (Ext K × Ext K)) (s : Ind.SarSt (Ext K)),
    Ind.sarGo AF AM (sarSt u s) (xs.map (scP u)) = (Ind.sarGo AF AM s xs).map (Ext.sc u)
  | [], _ => rfl
  | (h, l) :: xs, s => by
    simp only [List.map_cons, scP, Ind.sarGo, sarStep hu]
    rw [← sarGo hu AF AM xs]

theorem minusdm (hu : 0 < u) (hi1 lo1 hi lo : Ext K) :
    lt (lit 0) (maxV (Ext.sc u lo1 - Ext.sc u lo) (lit 0) * ofBool (lt (Ext.sc u hi - Ext.sc u hi1) (Ext.sc u lo1 - Ext.sc u lo))) =
      lt (lit 0) (maxV (lo1 - lo) (lit 0) * ofBool (lt (hi - hi1) (lo1 - lo))) := by
  have h0 := Ext.sc_zero (K := K) u
  rw [Ext.sc_sub, Ext.sc_sub, Ext.sc_lt hu]
  conv_lhs => rw [← h0, Ext.sc_maxV hu, Ext.sc_mulBool hu, Ext.sc_lt hu]

theorem sarInit (hu : 0 < u) (AF hi1 lo1 hi lo : Ext K) :
    Ind.sarInit AF (Ext.sc u hi1) (Ext.sc u lo1) (Ext.sc u hi) (Ext.sc u lo) = sarSt u (Ind.sarInit AF hi1 lo1 hi lo) := by
  simp only [Ind.sarInit, minusdm hu]
  split <;> rfl

theorem sarize (hu : 0 < u) (AF AM : Ext K) (xs : List (Ext K × Ext K)) :
    Ind.sarize AF AM (xs.map (scP u)) = (Ind.sarize AF AM xs).map (List.map (Ext.sc u)) := by
  match xs with
  | [] => rfl
  | [_] => rfl
  | (hi1, lo1) :: (hi, lo) :: xs =>
    simp only [List.map_cons, scP, Ind.sarize, sarInit hu, map_ok]
    have := sarGo hu AF AM ((hi, lo) :: xs) (Ind.sarInit AF hi1 lo1 hi lo)
    simp only [List.map_cons, scP] at this
    rw [this]; rfl

theorem applySar {f : List (Ext K × Ext K) → Except Err (List (Ext K))}
    (hf : ∀ xs, f (xs.map (scP u)) = (f xs).map (List.map (Ext.sc u))) (h l : Line (Ext K)) :
    Ind.applySar f (inUnit u h) (inUnit u l) = (Ind.applySar f h l).map (inUnit u) := by
  unfold Ind.applySar
  have hz : ∀ i : Int, List.zip (pyFrom (inUnit u h).series i) (pyFrom (inUnit u l).series i) =
      (List.zip (pyFrom h.series i) (pyFrom l.series i)).map (scP u) := fun i => by
    simp only [inUnit, pyFrom_map]; exact Bta.zip_map _ _
  simp only [hz, hf, show ∀ b : Line (Ext K), (inUnit u b).minperiod = b.minperiod from fun _ => rfl]
  cases f (List.zip (pyFrom h.series (max h.minperiod l.minperiod - 1)) (pyFrom l.series (max h.minperiod l.minperiod - 1))) with
  | error e => rfl
  | ok r =>
    simp only [Except.map]
    congr 1
    rw [← period]
    congr 1
    simp only [inUnit, clone, List.length_map]
    rw [← setFrom_map]; rfl

/-- the loop variables in another unit -/
def sarExtSt (u : K) (s : Ind.SarExtSt (Ext K)) : Ind.SarExtSt (Ext K) :=
  ⟨s.trend, Ext.sc u s.sar, Ext.sc u s.ep, s.aflong, s.afshort, Ext.sc u s.hi, Ext.sc u s.lo⟩

theorem sarExtStep (hu : 0 < u) (P : Ind.SarExtP (Ext K)) (s : Ind.SarExtSt (Ext K)) (h l : Ext K) :
    Ind.sarExtStep P (sarExtSt u s) (Ext.sc u h) (Ext.sc u l) =
      (Ext.sc u (Ind.sarExtStep P s h l).1, sarExtSt u (Ind.sarExtStep P s h l).2) := by
  simp only [Ind.sarExtStep, sarExtSt, Ext.sc_le hu, Ext.sc_lt hu]
  cases s.trend
  · simp only [Bool.false_eq_true, if_false]
    cases le s.sar h
    · cases lt l s.ep <;>
        simp only [Bool.false_eq_true, if_false, if_true, Ext.sc_sub, Ext.sc_cmul hu, Ext.sc_add, max3 hu, Ext.sc_neg]
    · simp only [if_true, Ext.sc_sub, Ext.sc_cmul hu, Ext.sc_mulc hu, Ext.sc_add, min3 hu]
  · simp only [if_true]
    cases le l s.sar
    · cases lt s.ep h <;>
        simp only [Bool.false_eq_true, if_false, if_true, Ext.sc_sub, Ext.sc_cmul hu, Ext.sc_add, min3 hu]
    · simp only [if_true, Ext.sc_sub, Ext.sc_cmul hu, Ext.sc_mulc hu, Ext.sc_add, max3 hu, Ext.sc_neg]

theorem sarExtGo (hu : 0 < u) (P : Ind.SarExtP (Ext K)) : ∀ (xs : List (Ext K × Ext K)) (s : Ind.SarExtSt (Ext K)),
    Ind.sarExtGo P (sarExtSt u s) (xs.map (scP u)) = (Ind.sarExtGo P s xs).map (Ext.sc u)
  | [], _ => rfl
  | (h, l) :: xs, s => by
    simp only [List.map_cons, scP, Ind.sarExtGo, sarExtStep hu]
    rw [← sarExtGo hu P xs]

theorem sarExtInit (hu : 0 < u) {P : Ind.SarExtP (Ext K)} (hP : P.startval = .fin 0) (hi1 lo1 hi lo : Ext K) :
    Ind.sarExtInit P (Ext.sc u hi1) (Ext.sc u lo1) (Ext.sc u hi) (Ext.sc u lo) = sarExtSt u (Ind.sarExtInit P hi1 lo1 hi lo) := by
  have h0 : eqv P.startval (lit 0 : Ext K) = true := by rw [hP]; simp
  simp only [Ind.sarExtInit, minusdm hu, h0, if_true]
  split <;> rfl

theorem sarExtize (hu : 0 < u) {P : Ind.SarExtP (Ext K)} (hP : P.startval = .fin 0) (xs : List (Ext K × Ext K)) :
    Ind.sarExtize P (xs.map (scP u)) = (Ind.sarExtize P xs).map (List.map (Ext.sc u)) := by
  match xs with
  | [] => rfl
  | [_] => rfl
  | (hi1, lo1) :: (hi, lo) :: xs =>
    simp only [List.map_cons, scP, Ind.sarExtize, sarExtInit hu hP, map_ok]
    have := sarExtGo hu P ((hi, lo) :: xs) (Ind.sarExtInit P hi1 lo1 hi lo)
    simp only [List.map_cons, scP] at this
    rw [this]; rfl

/-! ## correlation -/

theorem corr {sq : Ext K → Ext K} (hs : Spec.RootLike sq) (hu : 0 < u) (hv : 0 < v) (p : ℕ) (a b : Line (Ext K)) :
    Ind.correl sq p (inUnit u a) (inUnit v b) = Ind.correl sq p a b := by
  have := lmap_rolling2 (σ := Ext.sc u) (τ := Ext.sc v) (ρ := fun x : Ext K => x) (w := p) (agg := aggCorr sq)
    (agg' := aggCorr sq) rfl (fun l => by
      unfold aggCorr
      have e1 : (l.map fun q => (Ext.sc u q.1, Ext.sc v q.2)).map Prod.fst = (l.map Prod.fst).map (Ext.sc u) := by
        simp [List.map_map, Function.comp_def]
      have e2 : (l.map fun q => (Ext.sc u q.1, Ext.sc v q.2)).map Prod.snd = (l.map Prod.snd).map (Ext.sc v) := by
        simp [List.map_map, Function.comp_def]
      have e3 : ((l.map fun q => (Ext.sc u q.1, Ext.sc v q.2)).all fun q => isFin q.1 && isFin q.2) =
          l.all fun q => isFin q.1 && isFin q.2 := by
        rw [List.all_map]; congr 1; funext q; simp [Function.comp, Ext.sc_isFin]
      have huv := mul_pos hu hv
      have e4 : ∀ xs ys : List (Ext K), List.zipWith (fun x y => x * y) (xs.map (Ext.sc u)) (ys.map (Ext.sc v)) =
          (List.zipWith (fun x y => x * y) xs ys).map (Ext.sc (u * v)) := zipWith_map2 (Ext.sc_mul hu hv)
      have d : ∀ {w : K}, 0 < w → ∀ (x : Ext K) (n : ℚ), Ext.sc w x / lit n = Ext.sc w (x / lit n) :=
        fun hw x n => Ext.sc_divc hw _ x
      simp only [e1, e2, e3, e4, List.length_map, Ext.sc_sum huv, Ext.sc_sum hu, Ext.sc_sum hv, d huv, d hu, d hv, Ext.sc_mul hu hv, Ext.sc_sub, Ext.sc_mulc huv, Ext.sc_aggVar hu, Ext.sc_aggVar hv, hs u _ hu, hs v _ hv,
        Ext.sc_div huv huv, div_self huv.ne', Ext.sc_one]) a b
  rw [lmap_id] at this; exact this

end Un
end Bta
