import Verif.Lemmas.Level
import Verif.Lemmas.Units2

/-!
# Averages and indicators of prices with an amount added
-/

set_option linter.unusedSectionVars false
set_option linter.unusedVariables false
set_option linter.unusedSimpArgs false

namespace Bta
open Line
open Spec (raised raiseIn levelOut levelParams)

variable {K : Type} [Field K] [LinearOrder K] [IsStrictOrderedRing K]

namespace Lv
variable {k j : K} {a b : Line (Ext K)}

theorem cast (h : k = j) (a : Line (Ext K)) : raised k a = raised j a := by rw [h]

/-! ## averages -/

/-- an average with its period keeps the level -/
def Keeps (m : MA (Ext K)) (p : ℕ) : Prop := ∀ (k : K) (a : Line (Ext K)), m p (raised k a) = (m p a).map (raised k)

theorem keeps_sma (p : ℕ) : Keeps (Ind.sma : MA (Ext K)) p := fun k a => by
  unfold Ind.sma; rw [Un.map_ok]; congr 1; exact lmap_rolling rfl (Ext.up_aggMean k) a

theorem keeps_emaG {s : Seed} (hs : Spec.seedLevel s) (o : ℕ) {p : ℕ} (hp : 1 ≤ p) : Keeps (Ind.emaG s o : MA (Ext K)) p := fun k a => by
  have h1 : (1 : K) ≤ p := by exact_mod_cast hp
  unfold Ind.emaG
  rw [alphaOfCom_span hp]
  exact ewmMean (c := { pval := p, poffset := o, seed := s }) hs (by positivity) (by rw [div_le_one (by positivity)]; linarith) a

theorem keeps_gdema {m : MA (Ext K)} {p : ℕ} (h : Keeps m p) (x : K) : Keeps (Ind.gdema m (.fin x)) p := fun k a => by
  have e : (lit 1 + Ext.fin x : Ext K) = .fin (1 + x) := by simp
  simp only [Ind.gdema, e, h k, Un.bind_map, Un.map_bind, Un.map_pure, rmulS, sub]
  rw [show (1 + x) * k - x * k = k by ring]

theorem sum_range (p : ℕ) (c : K) : ((List.range p).map fun i : ℕ => (i : K) + c).sum = p * c + p * (p - 1) / 2 := by
  induction p with
  | zero => simp
  | succ p ih => rw [List.range_succ, List.map_append, List.sum_append, ih]; simp; ring

theorem weights (p c : ℕ) : ((List.range p).map fun i => (lit ((c + i : ℕ) : ℚ) : Ext K)) =
    ((List.range p).map fun i : ℕ => (i : K) + c).map Ext.fin := by
  rw [List.map_map]
  refine List.map_congr_left fun i _ => ?_
  simp [add_comm]

theorem keeps_wma {p : ℕ} (hp : 1 ≤ p) : Keeps (Ind.wma : MA (Ext K)) p := fun k a => by
  have h1 : (1 : K) ≤ p := by exact_mod_cast hp
  have h2 : ((p : K) * (p + 1)) ≠ 0 := by positivity
  have e : (lit 2 / lit ((p * (p + 1) : ℕ) : ℚ) : Ext K) = .fin (2 / ((p : K) * (p + 1))) := by
    rw [Ext.lit_def, Ext.lit_def]
    push_cast
    exact Ext.fin_div _ h2
  have w : (Ind.wmaWeights p : List (Ext K)) = ((List.range p).map fun i : ℕ => (i : K) + (1 : ℕ)).map Ext.fin := by
    rw [← weights]
    exact List.map_congr_left fun i _ => by rw [add_comm]
  simp only [Ind.wma, Un.map_ok, e, w]
  rw [dot (by simp), rmulS]
  congr 2
  rw [sum_range]
  push_cast
  field_simp
  ring

theorem keeps : ∀ (m : Avg (Ext K)) (p : ℕ), Spec.keepsLevel m p → Keeps m.run p
  | .sma, p, _ => keeps_sma p
  | .ema s o, p, h => keeps_emaG h.2 o h.1
  | .smma s, p, h => fun k a => by
    have h1 : (1 : K) ≤ p := by exact_mod_cast h.1
    show Line.ewmMean _ (alphaOfCom _) _ = (Line.ewmMean _ (alphaOfCom _) _).map _
    rw [alphaOfCom_com h.1]
    exact ewmMean (c := { pval := p, seed := s }) h.2 (by positivity) (by rw [div_le_one (by positivity)]; exact h1) a
  | .ewma adj, p, h => fun k a => by
    have h1 : (1 : K) ≤ p := by exact_mod_cast (show 1 ≤ p from h)
    simp only [Avg.run, Ind.ewmaG, Un.map_ok]
    rw [alphaOfCom_span h]
    congr 1
    simp only [raised, clone, pyFrom_map, List.length_map]
    rw [Ext.up_ewmMean k (by positivity) (by rw [div_le_one (by positivity)]; linarith), ← setFrom_map]; rfl
  | .wma, p, h => keeps_wma h
  | .sumN, p, h => h.elim
  | .trima, p, _ => fun k a => by
    simp only [Avg.run, Ind.trima, keeps_sma _ k, Un.bind_map, Un.map_bind]
  | .dema m, p, hm => fun k a => by
    have h := keeps m p hm
    simp only [Avg.run, Ind.dema, h k, Un.bind_map, Un.map_bind, Un.map_pure, rmulSl, sub]
    rw [show ((2 : ℚ) : K) * k - k = k by push_cast; ring]
  | .tema m, p, hm => fun k a => by
    have h := keeps m p hm
    simp only [Avg.run, Ind.tema, h k, Un.bind_map, Un.map_bind, Un.map_pure, rmulSl, sub, add]
    rw [show ((3 : ℚ) : K) * k - ((3 : ℚ) : K) * k + k = k by ring]
  | .trix m, p, hm => hm.elim
  | .gdema m v, p, hm => by
    obtain ⟨hm, x, rfl⟩ := hm
    exact keeps_gdema (keeps m p hm) x
  | .t3 v, p, hv => fun k a => by
    obtain ⟨hp, x, rfl⟩ := hv
    have h : Keeps (Ind.ema : MA (Ext K)) p := keeps_emaG (s := .avg) trivial _ hp
    simp only [Avg.run, Ind.t3, h k, Un.bind_map, Un.map_bind, Un.map_pure, Ext.fin_mul, Ext.fin_neg, Ext.lit_def, Ext.fin_add, Ext.fin_sub,
      rmulS, add]
    congr! 13
    push_cast
    ring
  | .t3gd m v, p, hm => fun k a => by
    obtain ⟨hm, x, rfl⟩ := hm
    have h := keeps_gdema (keeps m p hm) x
    simp only [Avg.run, Ind.t3gd, h k, Un.bind_map, Un.map_bind]
  | .kama f s pv sd, p, hs => fun k a => by
    simp only [Avg.run, Ind.kama, diff]
    exact ewmDyn (c := { pval := p, seed := sd }) hs _ a
  | .smacc sp pe sd, p, h => h.elim

/-! ## single indicators -/

theorem absGo {arg : List (Ext K) → ℕ} (h : ∀ l, arg (l.map (Ext.up k)) = arg l) (p : ℕ) (xs : List (Ext K)) :
    ∀ (n i c : ℕ), Ind.absIdxGo p arg (xs.map (Ext.up k)) n i c = Ind.absIdxGo p arg xs n i c
  | 0, _, _ => rfl
  | n + 1, i, c => by
    simp only [Ind.absIdxGo, window_map, Ext.up_all, h, absGo h p xs n]

theorem absIndex {arg : List (Ext K) → ℕ} (h : ∀ l, arg (l.map (Ext.up k)) = arg l) (p : ℕ) (a : Line (Ext K)) :
    Ind.absIndex p arg (raised k a) = Ind.absIndex p arg a := by
  simp only [Ind.absIndex, raised, pyFrom_map, List.length_map, absGo h]

theorem aroonComp {arg : List (Ext K) → ℕ} (h : ∀ l, arg (l.map (Ext.up k)) = arg l) (p : ℕ) (a : Line (Ext K)) :
    Ind.aroonComp arg p (raised k a) = Ind.aroonComp arg p a := by
  unfold Ind.aroonComp
  simp only
  rw [Lv.arg (arg := fun w => arg w.reverse) (fun l => by rw [← List.map_reverse]; exact h _)]

theorem linregSlope (m1 : Bool) (p : ℕ) (a : Line (Ext K)) : (Ind.linregBase m1 p (raised k a)).1 = (Ind.linregBase m1 p a).1 := by
  simp only [Ind.linregBase]
  rw [weights]
  simp only [sumN, rmulSl]
  rw [dot (by simp), rmulSl, sub]
  have : ((p : ℚ) : K) * (k * ((List.range p).map fun i : ℕ => (i : K) + ((1 - if m1 = true then 1 else 0 : ℕ) : K)).sum) -
      ((((p - if m1 = true then 1 else 0 : ℕ) : ℚ) * (((p - if m1 = true then 1 else 0 : ℕ) : ℚ) + 1) / 2 : ℚ) : K) * (p * k) = 0 := by
    rw [sum_range]
    rcases p with - | p
    · simp
    · cases m1 <;> (simp; ring_nf)
  rw [this, zero]

theorem linregIcpt (m1 : Bool) {p : ℕ} (hp : 1 ≤ p) (a : Line (Ext K)) :
    (Ind.linregBase m1 p (raised k a)).2 = raised k (Ind.linregBase m1 p a).2 := by
  have h := linregSlope (k := k) m1 p a
  have h1 : ((p : ℚ)) ≠ 0 := by positivity
  have h2 : (p : K) ≠ 0 := by positivity
  show (Ind.sumN p (raised k a) - (Ind.linregBase m1 p (raised k a)).1.mulS _).divS _ = raised k ((Ind.sumN p a - (Ind.linregBase m1 p a).1.mulS _).divS _)
  rw [h, sumN, subR, divSl h1]
  congr 1
  push_cast
  field_simp

theorem truerange (q : ℕ) (h l c : Line (Ext K)) :
    Ind.truerange q (raised k h) (raised k l) (raised k c) = Ind.truerange q h l c := by
  simp only [Ind.truerange, ago, clipLoL, clipHiL, sub']

theorem pdm1 (q : ℕ) (h l : Line (Ext K)) : Ind.pdm1 q (raised k h) (raised k l) = Ind.pdm1 q h l := by
  simp only [Ind.pdm1, Ind.dmMoves, diff, ago, sub']

theorem mdm1 (q : ℕ) (h l : Line (Ext K)) : Ind.mdm1 q (raised k h) (raised k l) = Ind.mdm1 q h l := by
  simp only [Ind.mdm1, Ind.dmMoves, diff, ago, sub']

section dmi
variable (s : Line (Ext K) → Except Err (Line (Ext K)))

theorem plusDm (q : ℕ) (h l : Line (Ext K)) : Ind.plusDm s q (raised k h) (raised k l) = Ind.plusDm s q h l := by
  unfold Ind.plusDm; rw [pdm1]

theorem minusDm (q : ℕ) (h l : Line (Ext K)) : Ind.minusDm s q (raised k h) (raised k l) = Ind.minusDm s q h l := by
  unfold Ind.minusDm; rw [mdm1]

theorem diTrp (q : ℕ) (t : Bool) (h l c : Line (Ext K)) :
    Ind.diTrp s q t (raised k h) (raised k l) (raised k c) = Ind.diTrp s q t h l c := by
  unfold Ind.diTrp; rw [truerange]

theorem plusDi (q : ℕ) (t : Bool) (h l c : Line (Ext K)) :
    Ind.plusDi s q t (raised k h) (raised k l) (raised k c) = Ind.plusDi s q t h l c := by
  simp only [Ind.plusDi, plusDm, diTrp]

theorem minusDi (q : ℕ) (t : Bool) (h l c : Line (Ext K)) :
    Ind.minusDi s q t (raised k h) (raised k l) (raised k c) = Ind.minusDi s q t h l c := by
  simp only [Ind.minusDi, minusDm, diTrp]

theorem dx (q : ℕ) (t : Bool) (h l c : Line (Ext K)) :
    Ind.dx s q t (raised k h) (raised k l) (raised k c) = Ind.dx s q t h l c := by
  simp only [Ind.dx, plusDi, minusDi]

theorem adx (m : MA (Ext K)) (q : ℕ) (t : Bool) (p : ℕ) (h l c : Line (Ext K)) :
    Ind.adx s m q t p (raised k h) (raised k l) (raised k c) = Ind.adx s m q t p h l c := by
  simp only [Ind.adx, dx]

end dmi

/-! ## sar -/

/-- the loop variables with an amount added -/
def sarSt (k : K) (s : Ind.SarSt (Ext K)) : Ind.SarSt (Ext K) :=
  ⟨s.trend, Ext.up k s.sar, Ext.up k s.ep, s.af, Ext.up k s.hi, Ext.up k s.lo⟩

theorem max3 (x y z : Ext K) : Ind.max3 (Ext.up k x) (Ext.up k y) (Ext.up k z) = Ext.up k (Ind.max3 x y z) := by
  simp only [Ind.max3, Ext.up_maxV]

theorem min3 (x y z : Ext K) : Ind.min3 (Ext.up k x) (Ext.up k y) (Ext.up k z) = Ext.up k (Ind.min3 x y z) := by
  simp only [Ind.min3, Ext.up_minV]

theorem sarStep (AF AM : Ext K) (s : Ind.SarSt (Ext K)) (h l : Ext K) :
    Ind.sarStep AF AM (sarSt k s) (Ext.up k h) (Ext.up k l) =
      (Ext.up k (Ind.sarStep AF AM s h l).1, sarSt k (Ind.sarStep AF AM s h l).2) := by
  simp only [Ind.sarStep, sarSt, Ext.up_le, Ext.up_lt]
  cases s.trend
  · simp only [Bool.false_eq_true, if_false]
    cases le s.sar h
    · cases lt l s.ep <;>
        simp only [Bool.false_eq_true, if_false, if_true, Ext.up_subSelf, Ext.up_addR, max3]
    · simp only [if_true, Ext.up_subSelf, Ext.up_addR, min3]
  · simp only [if_true]
    cases le l s.sar
    · cases lt s.ep h <;>
        simp only [Bool.false_eq_true, if_false, if_true, Ext.up_subSelf, Ext.up_addR, min3]
    · simp only [if_true, Ext.up_subSelf, Ext.up_addR, max3]

/-- pairs of prices with an amount added -/
def upP (k : K) (q : Ext K × Ext K) : Ext K × Ext K := (Ext.up k q.1, Ext.up k q.2)

theorem sarGo (AF AM : Ext K) : ∀ (xs : List (Ext K × Ext K)) (s : Ind.SarSt (Ext K)),
    Ind.sarGo AF AM (sarSt k s) (xs.map (upP k)) = (Ind.sarGo AF AM s xs).map (Ext.up k)
  | [], _ => rfl
  | (h, l) :: xs, s => by
    simp only [List.map_cons, upP, Ind.sarGo, sarStep]
    rw [← sarGo AF AM xs]

theorem sarInit (AF hi1 lo1 hi lo : Ext K) :
    Ind.sarInit AF (Ext.up k hi1) (Ext.up k lo1) (Ext.up k hi) (Ext.up k lo) = sarSt k (Ind.sarInit AF hi1 lo1 hi lo) := by
  simp only [Ind.sarInit, Ext.up_subSelf]
  split <;> rfl

theorem sarize (AF AM : Ext K) (xs : List (Ext K × Ext K)) :
    Ind.sarize AF AM (xs.map (upP k)) = (Ind.sarize AF AM xs).map (List.map (Ext.up k)) := by
  match xs with
  | [] => rfl
  | [_] => rfl
  | (hi1, lo1) :: (hi, lo) :: xs =>
    simp only [List.map_cons, upP, Ind.sarize, sarInit, Un.map_ok]
    have := sarGo (k := k) AF AM ((hi, lo) :: xs) (Ind.sarInit AF hi1 lo1 hi lo)
    simp only [List.map_cons, upP] at this
    rw [this]; rfl

theorem applySar {f : List (Ext K × Ext K) → Except Err (List (Ext K))}
    (hf : ∀ xs, f (xs.map (upP k)) = (f xs).map (List.map (Ext.up k))) (h l : Line (Ext K)) :
    Ind.applySar f (raised k h) (raised k l) = (Ind.applySar f h l).map (raised k) := by
  unfold Ind.applySar
  have hz : ∀ i : Int, List.zip (pyFrom (raised k h).series i) (pyFrom (raised k l).series i) =
      (List.zip (pyFrom h.series i) (pyFrom l.series i)).map (upP k) := fun i => by
    simp only [raised, pyFrom_map]; exact Bta.zip_map _ _
  simp only [hz, hf, show ∀ b : Line (Ext K), (raised k b).minperiod = b.minperiod from fun _ => rfl]
  cases f (List.zip (pyFrom h.series (max h.minperiod l.minperiod - 1)) (pyFrom l.series (max h.minperiod l.minperiod - 1))) with
  | error e => rfl
  | ok r =>
    simp only [Except.map]
    congr 1
    rw [← period]
    congr 1
    simp only [raised, clone, List.length_map]
    rw [← setFrom_map]; rfl

/-! ## correlation -/

/-- means of products: both inputs raised -/
theorem cov (k : K) : ∀ (l : List (Ext K × Ext K)), (l.all fun q => isFin q.1 && isFin q.2) = true →
    ∃ X Y : List K, l = List.zipWith (fun x y => (Ext.fin x, Ext.fin y)) X Y ∧ X.length = Y.length
  | [], _ => ⟨[], [], rfl, rfl⟩
  | (x, y) :: l, h => by
    simp only [List.all_cons, Bool.and_eq_true] at h
    obtain ⟨⟨hx, hy⟩, hl⟩ := h
    obtain ⟨X, Y, hXY, hlen⟩ := cov k l hl
    have hf : ∀ e : Ext K, isFin e = true → ∃ z, e = .fin z := fun e he => by
      cases e with
      | fin z => exact ⟨z, rfl⟩
      | _ => exact absurd he (by simp)
    obtain ⟨x, rfl⟩ := hf x hx
    obtain ⟨y, rfl⟩ := hf y hy
    exact ⟨x :: X, y :: Y, by simp [hXY], by simp [hlen]⟩

theorem sumV_fin (X : List K) : sumV (X.map Ext.fin) = (Ext.fin X.sum : Ext K) := by
  have key : ∀ (X : List K) (z : K), (X.map Ext.fin).foldl (fun a b : Ext K => a + b) (.fin z) = .fin (z + X.sum) := by
    intro X
    induction X with
    | nil => intro z; simp
    | cons x X ih => intro z; simp only [List.map_cons, List.foldl_cons, Ext.fin_add, ih, List.sum_cons, add_assoc]
  have := key X 0
  simpa [sumV] using this

theorem prod_sum (k : K) : ∀ (X Y : List K), X.length = Y.length →
    (List.zipWith (fun x y => (x + k) * (y + k)) X Y).sum =
      (List.zipWith (fun x y => x * y) X Y).sum + k * X.sum + k * Y.sum + X.length * (k * k)
  | [], [], _ => by simp
  | [], _ :: _, h => by simp at h
  | _ :: _, [], h => by simp at h
  | x :: X, y :: Y, h => by
    simp only [List.zipWith_cons_cons, List.sum_cons, prod_sum k X Y (by simpa using h), List.length_cons]
    push_cast
    ring

theorem sum_up (k : K) (X : List K) : (X.map (· + k)).sum = X.sum + X.length * k := by
  induction X with
  | nil => simp
  | cons x X ih => simp only [List.map_cons, List.sum_cons, ih, List.length_cons]; push_cast; ring

theorem corrV (sq : Ext K → Ext K) (l : List (Ext K × Ext K)) : aggCorr sq (l.map (upP k)) = aggCorr sq l := by
  unfold aggCorr
  have e3 : ((l.map (upP k)).all fun q => isFin q.1 && isFin q.2) = l.all fun q => isFin q.1 && isFin q.2 := by
    rw [List.all_map]; congr 1; funext q; simp [Function.comp, upP, Ext.up_isFin]
  rw [e3]
  by_cases hall : (l.all fun q => isFin q.1 && isFin q.2) = true
  swap
  · rw [if_neg hall, if_neg hall]
  rw [if_pos hall, if_pos hall]
  obtain ⟨X, Y, rfl, hlen⟩ := cov k l hall
  have f1 : (List.zipWith (fun x y => (Ext.fin x, Ext.fin y)) X Y).map Prod.fst = X.map Ext.fin := by
    clear hall e3
    induction X generalizing Y with
    | nil => rfl
    | cons x X ih => cases Y with
      | nil => simp at hlen
      | cons y Y => simp only [List.zipWith_cons_cons, List.map_cons, ih Y (by simpa using hlen)]
  have f2 : (List.zipWith (fun x y => (Ext.fin x, Ext.fin y)) X Y).map Prod.snd = Y.map Ext.fin := by
    clear hall e3 f1
    induction X generalizing Y with
    | nil => cases Y with
      | nil => rfl
      | cons y Y => simp at hlen
    | cons x X ih => cases Y with
      | nil => simp at hlen
      | cons y Y => simp only [List.zipWith_cons_cons, List.map_cons, ih Y (by simpa using hlen)]
  have g1 : ((List.zipWith (fun x y => (Ext.fin x, Ext.fin y)) X Y).map (upP k)).map Prod.fst = (X.map Ext.fin).map (Ext.up k) := by
    rw [← f1, List.map_map, List.map_map]; rfl
  have g2 : ((List.zipWith (fun x y => (Ext.fin x, Ext.fin y)) X Y).map (upP k)).map Prod.snd = (Y.map Ext.fin).map (Ext.up k) := by
    rw [← f2, List.map_map, List.map_map]; rfl
  have u : ∀ Z : List K, (Z.map Ext.fin).map (Ext.up k) = (Z.map (· + k)).map Ext.fin := fun Z => by
    rw [List.map_map, List.map_map]; rfl
  have z : ∀ X Y : List K, List.zipWith (fun a b : Ext K => a * b) (X.map Ext.fin) (Y.map Ext.fin) =
      (List.zipWith (fun a b => a * b) X Y).map Ext.fin := fun X Y =>
    zipWith_map2 (σ := Ext.fin) (τ := Ext.fin) (ρ := Ext.fin) (fun _ _ => rfl) X Y
  have hL : (List.zipWith (fun x y => (Ext.fin x, Ext.fin y)) X Y : List (Ext K × Ext K)).length = X.length := by
    simp [hlen]
  simp only [g1, g2, f1, f2, Ext.up_aggVar, List.length_map, hL]
  simp only [u, z, sumV_fin]
  rcases X with - | ⟨x, X⟩
  · obtain rfl : Y = [] := List.length_eq_zero_iff.mp hlen.symm
    rfl
  · have hn : (((((x :: X).length : ℕ) : ℚ)) : K) ≠ 0 := by push_cast [List.length_cons]; positivity
    have hn' : (((x :: X).length : ℕ) : K) ≠ 0 := by push_cast [List.length_cons]; positivity
    have zz : (List.zipWith (fun a b => a * b) ((x :: X).map (· + k)) (Y.map (· + k))).sum =
        (List.zipWith (fun a b => (a + k) * (b + k)) (x :: X) Y).sum := by
      rw [List.zipWith_map]
    rw [zz, prod_sum k _ _ hlen, sum_up, sum_up, ← hlen]
    congr 2
    rw [Ext.lit_def, Ext.fin_div _ hn, Ext.fin_div _ hn, Ext.fin_div _ hn, Ext.fin_div _ hn, Ext.fin_div _ hn, Ext.fin_div _ hn]
    simp only [Ext.fin_mul, Ext.fin_sub, Ext.fin_inj, Rat.cast_natCast]
    field_simp
    ring

theorem corr (sq : Ext K → Ext K) (p : ℕ) (a b : Line (Ext K)) :
    Ind.correl sq p (raised k a) (raised k b) = Ind.correl sq p a b := by
  have := lmap_rolling2 (σ := Ext.up k) (τ := Ext.up k) (ρ := fun x : Ext K => x) (w := p) (agg := aggCorr sq)
    (agg' := aggCorr sq) rfl (corrV sq) a b
  rw [lmap_id] at this; exact this

end Lv
end Bta
