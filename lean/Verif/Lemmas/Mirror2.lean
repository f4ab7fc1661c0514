import Verif.Lemmas.Mirror
import Verif.Lemmas.Units
import Verif.Lemmas.RelInst
import Verif.Lemmas.Calc
import Verif.Spec.Mirror

/-!
# Indicators of lines with the sign changed
-/

set_option linter.unusedSectionVars false
set_option linter.unusedVariables false
set_option linter.unusedSimpArgs false

namespace Bta
open Line
open Spec (neg)

variable {V : Type} [PyFloat V] [SignSym V]

namespace Mi

theorem neg_neg (a : Line V) : neg (neg a) = a := by
  cases a with | mk s m => simp [neg, List.map_map, Function.comp_def, Sg.neg_neg]

theorem add (a b : Line V) : neg a + neg b = neg (a + b) :=
  lmap_binop (ρ := fun x : V => -x) (fill := PyFloat.nan) (fill' := PyFloat.nan) nanrfl Sg.ng_add a b
theorem sub (a b : Line V) : neg a - neg b = neg (a - b) :=
  lmap_binop (ρ := fun x : V => -x) (fill := PyFloat.nan) (fill' := PyFloat.nan) nanrfl Sg.ng_sub a b
theorem negAdd (a b : Line V) : neg a + b = neg (a - b) := by
  have := lmap_binop (σ := fun x : V => -x) (τ := fun x : V => x) (ρ := fun x : V => -x) (fill := PyFloat.nan)
    (fill' := PyFloat.nan) (f := fun x y => x - y) (f' := fun x y => x + y) nanrfl (fun x y => by
      exact Sg.ng_add_l x y) a b
  rw [lmap_id] at this; exact this
theorem negSub (a b : Line V) : neg a - b = neg (a + b) := by
  have := lmap_binop (σ := fun x : V => -x) (τ := fun x : V => x) (ρ := fun x : V => -x) (fill := PyFloat.nan)
    (fill' := PyFloat.nan) (f := fun x y => x + y) (f' := fun x y => x - y) nanrfl (fun x y => by
      exact Sg.ng_sub_l x y) a b
  rw [lmap_id] at this; exact this
theorem mul (a b : Line V) : neg a * neg b = a * b := by
  have := lmap_binop (σ := fun x : V => -x) (τ := fun x : V => -x) (ρ := fun x : V => x) (fill := PyFloat.nan)
    (fill' := PyFloat.nan) (f := fun x y => x * y) (f' := fun x y => x * y) nanrfl Sg.ng_mul a b
  rw [lmap_id] at this; exact this
theorem mulL (a b : Line V) : neg a * b = neg (a * b) := by
  have := lmap_binop (σ := fun x : V => -x) (τ := fun x : V => x) (ρ := fun x : V => -x) (fill := PyFloat.nan)
    (fill' := PyFloat.nan) (f := fun x y => x * y) (f' := fun x y => x * y) nanrfl (fun x y => Sg.ng_mulc y x) a b
  rw [lmap_id] at this; exact this
theorem mulR (a b : Line V) : a * neg b = neg (a * b) := by
  have := lmap_binop (σ := fun x : V => x) (τ := fun x : V => -x) (ρ := fun x : V => -x) (fill := PyFloat.nan)
    (fill' := PyFloat.nan) (f := fun x y => x * y) (f' := fun x y => x * y) nanrfl (fun x y => Sg.ng_cmul x y) a b
  rw [lmap_id] at this; exact this
theorem divL (a b : Line V) : neg a / b = neg (a / b) := by
  have := lmap_binop (σ := fun x : V => -x) (τ := fun x : V => x) (ρ := fun x : V => -x) (fill := PyFloat.nan)
    (fill' := PyFloat.nan) (f := fun x y => x / y) (f' := fun x y => x / y) nanrfl (fun x y => Sg.ng_divc y x) a b
  rw [lmap_id] at this; exact this
theorem mulS (c : V) (a : Line V) : (neg a).mulS c = neg (a.mulS c) :=
  lmap_binopS (σ := fun x : V => -x) (ρ := fun x : V => -x) (c := c) (c' := c) (f := fun x c => x * c) (f' := fun x c => x * c) (fill := PyFloat.nan) (fill' := PyFloat.nan) nanrfl (fun x => Sg.ng_mulc c x) a
theorem rmulS (c : V) (a : Line V) : Line.rmulS c (neg a) = neg (Line.rmulS c a) :=
  lmap_binopS (σ := fun x : V => -x) (ρ := fun x : V => -x) (c := c) (c' := c) (f := fun x c => c * x) (f' := fun x c => c * x) (fill := PyFloat.nan) (fill' := PyFloat.nan) nanrfl (fun x => Sg.ng_cmul c x) a
theorem divS (c : V) (a : Line V) : (neg a).divS c = neg (a.divS c) :=
  lmap_binopS (σ := fun x : V => -x) (ρ := fun x : V => -x) (c := c) (c' := c) (f := fun x c => x / c) (f' := fun x c => x / c) (fill := PyFloat.nan) (fill' := PyFloat.nan) nanrfl (fun x => Sg.ng_divc c x) a

theorem mapEven {f : V → V} (h : ∀ x, f (-x) = f x) (a : Line V) : mapOp f (neg a) = mapOp f a := by
  have := lmap_mapOp (σ := fun x : V => -x) (ρ := fun x : V => x) (f := f) (f' := f) nanrfl h a
  rw [lmap_id] at this; exact this
theorem mapOdd {f : V → V} (h : ∀ x, f (-x) = -f x) (a : Line V) : mapOp f (neg a) = neg (mapOp f a) :=
  lmap_mapOp (σ := fun x : V => -x) (ρ := fun x : V => -x) nanrfl h a
theorem abs (a : Line V) : (neg a).abs = a.abs := mapEven Sg.ng_abs a
theorem square (a : Line V) : mapOp (fun x => x * x) (neg a) = mapOp (fun x => x * x) a := mapEven (fun x => Sg.ng_mul x x) a
theorem signOp (a : Line V) : mapOp signV (neg a) = neg (mapOp signV a) := mapOdd Sg.ng_sign a
theorem clipLoS0 (a : Line V) : (neg a).clipLoS (lit 0) = neg (a.clipHiS (lit 0)) :=
  lmap_mapOp (σ := fun x : V => -x) (ρ := fun x : V => -x) nanrfl (fun x => by have := Sg.ng_clipLo x (lit 0); rw [Sg.neg_zero'] at this; exact this) a
theorem clipHiS0 (a : Line V) : (neg a).clipHiS (lit 0) = neg (a.clipLoS (lit 0)) :=
  lmap_mapOp (σ := fun x : V => -x) (ρ := fun x : V => -x) nanrfl (fun x => by have := Sg.ng_clipHi x (lit 0); rw [Sg.neg_zero'] at this; exact this) a
theorem clipLoL (a b : Line V) : Line.clipLoL (neg a) (neg b) = neg (Line.clipHiL a b) :=
  lmap_stdop2 (ρ := fun x : V => -x) (fill := PyFloat.nan) (fill' := PyFloat.nan) nanrfl (fun xs ys => zipWith_map2 Sg.ng_clipLo xs ys) a b
theorem clipHiL (a b : Line V) : Line.clipHiL (neg a) (neg b) = neg (Line.clipLoL a b) :=
  lmap_stdop2 (ρ := fun x : V => -x) (fill := PyFloat.nan) (fill' := PyFloat.nan) nanrfl (fun xs ys => zipWith_map2 Sg.ng_clipHi xs ys) a b
theorem ago (k : Int) (a : Line V) : Line.ago k (neg a) = neg (Line.ago k a) := lmap_ago nanrfl k a
theorem shift (k : Int) (a : Line V) : Line.shift k (neg a) = neg (Line.shift k a) := lmap_shift nanrfl k a
theorem diff (k : ℕ) (a : Line V) : Line.diff k (neg a) = neg (Line.diff k a) := lmap_diff (σ := fun x : V => -x) (ρ := fun x : V => -x) nanrfl Sg.ng_sub k a
theorem period (k : Int) (a : Line V) : Line.period k none (neg a) = neg (Line.period k none a) :=
  lmap_period (σ := fun x : V => -x) (val := none) nanrfl a
theorem periodN (k : Int) (a : Line V) :
    Line.period k (some PyFloat.nan) (neg a) = neg (Line.period k (some PyFloat.nan) a) :=
  lmap_period (σ := fun x : V => -x) (val := some PyFloat.nan) (congrArg some Sg.neg_nan.symm) a
theorem rollOdd {f g : List V → V} (h : ∀ l, g (l.map fun x : V => -x) = -f l) (p : ℕ) (a : Line V) :
    rolling p g (neg a) = neg (rolling p f a) := lmap_rolling (σ := fun x : V => -x) (ρ := fun x : V => -x) nanrfl h a
theorem rollEven {f g : List V → V} (h : ∀ l, g (l.map fun x : V => -x) = f l) (p : ℕ) (a : Line V) :
    rolling p g (neg a) = rolling p f a := by
  have := lmap_rolling (σ := fun x : V => -x) (ρ := fun x : V => x) (w := p) (agg := f) (agg' := g) nanrfl h a
  rw [lmap_id] at this; exact this
theorem highest (p : ℕ) (a : Line V) : Ind.highest p (neg a) = neg (Ind.lowest p a) := rollOdd Sg.ng_aggMax p a
theorem lowest (p : ℕ) (a : Line V) : Ind.lowest p (neg a) = neg (Ind.highest p a) := rollOdd Sg.ng_aggMin p a
theorem sumN (p : ℕ) (a : Line V) : Ind.sumN p (neg a) = neg (Ind.sumN p a) := rollOdd Sg.ng_aggSum p a
theorem var (d p : ℕ) (a : Line V) : Ind.var d p (neg a) = Ind.var d p a := rollEven (Sg.ng_aggVar d) p a
theorem stddev (sq : V → V) (d p : ℕ) (a : Line V) : Ind.stddev sq d p (neg a) = Ind.stddev sq d p a :=
  rollEven (fun l => by simp only [Sg.ng_aggVar]) p a
theorem dot (p : ℕ) (ws : List V) (a : Line V) :
    rolling p (aggApply fun w => dotV w ws) (neg a) = neg (rolling p (aggApply fun w => dotV w ws) a) :=
  rollOdd (Sg.ng_whenAll fun l => Sg.ng_dot l ws) p a
theorem cumsum (a : Line V) : (neg a).cumsum = neg a.cumsum :=
  lmap_stdop (σ := fun x : V => -x) (ρ := fun x : V => -x) (fill := PyFloat.nan) (fill' := PyFloat.nan) nanrfl Sg.ng_cumsum a
theorem arg {arg arg' : List V → ℕ} (h : ∀ l, arg (l.map fun x : V => -x) = arg' l) (p : ℕ) (a : Line V) :
    rolling p (aggApply fun w => lit (arg w)) (neg a) = rolling p (aggApply fun w => lit (arg' w)) a :=
  rollEven (Sg.ng_whenAll' fun l => by rw [h]) p a
theorem ltL (a b : Line V) : Line.ltL (neg a) (neg b) = Line.gtL a b := by
  have := lmap_binop (σ := fun x : V => -x) (τ := fun x : V => -x) (ρ := fun x : Bool => x) (f := fun x y => lt y x)
    (f' := fun x y => lt x y) (fill := true) nanrfl Sg.ng_lt a b
  rw [lmap_id] at this; exact this
theorem gtL (a b : Line V) : Line.gtL (neg a) (neg b) = Line.ltL a b := by
  have := lmap_binop (σ := fun x : V => -x) (τ := fun x : V => -x) (ρ := fun x : Bool => x) (f := fun x y => lt x y)
    (f' := fun x y => lt y x) (fill := true) nanrfl (fun x y => Sg.ng_lt y x) a b
  rw [lmap_id] at this; exact this
theorem ltS0 (a : Line V) : Line.ltS (neg a) (lit 0) = Line.gtS a (lit 0) := by
  have := lmap_binopS (σ := fun x : V => -x) (ρ := fun x : Bool => x) (f := fun x y => lt y x) (c := (lit 0 : V))
    (c' := (lit 0 : V)) (f' := fun x y => lt x y) (fill := true) nanrfl
    (fun x => by have := Sg.ng_lt x (lit 0); rw [Sg.neg_zero'] at this; exact this) a
  rw [lmap_id] at this; exact this
theorem gtS0 (a : Line V) : Line.gtS (neg a) (lit 0) = Line.ltS a (lit 0) := by
  have := lmap_binopS (σ := fun x : V => -x) (ρ := fun x : Bool => x) (f := fun x y => lt x y) (c := (lit 0 : V))
    (c' := (lit 0 : V)) (f' := fun x y => lt y x) (fill := true) nanrfl
    (fun x => by have := Sg.ng_lt (lit 0) x; rw [Sg.neg_zero'] at this; exact this) a
  rw [lmap_id] at this; exact this

theorem ewmMean (c : EwmCfg) (al : V) (a : Line V) :
    Line.ewmMean c al (neg a) = (Line.ewmMean c al a).map neg :=
  ewm_map Sg.ng_seed c (fun t => by simp only [Sg.ng_ewm]; rfl) a
theorem ewmLfilter (s : Bool) (c : EwmCfg) (al : V) (be : Option V) (a : Line V) :
    Line.ewmLfilter s c al be (neg a) = (Line.ewmLfilter s c al be a).map neg :=
  ewm_map Sg.ng_seed c (fun t => Sg.ng_lfilter s al be t) a
theorem ewmDyn (c : EwmCfg) (al : Line V) (a : Line V) :
    Line.ewmDyn c al (neg a) = (Line.ewmDyn c al a).map neg :=
  ewm_map Sg.ng_seed { c with alphaP := al.minperiod } (fun t => Sg.ng_dynAlpha _ t) a

/-- an average which is odd -/
def Odd (m : MA V) : Prop := ∀ (p : ℕ) (a : Line V), m p (neg a) = (m p a).map neg

theorem odd_sma : Odd (Ind.sma : MA V) := fun p a => by
  unfold Ind.sma; rw [Un.map_ok]; congr 1; exact rollOdd Sg.ng_aggMean p a

theorem odd_emaG (s : Seed) (o : ℕ) : Odd (Ind.emaG s o : MA V) := fun p a => ewmMean _ _ a

theorem odd_gdema {m : MA V} (h : Odd m) (f : V) : Odd (Ind.gdema m f) := fun p a => by
  simp only [Ind.gdema, h _ (_ : Line V), Un.bind_map, Un.map_bind, Un.map_pure, rmulS, sub]

theorem odd : ∀ (m : Avg V), Spec.keepsUnit m → Odd m.run
  | .sma, _ => odd_sma
  | .ema s o, _ => odd_emaG s o
  | .smma s, _ => fun p a => ewmMean _ _ a
  | .ewma adj, _ => fun p a => by
    simp only [Avg.run, Ind.ewmaG, Un.map_ok]
    congr 1
    simp only [neg, clone, pyFrom_map, List.length_map, Sg.ng_ewmMean]
    rw [← setFrom_map, Sg.neg_nan]; rfl
  | .wma, _ => fun p a => by
    simp only [Avg.run, Ind.wma, Un.map_ok, dot, rmulS]
  | .sumN, _ => fun p a => by
    simp only [Avg.run, Ind.sumNMA, Un.map_ok, sumN]
  | .trima, _ => fun p a => by
    simp only [Avg.run, Ind.trima, odd_sma _ (_ : Line V), Un.bind_map, Un.map_bind]
  | .dema m, hm => fun p a => by
    have h := odd m hm
    simp only [Avg.run, Ind.dema, h _ (_ : Line V), Un.bind_map, Un.map_bind, Un.map_pure, rmulS, sub]
  | .tema m, hm => fun p a => by
    have h := odd m hm
    simp only [Avg.run, Ind.tema, h _ (_ : Line V), Un.bind_map, Un.map_bind, Un.map_pure, rmulS, sub, add]
  | .gdema m f, hm => odd_gdema (odd m hm) f
  | .t3 f, _ => fun p a => by
    have h : Odd (Ind.ema : MA V) := odd_emaG _ _
    simp only [Avg.run, Ind.t3, h _ (_ : Line V), Un.bind_map, Un.map_bind, Un.map_pure, rmulS, add]
  | .t3gd m f, hm => fun p a => by
    have h := odd_gdema (odd m hm) f
    simp only [Avg.run, Ind.t3gd, h _ (_ : Line V), Un.bind_map, Un.map_bind]
  | .kama f s pv sd, _ => fun p a => by
    simp only [Avg.run, Ind.kama, diff, divL, abs, ewmDyn]
  | .smacc sp pe sd, _ => fun p a => ewmLfilter _ _ _ _ a
  | .trix m, hm => hm.elim

end Mi
end Bta
