import Verif.Lemmas.Scale

/-!
# Indicators of lines in another unit

Line operations on lines in other units give the result in the unit of dimensional analysis; then the indicators one by one.
-/

set_option linter.unusedSectionVars false
set_option linter.unusedVariables false

namespace Bta
open Line
open Spec (inUnit)

variable {K : Type} [Field K] [LinearOrder K] [IsStrictOrderedRing K]

namespace Un
variable {u v w : K} {a b : Line (Ext K)}

theorem one (a : Line (Ext K)) : inUnit 1 a = a := by
  have : (Ext.sc 1 : Ext K → Ext K) = fun x => x := funext Ext.sc_one
  unfold inUnit; rw [this]; simp

theorem cast (h : u = v) (a : Line (Ext K)) : inUnit u a = inUnit v a := by rw [h]

theorem selfdiv (hu : 0 < u) (a : Line (Ext K)) : inUnit (u / u) a = a := by rw [div_self hu.ne']; exact one a

theorem add (a b : Line (Ext K)) : inUnit u a + inUnit u b = inUnit u (a + b) := lmap_binop (ρ := Ext.sc _) (fill := PyFloat.nan) (fill' := PyFloat.nan) rfl (Ext.sc_add u) a b
theorem sub (a b : Line (Ext K)) : inUnit u a - inUnit u b = inUnit u (a - b) := lmap_binop (ρ := Ext.sc _) (fill := PyFloat.nan) (fill' := PyFloat.nan) rfl (Ext.sc_sub u) a b
theorem mul (hu : 0 < u) (hv : 0 < v) (a b : Line (Ext K)) : inUnit u a * inUnit v b = inUnit (u * v) (a * b) :=
  lmap_binop (ρ := Ext.sc _) (fill := PyFloat.nan) (fill' := PyFloat.nan) rfl (Ext.sc_mul hu hv) a b
theorem div (hu : 0 < u) (hv : 0 < v) (a b : Line (Ext K)) : inUnit u a / inUnit v b = inUnit (u / v) (a / b) :=
  lmap_binop (ρ := Ext.sc _) (fill := PyFloat.nan) (fill' := PyFloat.nan) rfl (Ext.sc_div hu hv) a b
/-- a ratio of values in the same unit has no unit -/
theorem div' (hu : 0 < u) (a b : Line (Ext K)) : inUnit u a / inUnit u b = a / b := by rw [div hu hu, selfdiv hu]
/-- a factor without unit -/
theorem mulL (hv : 0 < v) (a b : Line (Ext K)) : inUnit v a * b = inUnit v (a * b) := by
  have := mul hv zero_lt_one a b; rw [one, mul_one] at this; exact this
theorem mulR (hv : 0 < v) (a b : Line (Ext K)) : a * inUnit v b = inUnit v (a * b) := by
  have := mul zero_lt_one hv a b; rw [one, one_mul] at this; exact this
theorem mulS (hu : 0 < u) (c : Ext K) (a : Line (Ext K)) : (inUnit u a).mulS c = inUnit u (a.mulS c) :=
  lmap_binopS (σ := Ext.sc u) (ρ := Ext.sc u) (c := c) (c' := c) (f := fun x c => x * c) (f' := fun x c => x * c) (fill := PyFloat.nan) (fill' := PyFloat.nan) rfl (fun x => Ext.sc_mulc hu c x) a
theorem rmulS (hu : 0 < u) (c : Ext K) (a : Line (Ext K)) : Line.rmulS c (inUnit u a) = inUnit u (Line.rmulS c a) :=
  lmap_binopS (σ := Ext.sc u) (ρ := Ext.sc u) (c := c) (c' := c) (f := fun x c => c * x) (f' := fun x c => c * x) (fill := PyFloat.nan) (fill' := PyFloat.nan) rfl (fun x => Ext.sc_cmul hu c x) a
theorem divS (hu : 0 < u) (c : Ext K) (a : Line (Ext K)) : (inUnit u a).divS c = inUnit u (a.divS c) :=
  lmap_binopS (σ := Ext.sc u) (ρ := Ext.sc u) (c := c) (c' := c) (f := fun x c => x / c) (f' := fun x c => x / c) (fill := PyFloat.nan) (fill' := PyFloat.nan) rfl (fun x => Ext.sc_divc hu c x) a

theorem abs (hu : 0 < u) (a : Line (Ext K)) : (inUnit u a).abs = inUnit u a.abs := lmap_mapOp rfl (Ext.sc_abs hu) a
theorem square (hu : 0 < u) (a : Line (Ext K)) :
    mapOp (fun x => x * x) (inUnit u a) = inUnit (u * u) (mapOp (fun x => x * x) a) :=
  lmap_mapOp rfl (fun x => Ext.sc_mul hu hu x x) a
theorem clipLoS0 (hu : 0 < u) (a : Line (Ext K)) : (inUnit u a).clipLoS (lit 0) = inUnit u (a.clipLoS (lit 0)) :=
  lmap_mapOp rfl (fun x => by have := Ext.sc_clipLo hu x (lit 0); rw [Ext.sc_zero] at this; exact this) a
theorem clipHiS0 (hu : 0 < u) (a : Line (Ext K)) : (inUnit u a).clipHiS (lit 0) = inUnit u (a.clipHiS (lit 0)) :=
  lmap_mapOp rfl (fun x => by have := Ext.sc_clipHi hu x (lit 0); rw [Ext.sc_zero] at this; exact this) a
theorem clipLoL (hu : 0 < u) (a b : Line (Ext K)) : Line.clipLoL (inUnit u a) (inUnit u b) = inUnit u (Line.clipLoL a b) :=
  lmap_stdop2 (ρ := Ext.sc _) (fill := PyFloat.nan) (fill' := PyFloat.nan) rfl (fun xs ys => zipWith_map2 (Ext.sc_clipLo hu) xs ys) a b
theorem clipHiL (hu : 0 < u) (a b : Line (Ext K)) : Line.clipHiL (inUnit u a) (inUnit u b) = inUnit u (Line.clipHiL a b) :=
  lmap_stdop2 (ρ := Ext.sc _) (fill := PyFloat.nan) (fill' := PyFloat.nan) rfl (fun xs ys => zipWith_map2 (Ext.sc_clipHi hu) xs ys) a b
theorem ago (k : Int) (a : Line (Ext K)) : Line.ago k (inUnit u a) = inUnit u (Line.ago k a) := lmap_ago rfl k a
theorem shift (k : Int) (a : Line (Ext K)) : Line.shift k (inUnit u a) = inUnit u (Line.shift k a) := lmap_shift rfl k a
theorem diff (k : ℕ) (a : Line (Ext K)) : Line.diff k (inUnit u a) = inUnit u (Line.diff k a) :=
  lmap_diff rfl (Ext.sc_sub u) k a
theorem period (k : Int) (a : Line (Ext K)) : Line.period k none (inUnit u a) = inUnit u (Line.period k none a) :=
  lmap_period (σ := Ext.sc u) (val := none) rfl a
theorem periodN (k : Int) (a : Line (Ext K)) :
    Line.period k (some PyFloat.nan) (inUnit u a) = inUnit u (Line.period k (some PyFloat.nan) a) :=
  lmap_period (σ := Ext.sc u) (val := some PyFloat.nan) rfl a
theorem highest (hu : 0 < u) (p : ℕ) (a : Line (Ext K)) : Ind.highest p (inUnit u a) = inUnit u (Ind.highest p a) :=
  lmap_rolling rfl (Ext.sc_aggMax hu) a
theorem lowest (hu : 0 < u) (p : ℕ) (a : Line (Ext K)) : Ind.lowest p (inUnit u a) = inUnit u (Ind.lowest p a) :=
  lmap_rolling rfl (Ext.sc_aggMin hu) a
theorem sumN (hu : 0 < u) (p : ℕ) (a : Line (Ext K)) : Ind.sumN p (inUnit u a) = inUnit u (Ind.sumN p a) :=
  lmap_rolling rfl (Ext.sc_aggSum hu) a
theorem var (hu : 0 < u) (d p : ℕ) (a : Line (Ext K)) : Ind.var d p (inUnit u a) = inUnit (u * u) (Ind.var d p a) :=
  lmap_rolling rfl (Ext.sc_aggVar hu d) a
theorem stddev {sq : Ext K → Ext K} (hs : Spec.RootLike sq) (hu : 0 < u) (d p : ℕ) (a : Line (Ext K)) :
    Ind.stddev sq d p (inUnit u a) = inUnit u (Ind.stddev sq d p a) :=
  lmap_rolling rfl (fun l => by simp only [Ext.sc_aggVar hu]; exact hs u _ hu) a
theorem dot (hu : 0 < u) (p : ℕ) (ws : List (Ext K)) (a : Line (Ext K)) :
    rolling p (aggApply fun w => dotV w ws) (inUnit u a) = inUnit u (rolling p (aggApply fun w => dotV w ws) a) :=
  lmap_rolling rfl (Ext.sc_whenAll u fun l => Ext.sc_dot hu l ws) a
theorem cumsum (hu : 0 < u) (a : Line (Ext K)) : (inUnit u a).cumsum = inUnit u a.cumsum :=
  lmap_stdop (ρ := Ext.sc _) (fill := PyFloat.nan) (fill' := PyFloat.nan) rfl (Ext.sc_cumsum hu) a
theorem pct (hu : 0 < u) (k : ℕ) (a : Line (Ext K)) : pctChange k (inUnit u a) = pctChange k a := by
  have := lmap_stdop (σ := Ext.sc u) (ρ := fun x : Ext K => x) (g := pctChangeL k) (g' := pctChangeL k) (fill := PyFloat.nan)
    (inc := k) rfl (fun xs => by rw [Ext.sc_pct hu, List.map_id']) a
  rw [lmap_id] at this; exact this
theorem arg {arg : List (Ext K) → ℕ} (h : ∀ l, arg (l.map (Ext.sc u)) = arg l) (p : ℕ) (a : Line (Ext K)) :
    rolling p (aggApply fun w => lit (arg w)) (inUnit u a) = rolling p (aggApply fun w => lit (arg w)) a := by
  have := lmap_rolling (σ := Ext.sc u) (ρ := fun x : Ext K => x) (w := p) (agg := aggApply fun w => lit (arg w))
    (agg' := aggApply fun w => lit (arg w)) rfl
    (fun l => by
      have := Ext.sc_whenAll (v := 1) (f := fun w => lit (arg w)) u (fun l => by rw [Ext.sc_one, h]) l
      rw [Ext.sc_one] at this; exact this) a
  rw [lmap_id] at this; exact this
theorem mulB (hu : 0 < u) (a : Line (Ext K)) (c : Line Bool) : Line.mulB (inUnit u a) c = inUnit u (Line.mulB a c) := by
  have := lmap_binop (σ := Ext.sc u) (τ := fun x : Bool => x) (ρ := Ext.sc u) (f := fun x y => x * ofBool y)
    (f' := fun x y => x * ofBool y) (fill := (PyFloat.nan : Ext K)) rfl (Ext.sc_mulBool hu) a c
  rw [lmap_id] at this; exact this
theorem ltL (hu : 0 < u) (a b : Line (Ext K)) : Line.ltL (inUnit u a) (inUnit u b) = Line.ltL a b := by
  have := lmap_binop (σ := Ext.sc u) (τ := Ext.sc u) (ρ := fun x : Bool => x) (f := fun x y => lt x y)
    (f' := fun x y => lt x y) (fill := true) rfl (Ext.sc_lt hu) a b
  rw [lmap_id] at this; exact this
theorem gtL (hu : 0 < u) (a b : Line (Ext K)) : Line.gtL (inUnit u a) (inUnit u b) = Line.gtL a b := by
  have := lmap_binop (σ := Ext.sc u) (τ := Ext.sc u) (ρ := fun x : Bool => x) (f := fun x y => lt y x)
    (f' := fun x y => lt y x) (fill := true) rfl (fun x y => Ext.sc_lt hu y x) a b
  rw [lmap_id] at this; exact this
theorem ltS0 (hu : 0 < u) (a : Line (Ext K)) : Line.ltS (inUnit u a) (lit 0) = Line.ltS a (lit 0) := by
  have := lmap_binopS (σ := Ext.sc u) (ρ := fun x : Bool => x) (f := fun x y => lt x y) (c := (lit 0 : Ext K))
    (c' := (lit 0 : Ext K)) (f' := fun x y => lt x y) (fill := true) rfl
    (fun x => by have := Ext.sc_lt hu x (lit 0); rw [Ext.sc_zero] at this; exact this) a
  rw [lmap_id] at this; exact this
theorem gtS0 (hu : 0 < u) (a : Line (Ext K)) : Line.gtS (inUnit u a) (lit 0) = Line.gtS a (lit 0) := by
  have := lmap_binopS (σ := Ext.sc u) (ρ := fun x : Bool => x) (f := fun x y => lt y x) (c := (lit 0 : Ext K))
    (c' := (lit 0 : Ext K)) (f' := fun x y => lt y x) (fill := true) rfl
    (fun x => by have := Ext.sc_lt hu (lit 0) x; rw [Ext.sc_zero] at this; exact this) a
  rw [lmap_id] at this; exact this
theorem eqS0 (hu : 0 < u) (a : Line (Ext K)) :
    binopS (fun x c => eqv x c) true (inUnit u a) (lit 0) = binopS (fun x c => eqv x c) true a (lit 0) := by
  have := lmap_binopS (σ := Ext.sc u) (ρ := fun x : Bool => x) (f := fun x y => eqv x y) (c := (lit 0 : Ext K))
    (c' := (lit 0 : Ext K)) (f' := fun x y => eqv x y) (fill := true) rfl
    (fun x => by have := Ext.sc_eqv hu x (lit 0); rw [Ext.sc_zero] at this; exact this) a
  rw [lmap_id] at this; exact this

theorem ewmMean (hu : 0 < u) (c : EwmCfg) (al : Ext K) (a : Line (Ext K)) :
    Line.ewmMean c al (inUnit u a) = (Line.ewmMean c al a).map (inUnit u) :=
  ewm_map (Ext.sc_seed hu) c (fun t => by simp only [Ext.sc_ewm hu]; rfl) a

theorem ewmLfilter (hu : 0 < u) (s : Bool) (c : EwmCfg) (al : Ext K) (be : Option (Ext K)) (a : Line (Ext K)) :
    Line.ewmLfilter s c al be (inUnit u a) = (Line.ewmLfilter s c al be a).map (inUnit u) :=
  ewm_map (Ext.sc_seed hu) c (fun t => Ext.sc_lfilter hu s al be t) a

theorem ewmDyn (hu : 0 < u) (c : EwmCfg) (al : Line (Ext K)) (a : Line (Ext K)) :
    Line.ewmDyn c al (inUnit u a) = (Line.ewmDyn c al a).map (inUnit u) :=
  ewm_map (Ext.sc_seed hu) { c with alphaP := al.minperiod } (fun t => Ext.sc_dynAlpha hu _ t) a

/-! calculations which may raise -/

theorem bind_map {α β γ : Type} (x : Except Err α) (f : α → β) (g : β → Except Err γ) :
    (x.map f >>= g) = (x >>= fun r => g (f r)) := by cases x <;> rfl

theorem map_bind {α β γ : Type} (x : Except Err α) (g : α → Except Err β) (f : β → γ) :
    (x >>= g).map f = (x >>= fun r => (g r).map f) := by cases x <;> rfl

theorem map_pure {α β : Type} (x : α) (f : α → β) : (pure x : Except Err α).map f = pure (f x) := rfl
theorem map_ok {α β : Type} (x : α) (f : α → β) : (Except.ok x : Except Err α).map f = .ok (f x) := rfl
theorem map_map {α β γ : Type} (x : Except Err α) (f : α → β) (g : β → γ) : (x.map f).map g = x.map (fun r => g (f r)) := by
  cases x <;> rfl
theorem map_eq_bind {α β : Type} (x : Except Err α) (f : α → β) : x.map f = (x >>= fun r => pure (f r)) := by cases x <;> rfl

/-- an average which keeps units -/
def Keeps (m : MA (Ext K)) : Prop :=
  ∀ (u : K) (p : ℕ) (a : Line (Ext K)), 0 < u → m p (inUnit u a) = (m p a).map (inUnit u)

theorem keeps_sma : Keeps (Ind.sma : MA (Ext K)) := fun u p a hu => by
  unfold Ind.sma; rw [map_ok]; congr 1; exact lmap_rolling rfl (Ext.sc_aggMean hu) a

theorem keeps_emaG (s : Seed) (o : ℕ) : Keeps (Ind.emaG s o : MA (Ext K)) := fun u p a hu => ewmMean hu _ _ a

theorem keeps_gdema {m : MA (Ext K)} (h : Keeps m) (f : Ext K) : Keeps (Ind.gdema m f) := fun u p a hu => by
  simp only [Ind.gdema, h u _ _ hu, bind_map, map_bind, map_pure, rmulS hu, sub]

theorem keeps : ∀ (m : Avg (Ext K)), Spec.keepsUnit m → Keeps m.run
  | .sma, _ => keeps_sma
  | .ema s o, _ => keeps_emaG s o
  | .smma s, _ => fun u p a hu => ewmMean hu _ _ a
  | .ewma adj, _ => fun u p a hu => by
    simp only [Avg.run, Ind.ewmaG, map_ok]
    congr 1
    simp only [inUnit, clone, pyFrom_map, List.length_map, Ext.sc_ewmMean hu]
    rw [← setFrom_map]; rfl
  | .wma, _ => fun u p a hu => by
    simp only [Avg.run, Ind.wma, map_ok, dot hu, rmulS hu]
  | .sumN, _ => fun u p a hu => by
    simp only [Avg.run, Ind.sumNMA, map_ok, sumN hu]
  | .trima, _ => fun u p a hu => by
    simp only [Avg.run, Ind.trima, keeps_sma u _ _ hu, bind_map, map_bind]
  | .dema m, hm => fun u p a hu => by
    have h := keeps m hm
    simp only [Avg.run, Ind.dema, h u _ _ hu, bind_map, map_bind, map_pure, rmulS hu, sub]
  | .tema m, hm => fun u p a hu => by
    have h := keeps m hm
    simp only [Avg.run, Ind.tema, h u _ _ hu, bind_map, map_bind, map_pure, rmulS hu, sub, add]
  | .gdema m f, hm => keeps_gdema (keeps m hm) f
  | .t3 f, _ => fun u p a hu => by
    have h : Keeps (Ind.ema : MA (Ext K)) := keeps_emaG _ _
    simp only [Avg.run, Ind.t3, h u _ _ hu, bind_map, map_bind, map_pure, rmulS hu, add]
  | .t3gd m f, hm => fun u p a hu => by
    have h := keeps_gdema (keeps m hm) f
    simp only [Avg.run, Ind.t3gd, h u _ _ hu, bind_map, map_bind]
  | .kama f s pv sd, _ => fun u p a hu => by
    simp only [Avg.run, Ind.kama, diff, abs hu, sumN hu, div' hu, ewmDyn hu]
  | .smacc sp pe sd, _ => fun u p a hu => ewmLfilter hu _ _ _ _ a
  | .trix m, hm => hm.elim

end Un
end Bta
