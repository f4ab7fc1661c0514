import Verif.Lemmas.Units2

/-!
# The Hilbert transform family on prices in another unit, and all calls
-/

set_option linter.unusedSectionVars false
set_option linter.unusedVariables false
set_option linter.unusedSimpArgs false

namespace Bta
open Line
open Spec (inUnit unitIn unitsOut unitParams)

variable {K : Type} [Field K] [LinearOrder K] [IsStrictOrderedRing K]

namespace Un
variable {u v w : K} {a b : Line (Ext K)}

/-- the loop variables in another unit -/
def htSt (u : K) (s : Ind.HtSt (Ext K)) : Ind.HtSt (Ext K) :=
  { det := s.det.map (Ext.sc u), i1 := s.i1.map (Ext.sc u), q1 := s.q1.map (Ext.sc u), i2 := Ext.sc u s.i2, q2 := Ext.sc u s.q2,
    re := Ext.sc (u * u) s.re, im := Ext.sc (u * u) s.im, period := s.period, smooth := s.smooth }

theorem htInit (u : K) : htSt u (Ind.HtSt.init : Ind.HtSt (Ext K)) = Ind.HtSt.init := by
  simp [htSt, Ind.HtSt.init]

theorem deq (u : K) (d : List (Ext K)) (x : Ext K) :
    Ind.deqAppend (d.map (Ext.sc u)) (Ext.sc u x) = (Ind.deqAppend d x).map (Ext.sc u) := by
  simp [Ind.deqAppend]

theorem htAt (u : K) (x : List (Ext K)) (i : Int) : Ind.htAt (x.map (Ext.sc u)) i = Ext.sc u (Ind.htAt x i) := by
  unfold Ind.htAt; rw [pyGet_map]; cases pyGet x i <;> rfl

theorem htHt (hu : 0 < u) (x : List (Ext K)) (adj : Ext K) (i : Int) :
    Ind.htHt (x.map (Ext.sc u)) adj i = Ext.sc u (Ind.htHt x adj i) := by
  simp only [Ind.htHt, htAt, Ext.sc_cmul hu, Ext.sc_add, Ext.sc_sub, Ext.sc_mulc hu]

theorem truthy (hu : 0 < u) (x : Ext K) : Ind.truthy (Ext.sc u x) = Ind.truthy x := by
  unfold Ind.truthy
  have := Ext.sc_eqv hu x (lit 0); rw [Ext.sc_zero] at this; rw [this]

theorem divE (hu : 0 < u) (x y : Ext K) : Ext.sc u x / Ext.sc u y = x / y := by
  rw [Ext.sc_div hu hu, div_self hu.ne', Ext.sc_one]

theorem htPeriod (hu : 0 < u) (F : HtFns (Ext K)) (re im p : Ext K) :
    Ind.htPeriod F (Ext.sc u re) (Ext.sc u im) p = Ind.htPeriod F re im p := by
  simp only [Ind.htPeriod, truthy hu, divE hu]

theorem htStep (hu : 0 < u) (F : HtFns (Ext K)) (price : List (Ext K)) (i : ℕ) (s : Ind.HtSt (Ext K)) :
    Ind.htStep F (price.map (Ext.sc u)) i (htSt u s) = htSt u (Ind.htStep F price i s) := by
  have huu := mul_pos hu hu
  have c : ∀ {w : K}, 0 < w → ∀ (x : Ext K) (n : ℚ), lit n * Ext.sc w x = Ext.sc w (lit n * x) :=
    fun hw x n => Ext.sc_cmul hw _ x
  simp only [Ind.htStep, htSt, htHt hu, deq, htAt, Ext.sc_sub, Ext.sc_add, c hu, Ext.sc_mul hu hu, c huu, htPeriod huu]

theorem htGo {σ : Type} {step step' : ℕ → σ → σ} {out out' : σ → Ext K} (f : σ → σ) (hs : ∀ i s, step' i (f s) = f (step i s))
    (ho : ∀ s, out' (f s) = Ext.sc u (out s)) :
    ∀ (k i : ℕ) (s : σ), Ind.htGo step' out' k i (f s) = (Ind.htGo step out k i s).map (Ext.sc u)
  | 0, _, _ => rfl
  | k + 1, i, s => by
    simp only [Ind.htGo, hs, ho, List.map_cons, htGo f hs ho k]

theorem htBuf {σ : Type} {step step' : ℕ → σ → σ} {out out' : σ → Ext K} {s0 : σ} (f : σ → σ) (h0 : f s0 = s0)
    (hs : ∀ i s, step' i (f s) = f (step i s)) (ho : ∀ s, out' (f s) = Ext.sc u (out s)) (start len : ℕ) :
    Ind.htBuf start len step' out' s0 = (Ind.htBuf start len step out s0).map (Ext.sc u) := by
  unfold Ind.htBuf
  have := htGo f hs ho (len - start) start s0
  rw [h0] at this
  simp [this]

theorem htZero (u : K) (n : ℕ) (price : List (Ext K)) : Ind.htZero n (price.map (Ext.sc u)) = (Ind.htZero n price).map (Ext.sc u) := by
  unfold Ind.htZero
  have := pyFill_map (σ := Ext.sc u) price 0 n (lit 0)
  rw [Ext.sc_zero] at this; exact this

theorem htSmooth (hu : 0 < u) (a : Line (Ext K)) : Ind.htSmooth (inUnit u a) = inUnit u (Ind.htSmooth a) := by
  simp only [Ind.htSmooth, ago, rmulS hu, add, divS hu, period]

theorem applyU {g : List (Ext K) → List (Ext K)} (u v : K) (h : ∀ xs, g (xs.map (Ext.sc u)) = (g xs).map (Ext.sc v))
    (a : Line (Ext K)) : apply g PyFloat.nan (inUnit u a) = inUnit v (apply g PyFloat.nan a) :=
  lmap_apply (fill := PyFloat.nan) (fill' := PyFloat.nan) (σ := Ext.sc u) (ρ := Ext.sc v) rfl h a

theorem apply2U {g : List (Ext K) → List (Ext K) → List (Ext K)} (u v w : K)
    (h : ∀ xs ys, g (xs.map (Ext.sc u)) (ys.map (Ext.sc v)) = (g xs ys).map (Ext.sc w))
    (a b : Line (Ext K)) : apply2 g PyFloat.nan (inUnit u a) (inUnit v b) = inUnit w (apply2 g PyFloat.nan a b) :=
  lmap_stdop2 (fill := PyFloat.nan) (fill' := PyFloat.nan) (σ := Ext.sc u) (τ := Ext.sc v) (ρ := Ext.sc w) rfl h a b

theorem htBase (hu : 0 < u) (F : HtFns (Ext K)) (out : Ind.HtSt (Ext K) → Ext K) (ho : ∀ s, out (htSt u s) = Ext.sc v (out s))
    (a : Line (Ext K)) :
    apply (fun price => Ind.htBuf 6 price.length (Ind.htStep F (Ind.htZero 6 price)) out Ind.HtSt.init) PyFloat.nan
        (Ind.htSmooth (inUnit u a)) =
      inUnit v (apply (fun price => Ind.htBuf 6 price.length (Ind.htStep F (Ind.htZero 6 price)) out Ind.HtSt.init) PyFloat.nan
        (Ind.htSmooth a)) := by
  rw [htSmooth hu]
  refine applyU u v (fun xs => ?_) _
  rw [List.length_map, htZero]
  exact htBuf (htSt u) (htInit u) (htStep hu F _) ho 6 _

theorem htDcperiod (hu : 0 < u) (F : HtFns (Ext K)) (a : Line (Ext K)) : Ind.htDcperiod F (inUnit u a) = Ind.htDcperiod F a := by
  unfold Ind.htDcperiod
  rw [htBase (v := 1) hu F _ (fun s => (Ext.sc_one _).symm), one]

theorem htInphase (hu : 0 < u) (F : HtFns (Ext K)) (a : Line (Ext K)) :
    Ind.htInphase F (inUnit u a) = inUnit u (Ind.htInphase F a) := by
  unfold Ind.htInphase
  rw [htBase (v := u) hu F _ (fun s => htAt u _ _), periodN]

theorem htQuadrature (hu : 0 < u) (F : HtFns (Ext K)) (a : Line (Ext K)) :
    Ind.htQuadrature F (inUnit u a) = inUnit u (Ind.htQuadrature F a) := by
  unfold Ind.htQuadrature
  rw [htBase (v := u) hu F _ (fun s => htAt u _ _), periodN]

theorem htDc (F : HtFns (Ext K)) (s : Ind.HtSt (Ext K)) : Ind.htDc F (htSt u s) = Ind.htDc F s := rfl

theorem htPart (hu : 0 < u) (F : HtFns (Ext K)) (f : Ext K → Ext K) (price : List (Ext K)) (i dc : ℕ) :
    Ind.htPart F f (price.map (Ext.sc u)) i dc = Ext.sc u (Ind.htPart F f price i dc) := by
  unfold Ind.htPart
  have : ∀ (l : List ℕ) (z : Ext K), l.foldl (fun acc (dci : ℕ) => acc + f (lit dci * (lit 360 / F.rad2deg) / lit dc) *
        Ind.htAt (price.map (Ext.sc u)) ((i : Int) - dci)) (Ext.sc u z) =
      Ext.sc u (l.foldl (fun acc (dci : ℕ) => acc + f (lit dci * (lit 360 / F.rad2deg) / lit dc) *
        Ind.htAt price ((i : Int) - dci)) z) := by
    intro l
    induction l with
    | nil => intro z; rfl
    | cons x xs ih =>
      intro z
      simp only [List.foldl_cons]
      rw [htAt, Ext.sc_cmul hu, Ext.sc_add, ih]
  have h := this (List.range dc) (lit 0)
  rw [Ext.sc_zero] at h
  exact h

theorem htPhase (hu : 0 < u) (F : HtFns (Ext K)) (smooth re im prev : Ext K) :
    Ind.htPhase F smooth (Ext.sc u re) (Ext.sc u im) prev = Ind.htPhase F smooth re im prev := by
  have h0 := Ext.sc_zero (K := K) u
  have l1 : ∀ x : Ext K, lt (lit 0) (Ext.sc u x) = lt (lit 0) x := fun x => by
    have := Ext.sc_lt hu (lit 0) x; rw [h0] at this; exact this
  have l2 : ∀ x : Ext K, lt (Ext.sc u x) (lit 0) = lt x (lit 0) := fun x => by
    have := Ext.sc_lt hu x (lit 0); rw [h0] at this; exact this
  have l3 : ∀ (A B C : Ext K), (if lt (lit 0) (absv im) = true then A
      else if le (absv (Ext.sc u im)) (lit (1 / 100)) = true then B else C) =
      (if lt (lit 0) (absv im) = true then A else if le (absv im) (lit (1 / 100)) = true then B else C) := by
    intro A B C
    split
    · rfl
    · rename_i hn
      have : le (absv (Ext.sc u im)) (lit (1 / 100)) = le (absv im) (lit (1 / 100) : Ext K) := by
        cases im with
        | fin x =>
          have hx : x = 0 := by
            by_contra hx
            exact hn (by simp [hx])
          rw [hx]; simp
        | pinf => rfl
        | ninf => rfl
        | nan => rfl
      rw [this]
  have e : lt (lit 0) (absv (Ext.sc u im)) = lt (lit 0) (absv im) := by rw [Ext.sc_abs hu, l1]
  simp only [Ind.htPhase, e, divE hu, l1, l2, l3]

theorem htPhStep (hu : 0 < u) (F : HtFns (Ext K)) (price : List (Ext K)) (i : ℕ) (s : Ind.HtSt (Ext K) × Ext K) :
    Ind.htPhStep F (price.map (Ext.sc u)) i (htSt u s.1, s.2) =
      (htSt u (Ind.htPhStep F price i s).1, (Ind.htPhStep F price i s).2) := by
  simp only [Ind.htPhStep, htStep hu, htDc, htPart hu, htPhase hu]
  rfl

theorem htPh (hu : 0 < u) (F : HtFns (Ext K)) (g : Ext K → Ext K) (a : Line (Ext K)) :
    apply (fun price => Ind.htBuf 31 price.length (Ind.htPhStep F (Ind.htZero 31 price)) (fun s => g s.2) (Ind.HtSt.init, lit 0))
        PyFloat.nan (Ind.htSmooth (inUnit u a)) =
      apply (fun price => Ind.htBuf 31 price.length (Ind.htPhStep F (Ind.htZero 31 price)) (fun s => g s.2) (Ind.HtSt.init, lit 0))
        PyFloat.nan (Ind.htSmooth a) := by
  rw [htSmooth hu]
  conv_rhs => rw [← one (apply _ _ _)]
  refine applyU u 1 (fun xs => ?_) _
  rw [List.length_map, htZero]
  exact htBuf (fun s : Ind.HtSt (Ext K) × Ext K => (htSt u s.1, s.2)) (by simp only [htInit])
    (fun i s => htPhStep hu F _ i s) (fun s => (Ext.sc_one _).symm) 31 _

theorem htInts (hu : 0 < u) (F : HtFns (Ext K)) (price : List (Ext K)) : ∀ (k i : ℕ) (s : Ind.HtSt (Ext K)),
    Ind.htInts F (price.map (Ext.sc u)) k i (htSt u s) = Ind.htInts F price k i s := by
  intro k
  induction k with
  | zero => intro i s; rfl
  | succ k ih =>
    intro i s
    simp only [Ind.htInts, htStep hu, ih]
    rfl

theorem htCheck (hu : 0 < u) (F : HtFns (Ext K)) (a : Line (Ext K)) : Ind.htCheck F (inUnit u a) = Ind.htCheck F a := by
  unfold Ind.htCheck
  rw [htSmooth hu]
  simp only [inUnit, pyFrom_map, List.length_map, htZero]
  have := htInts hu F (Ind.htZero 31 (pyFrom (Ind.htSmooth a).series ((Ind.htSmooth a).minperiod - 1)))
    ((pyFrom (Ind.htSmooth a).series ((Ind.htSmooth a).minperiod - 1)).length - 31) 31 Ind.HtSt.init
  rw [htInit] at this
  exact this

theorem htDcphase (hu : 0 < u) (F : HtFns (Ext K)) (a : Line (Ext K)) : Ind.htDcphase F (inUnit u a) = Ind.htDcphase F a := by
  unfold Ind.htDcphase; exact congrArg _ (htPh hu F (fun x => x) a)
theorem htSine (hu : 0 < u) (F : HtFns (Ext K)) (a : Line (Ext K)) : Ind.htSine F (inUnit u a) = Ind.htSine F a := by
  unfold Ind.htSine; exact congrArg _ (htPh hu F (Ind.htSin F) a)
theorem htLeadsine (hu : 0 < u) (F : HtFns (Ext K)) (a : Line (Ext K)) : Ind.htLeadsine F (inUnit u a) = Ind.htLeadsine F a := by
  unfold Ind.htLeadsine; exact congrArg _ (htPh hu F (Ind.htLead F) a)

/-- the state of the trend line in another unit -/
def tlSt (u : K) (s : Ind.TlSt (Ext K)) : Ind.TlSt (Ext K) :=
  ⟨htSt u s.ht, Ext.sc u s.it1, Ext.sc u s.it2, Ext.sc u s.it3, Ext.sc u s.out⟩

theorem htIt0 (hu : 0 < u) (price : List (Ext K)) (i dc : ℕ) :
    Ind.htIt0 (price.map (Ext.sc u)) i dc = Ext.sc u (Ind.htIt0 price i dc) := by
  unfold Ind.htIt0
  simp only [pySlice_map, Ext.sc_sum hu, Ext.sc_divc hu]
  split <;> rfl

theorem tlNext (hu : 0 < u) (F : HtFns (Ext K)) (price0 : List (Ext K)) (i : ℕ) (t : Ind.HtSt (Ext K)) (s : Ind.TlSt (Ext K)) :
    Ind.tlNext F (price0.map (Ext.sc u)) i (htSt u t) (tlSt u s) = tlSt u (Ind.tlNext F price0 i t s) := by
  simp only [Ind.tlNext, tlSt, htDc, htIt0 hu, Ext.sc_cmul hu, Ext.sc_add, Ext.sc_divc hu]

theorem htTrendline (hu : 0 < u) (F : HtFns (Ext K)) (a : Line (Ext K)) :
    Ind.htTrendline F (inUnit u a) = inUnit u (Ind.htTrendline F a) := by
  unfold Ind.htTrendline
  rw [htSmooth hu, ← periodN]
  congr 1
  refine apply2U u u u (fun xs ys => ?_) _ _
  rw [List.length_map, htZero]
  exact htBuf (tlSt u) (by simp only [tlSt, Ind.TlSt.init, htInit, Ext.sc_zero])
    (fun i s => by
      show Ind.tlNext F _ i (Ind.htStep F _ i (htSt u s.ht)) (tlSt u s) = _
      rw [htStep hu, tlNext hu]) (fun s => rfl) 31 _

/-- the state of the trend mode in another unit -/
def tmSt (u : K) (s : Ind.TmSt (Ext K)) : Ind.TmSt (Ext K) := ⟨tlSt u s.tl, s.ph, s.sine, s.lead, s.days, s.trend⟩

theorem tmTrend (hu : 0 < u) (smooth ph ph1 sine lead sine1 lead1 price line : Ext K) (days : ℕ) :
    Ind.tmTrend smooth ph ph1 sine lead sine1 lead1 (Ext.sc u price) (Ext.sc u line) days =
      Ind.tmTrend smooth ph ph1 sine lead sine1 lead1 price line days := by
  simp only [Ind.tmTrend, truthy hu, divE hu]

theorem tmStep (hu : 0 < u) (F : HtFns (Ext K)) (price price0 : List (Ext K)) (i : ℕ) (s : Ind.TmSt (Ext K)) :
    Ind.tmStep F (price.map (Ext.sc u)) (price0.map (Ext.sc u)) i (tmSt u s) = tmSt u (Ind.tmStep F price price0 i s) := by
  have e : ∀ t : Ind.TlSt (Ext K), (tlSt u t).ht = htSt u t.ht := fun _ => rfl
  have e3 : ∀ t : Ind.TlSt (Ext K), (tlSt u t).out = Ext.sc u t.out := fun _ => rfl
  have e4 : ∀ t : Ind.HtSt (Ext K), (htSt u t).smooth = t.smooth := fun _ => rfl
  simp only [Ind.tmStep, tmSt, e, htStep hu, htDc, e4, htPart hu, htPhase hu, tlNext hu, e3, htAt, tmTrend hu]

theorem htTrendmode (hu : 0 < u) (F : HtFns (Ext K)) (a : Line (Ext K)) : Ind.htTrendmode F (inUnit u a) = Ind.htTrendmode F a := by
  unfold Ind.htTrendmode
  rw [htSmooth hu]
  congr 1
  conv_rhs => rw [← one (apply2 _ _ _ _)]
  refine apply2U u u 1 (fun xs ys => ?_) _ _
  rw [List.length_map, htZero]
  exact htBuf (tmSt u) (by simp only [tmSt, tlSt, Ind.TmSt.init, Ind.TlSt.init, htInit, Ext.sc_zero])
    (fun i s => tmStep hu F _ _ i s) (fun s => (Ext.sc_one _).symm) 31 _

theorem maskL (u : K) (a : Line (Ext K)) (c : Line Bool) : Ind.maskL (inUnit u a) c = inUnit u (Ind.maskL a c) := by
  have := lmap_stdop2 (σ := Ext.sc u) (τ := fun x : Bool => x) (ρ := Ext.sc u)
    (g := List.zipWith fun x b => if b then lit 0 else x) (g' := List.zipWith fun x b => if b then lit 0 else x)
    (fill := (PyFloat.nan : Ext K)) (fill' := PyFloat.nan) rfl
    (fun xs ys => zipWith_map2 (fun x b => by cases b <;> simp) xs ys) a c
  rw [lmap_id] at this; exact this

theorem mama (hu : 0 < u) (F : HtFns (Ext K)) (at' : Ext K → Ext K) (f s : Ext K) (a : Line (Ext K)) :
    Ind.mama F at' f s (inUnit u a) = (Ind.mama F at' f s a).map (fun r => (inUnit u r.1, inUnit u r.2)) := by
  unfold Ind.mama
  simp only [htBase (v := u) hu F (fun s => Ind.htAt s.i1 6) (fun s => htAt u _ _),
    htBase (v := u) hu F (fun s => Ind.htAt s.q1 6) (fun s => htAt u _ _), period, maskL, eqS0 hu, div' hu, ewmDyn hu, bind_map, map_bind, map_pure,
    periodN]

/-! ## all calls -/

theorem crossDiff (hu : 0 < u) (s : Bool) (a b : Line (Ext K)) :
    Ind.crossDiff s (inUnit u a) (inUnit u b) = inUnit u (Ind.crossDiff s a b) := by
  simp only [Ind.crossDiff, sub, shift]
  split
  · rfl
  · exact lmap_stdop (σ := Ext.sc u) (ρ := Ext.sc u) (fill := PyFloat.nan) (fill' := PyFloat.nan) rfl (Ext.sc_replaceZero hu) _

theorem keepsS {m : Avg (Ext K)} (h : Spec.keepsUnit m) (p : ℕ) : KeepsS (m.run p) := fun u a hu => keeps m h u p a hu

theorem adxr {s : Line (Ext K) → Except Err (Line (Ext K))} (hs : KeepsS s) (hu : 0 < u) (m : MA (Ext K)) (q : ℕ) (t : Bool) (p : ℕ)
    (pr : Option ℕ) (h l c : Line (Ext K)) :
    Ind.adxr s m q t p pr (inUnit u h) (inUnit u l) (inUnit u c) = Ind.adxr s m q t p pr h l c := by
  unfold Ind.adxr Ind.adx; rw [dx hs hu]

theorem list1 (u : K) (l : Line (Ext K)) : List.zipWith inUnit [u] [l] = [inUnit u l] := rfl
theorem list2 (u v : K) (l m : Line (Ext K)) : List.zipWith inUnit [u, v] [l, m] = [inUnit u l, inUnit v m] := rfl
theorem list3 (u v w : K) (l m n : Line (Ext K)) :
    List.zipWith inUnit [u, v, w] [l, m, n] = [inUnit u l, inUnit v m, inUnit w n] := rfl

set_option maxHeartbeats 2000000 in
theorem call (hu : 0 < u) (hv : 0 < v) (x : ℕ → Line (Ext K)) (c : Call (Ext K)) (us : List K) (hc : unitsOut u v c = some us)
    (hp : unitParams c) :
    c.run (fun k => inUnit (unitIn u v c k) (x k)) = (c.run x).map (List.zipWith inUnit us) := by
  have o : ∀ {l m : List K}, some l = some m → l = m := fun h => Option.some.inj h
  have i0 : ∀ (y z : K), (if (0 : ℕ) = 0 then y else z) = y := fun _ _ => rfl
  have i1 : ∀ (y z : K), (if (1 : ℕ) = 0 then y else z) = z := fun _ _ => rfl
  have j0 : ∀ (y z : K), (if (0 : ℕ) ≤ 2 then y else z) = y := fun _ _ => rfl
  have j1 : ∀ (y z : K), (if (1 : ℕ) ≤ 2 then y else z) = y := fun _ _ => rfl
  have j2 : ∀ (y z : K), (if (2 : ℕ) ≤ 2 then y else z) = y := fun _ _ => rfl
  have j3 : ∀ (y z : K), (if (3 : ℕ) ≤ 2 then y else z) = z := fun _ _ => rfl
  have huv := mul_pos hu hv
  have huu := mul_pos hu hu
  cases c with
  | avg m p =>
    cases m with
    | trix m =>
      obtain rfl := o hc
      have h := keeps m hp
      simp only [Call.run, Avg.run, unitIn, oneE, Ind.trix, h u _ _ hu, bind_map, map_bind, map_pure, ago, div' hu, list1, one]
    | _ =>
      obtain rfl := o hc
      have h := keeps _ hp
      simp only [Call.run, unitIn, oneE, h u _ _ hu, bind_map, map_bind, map_pure, list1]
  | add =>
    obtain rfl := o hc
    simp only [Call.run, unitIn, Bta.one, oneE, twoE, threeE, bind_map, map_bind, map_pure, map_ok,
      bind_assoc, pure_bind, list1, list2, list3, one, if_true, Ind.add, add]
  | sub =>
    obtain rfl := o hc
    simp only [Call.run, unitIn, Bta.one, oneE, twoE, threeE, bind_map, map_bind, map_pure, map_ok,
      bind_assoc, pure_bind, list1, list2, list3, one, if_true, Ind.sub, sub]
  | mult =>
    obtain rfl := o hc
    simp only [Call.run, unitIn, Bta.one, oneE, twoE, threeE, bind_map, map_bind, map_pure, map_ok,
      bind_assoc, pure_bind, list1, list2, list3, one, if_true, Ind.mult, i0, i1, mul hu hv]
  | div =>
    obtain rfl := o hc
    simp only [Call.run, unitIn, Bta.one, oneE, twoE, threeE, bind_map, map_bind, map_pure, map_ok,
      bind_assoc, pure_bind, list1, list2, list3, one, if_true, Ind.div, i0, i1, div hu hv]
  | max p =>
    obtain rfl := o hc
    simp only [Call.run, unitIn, Bta.one, oneE, twoE, threeE, bind_map, map_bind, map_pure, map_ok,
      bind_assoc, pure_bind, list1, list2, list3, one, if_true, highest hu]
  | min p =>
    obtain rfl := o hc
    simp only [Call.run, unitIn, Bta.one, oneE, twoE, threeE, bind_map, map_bind, map_pure, map_ok,
      bind_assoc, pure_bind, list1, list2, list3, one, if_true, lowest hu]
  | minmax p =>
    obtain rfl := o hc
    simp only [Call.run, unitIn, Bta.one, oneE, twoE, threeE, bind_map, map_bind, map_pure, map_ok,
      bind_assoc, pure_bind, list1, list2, list3, one, if_true, Ind.minmax, lowest hu, highest hu]
  | maxindex p =>
    obtain rfl := o hc
    simp only [Call.run, unitIn, Bta.one, oneE, twoE, threeE, bind_map, map_bind, map_pure, map_ok,
      bind_assoc, pure_bind, list1, list2, list3, one, if_true, Ind.maxindex, arg (Ext.sc_argmax hu)]
  | minindex p =>
    obtain rfl := o hc
    simp only [Call.run, unitIn, Bta.one, oneE, twoE, threeE, bind_map, map_bind, map_pure, map_ok,
      bind_assoc, pure_bind, list1, list2, list3, one, if_true, Ind.minindex, arg (Ext.sc_argmin hu)]
  | maxindexAbs p =>
    obtain rfl := o hc
    simp only [Call.run, unitIn, Bta.one, oneE, twoE, threeE, bind_map, map_bind, map_pure, map_ok,
      bind_assoc, pure_bind, list1, list2, list3, one, if_true, Ind.maxindexAbs, absIndex (Ext.sc_argmax hu)]
  | minindexAbs p =>
    obtain rfl := o hc
    simp only [Call.run, unitIn, Bta.one, oneE, twoE, threeE, bind_map, map_bind, map_pure, map_ok,
      bind_assoc, pure_bind, list1, list2, list3, one, if_true, Ind.minindexAbs, absIndex (Ext.sc_argmin hu)]
  | minmaxindex b p =>
    obtain rfl := o hc
    simp only [Call.run, unitIn, Bta.one, oneE, twoE, threeE, bind_map, map_bind, map_pure, map_ok,
      bind_assoc, pure_bind, list1, list2, list3, one, if_true, Ind.minmaxindex, Ind.maxindexAbs, Ind.minindexAbs, Ind.maxindex, Ind.minindex, absIndex (Ext.sc_argmax hu), absIndex (Ext.sc_argmin hu), arg (Ext.sc_argmax hu), arg (Ext.sc_argmin hu)]
  | avgprice d =>
    obtain rfl := o hc
    simp only [Call.run, unitIn, Bta.one, oneE, twoE, threeE, bind_map, map_bind, map_pure, map_ok,
      bind_assoc, pure_bind, list1, list2, list3, one, if_true, Ind.avgprice, add, divS hu]
  | typprice d =>
    obtain rfl := o hc
    simp only [Call.run, unitIn, Bta.one, oneE, twoE, threeE, bind_map, map_bind, map_pure, map_ok,
      bind_assoc, pure_bind, list1, list2, list3, one, if_true, Ind.typprice, add, divS hu]
  | wclprice w d =>
    obtain rfl := o hc
    simp only [Call.run, unitIn, Bta.one, oneE, twoE, threeE, bind_map, map_bind, map_pure, map_ok,
      bind_assoc, pure_bind, list1, list2, list3, one, if_true, Ind.wclprice, add, divS hu, mulS hu]
  | medprice d =>
    obtain rfl := o hc
    simp only [Call.run, unitIn, Bta.one, oneE, twoE, threeE, bind_map, map_bind, map_pure, map_ok,
      bind_assoc, pure_bind, list1, list2, list3, one, if_true, Ind.medprice, add, divS hu]
  | macd mf ma ms pf ps pg =>
    obtain rfl := o hc
    have h1 := keeps _ hp.1
    have h2 := keeps _ hp.2.1
    have h3 := keeps _ hp.2.2
    simp only [Call.run, unitIn, Bta.one, oneE, twoE, threeE, bind_map, map_bind, map_pure, map_ok,
      bind_assoc, pure_bind, list1, list2, list3, one, if_true, Ind.macd, h1 u _ _ hu, h2 u _ _ hu, h3 u _ _ hu, sub]
  | apo ma pf ps =>
    obtain rfl := o hc
    have h := keeps _ hp
    simp only [Call.run, unitIn, Bta.one, oneE, twoE, threeE, bind_map, map_bind, map_pure, map_ok,
      bind_assoc, pure_bind, list1, list2, list3, one, if_true, Ind.apo, Ind.posc, h u _ _ hu, sub, Bool.false_eq_true, if_false]
  | ppo f ma ms pf ps pg =>
    obtain rfl := o hc
    have h1 := keeps _ hp.1
    have h2 := keeps _ hp.2
    cases f <;>
      simp only [Call.run, unitIn, threeE, bind_map, map_bind, map_pure, list3, one, Ind.ppo, Ind.posc, h1 u _ _ hu, div' hu,
        Bool.false_eq_true, if_false, if_true, pure_bind, bind_assoc]
  | mom p =>
    obtain rfl := o hc
    simp only [Call.run, unitIn, Bta.one, oneE, twoE, threeE, bind_map, map_bind, map_pure, map_ok,
      bind_assoc, pure_bind, list1, list2, list3, one, if_true, Ind.mom, diff]
  | roc p =>
    obtain rfl := o hc
    simp only [Call.run, unitIn, Bta.one, oneE, twoE, threeE, bind_map, map_bind, map_pure, map_ok,
      bind_assoc, pure_bind, list1, list2, list3, one, if_true, Ind.roc, Ind.rocr, ago, div' hu]
  | rocp p =>
    obtain rfl := o hc
    simp only [Call.run, unitIn, Bta.one, oneE, twoE, threeE, bind_map, map_bind, map_pure, map_ok,
      bind_assoc, pure_bind, list1, list2, list3, one, if_true, Ind.rocp, Ind.rocr, ago, div' hu]
  | rocr p =>
    obtain rfl := o hc
    simp only [Call.run, unitIn, Bta.one, oneE, twoE, threeE, bind_map, map_bind, map_pure, map_ok,
      bind_assoc, pure_bind, list1, list2, list3, one, if_true, Ind.rocr, Ind.rocr, ago, div' hu]
  | rocr100 p =>
    obtain rfl := o hc
    simp only [Call.run, unitIn, Bta.one, oneE, twoE, threeE, bind_map, map_bind, map_pure, map_ok,
      bind_assoc, pure_bind, list1, list2, list3, one, if_true, Ind.rocr100, Ind.rocr, ago, div' hu]
  | rsi ma lb p =>
    obtain rfl := o hc
    simp only [Call.run, unitIn, Bta.one, oneE, twoE, threeE, bind_map, map_bind, map_pure, map_ok,
      bind_assoc, pure_bind, list1, list2, list3, one, if_true, rsi (keeps _ hp) hu]
  | cmo s p =>
    obtain rfl := o hc
    have h := keeps _ hp
    simp only [Call.run, unitIn, Bta.one, oneE, twoE, threeE, bind_map, map_bind, map_pure, map_ok,
      bind_assoc, pure_bind, list1, list2, list3, one, if_true, Ind.cmo, diff, clipLoS0 hu, clipHiS0 hu, abs hu, h u _ _ hu, sub, add, rmulS hu, div' hu]
  | mad p =>
    obtain rfl := o hc
    simp only [Call.run, unitIn, Bta.one, oneE, twoE, threeE, bind_map, map_bind, map_pure, map_ok,
      bind_assoc, pure_bind, list1, list2, list3, one, if_true, mad hu]
  | cci ma f p =>
    obtain rfl := o hc
    have h := keeps _ hp
    simp only [Call.run, unitIn, Bta.one, oneE, twoE, threeE, bind_map, map_bind, map_pure, map_ok,
      bind_assoc, pure_bind, list1, list2, list3, one, if_true, Ind.cci, add, divS hu, h u _ _ hu, mad hu, sub, mulS hu, div' hu]
  | var d p =>
    obtain rfl := o hc
    simp only [Call.run, unitIn, Bta.one, oneE, twoE, threeE, bind_map, map_bind, map_pure, map_ok,
      bind_assoc, pure_bind, list1, list2, list3, one, if_true, var hu]
  | stddev sq d p =>
    obtain rfl := o hc
    simp only [Call.run, unitIn, Bta.one, oneE, twoE, threeE, bind_map, map_bind, map_pure, map_ok,
      bind_assoc, pure_bind, list1, list2, list3, one, if_true, stddev hp hu]
  | bbands sq ma d p =>
    obtain rfl := o hc
    have h := keeps _ hp.2
    simp only [Call.run, unitIn, Bta.one, oneE, twoE, threeE, bind_map, map_bind, map_pure, map_ok,
      bind_assoc, pure_bind, list1, list2, list3, one, if_true, Ind.bbands, h u _ _ hu, stddev hp.1 hu, rmulS hu, add, sub]
  | stochf ma p pf =>
    obtain rfl := o hc
    simp only [Call.run, unitIn, Bta.one, oneE, twoE, threeE, bind_map, map_bind, map_pure, map_ok,
      bind_assoc, pure_bind, list1, list2, list3, one, if_true, Ind.stochf, highest hu, lowest hu, sub, rmulS hu, div' hu]
  | stochastic ma ms p pf ps =>
    obtain rfl := o hc
    simp only [Call.run, unitIn, Bta.one, oneE, twoE, threeE, bind_map, map_bind, map_pure, map_ok,
      bind_assoc, pure_bind, list1, list2, list3, one, if_true, Ind.stochastic, Ind.stochf, highest hu, lowest hu, sub, rmulS hu, div' hu, bind_assoc, pure_bind]
  | williamsr p =>
    obtain rfl := o hc
    simp only [Call.run, unitIn, Bta.one, oneE, twoE, threeE, bind_map, map_bind, map_pure, map_ok,
      bind_assoc, pure_bind, list1, list2, list3, one, if_true, Ind.williamsr, highest hu, lowest hu, sub, rmulS hu, div' hu]
  | stochrsi p ph s =>
    obtain rfl := o hc
    have h : Keeps (Ind.smma : MA (Ext K)) := keeps (.smma .avg) trivial
    simp only [Call.run, unitIn, Bta.one, oneE, twoE, threeE, bind_map, map_bind, map_pure, map_ok,
      bind_assoc, pure_bind, list1, list2, list3, one, if_true, Ind.stochrsi, rsi (m := Ind.smma) h hu]
  | stochrsiD ma p ph pf s =>
    obtain rfl := o hc
    have h : Keeps (Ind.smma : MA (Ext K)) := keeps (.smma .avg) trivial
    simp only [Call.run, unitIn, Bta.one, oneE, twoE, threeE, bind_map, map_bind, map_pure, map_ok,
      bind_assoc, pure_bind, list1, list2, list3, one, if_true, Ind.stochrsiD, Ind.stochrsi, rsi (m := Ind.smma) h hu, bind_assoc]
  | midprice p =>
    obtain rfl := o hc
    simp only [Call.run, unitIn, Bta.one, oneE, twoE, threeE, bind_map, map_bind, map_pure, map_ok,
      bind_assoc, pure_bind, list1, list2, list3, one, if_true, Ind.midprice, highest hu, lowest hu, add, divS hu]
  | midpoint p =>
    obtain rfl := o hc
    simp only [Call.run, unitIn, Bta.one, oneE, twoE, threeE, bind_map, map_bind, map_pure, map_ok,
      bind_assoc, pure_bind, list1, list2, list3, one, if_true, Ind.midpoint, Ind.midprice, highest hu, lowest hu, add, divS hu]
  | bop =>
    obtain rfl := o hc
    simp only [Call.run, unitIn, Bta.one, oneE, twoE, threeE, bind_map, map_bind, map_pure, map_ok,
      bind_assoc, pure_bind, list1, list2, list3, one, if_true, Ind.bop, sub, div' hu]
  | truelow q =>
    obtain rfl := o hc
    simp only [Call.run, unitIn, Bta.one, oneE, twoE, threeE, bind_map, map_bind, map_pure, map_ok,
      bind_assoc, pure_bind, list1, list2, list3, one, if_true, Ind.truelow, ago, clipHiL hu]
  | truerange q =>
    obtain rfl := o hc
    simp only [Call.run, unitIn, Bta.one, oneE, twoE, threeE, bind_map, map_bind, map_pure, map_ok,
      bind_assoc, pure_bind, list1, list2, list3, one, if_true, truerange hu]
  | atr ma q p =>
    obtain rfl := o hc
    have h := keeps _ hp
    simp only [Call.run, unitIn, Bta.one, oneE, twoE, threeE, bind_map, map_bind, map_pure, map_ok,
      bind_assoc, pure_bind, list1, list2, list3, one, if_true, Ind.atr, truerange hu, h u _ _ hu]
  | natr ma q p =>
    obtain rfl := o hc
    have h := keeps _ hp
    simp only [Call.run, unitIn, Bta.one, oneE, twoE, threeE, bind_map, map_bind, map_pure, map_ok,
      bind_assoc, pure_bind, list1, list2, list3, one, if_true, Ind.natr, Ind.atr, truerange hu, h u _ _ hu, rmulS hu, div' hu]
  | ultosc p1 p2 p3 f1 f2 f3 =>
    obtain rfl := o hc
    simp only [Call.run, unitIn, Bta.one, oneE, twoE, threeE, bind_map, map_bind, map_pure, map_ok,
      bind_assoc, pure_bind, list1, list2, list3, one, if_true, Ind.ultosc, Ind.truelow, truerange hu, ago, clipHiL hu, sub, sumN hu, div' hu]
  | mfi p =>
    obtain rfl := o hc
    simp only [Call.run, unitIn, Bta.one, oneE, twoE, threeE, bind_map, map_bind, map_pure, map_ok,
      bind_assoc, pure_bind, list1, list2, list3, one, if_true, Ind.mfi, j0, j1, j2, j3, add, divS hu, mul hu hv, ago, gtL hu, ltL hu, mulB huv, sumN huv, div' huv]
  | obv t q =>
    obtain rfl := o hc
    simp only [Call.run, unitIn, Bta.one, map_ok, list1, Ind.obv, i0, i1, diff, if_true]
    cases t <;> simp only [Bool.false_eq_true, if_false, if_true, signOp hu, signFill hu, mulL hv, cumsum hv]
  | ad =>
    obtain rfl := o hc
    simp only [Call.run, unitIn, Bta.one, oneE, twoE, threeE, bind_map, map_bind, map_pure, map_ok,
      bind_assoc, pure_bind, list1, list2, list3, one, if_true, Ind.ad, j0, j1, j2, j3, sub, rmulS hu, div' hu, mulR hv, cumsum hv]
  | adosc ma pf ps =>
    obtain rfl := o hc
    have h := keeps _ hp
    simp only [Call.run, unitIn, Bta.one, oneE, twoE, threeE, bind_map, map_bind, map_pure, map_ok,
      bind_assoc, pure_bind, list1, list2, list3, one, if_true, Ind.adosc, Ind.ad, j0, j1, j2, j3, sub, rmulS hu, div' hu, mulR hv, cumsum hv, h v _ _ hv]
  | aroon p =>
    obtain rfl := o hc
    simp only [Call.run, unitIn, Bta.one, oneE, twoE, threeE, bind_map, map_bind, map_pure, map_ok,
      bind_assoc, pure_bind, list1, list2, list3, one, if_true, Ind.aroon, Ind.aroonUp, Ind.aroonDn, aroonComp (Ext.sc_argmax hu), aroonComp (Ext.sc_argmin hu)]
  | aroonosc p =>
    obtain rfl := o hc
    simp only [Call.run, unitIn, Bta.one, oneE, twoE, threeE, bind_map, map_bind, map_pure, map_ok,
      bind_assoc, pure_bind, list1, list2, list3, one, if_true, Ind.aroonosc, Ind.aroonUp, Ind.aroonDn, aroonComp (Ext.sc_argmax hu), aroonComp (Ext.sc_argmin hu)]
  | linregSlope p =>
    obtain rfl := o hc
    simp only [Call.run, unitIn, Bta.one, oneE, twoE, threeE, bind_map, map_bind, map_pure, map_ok,
      bind_assoc, pure_bind, list1, list2, list3, one, if_true, Ind.linregSlope, linregBase hu]
  | linregAngle at' d p => exact absurd hc (by simp [unitsOut])
  | linregIntercept t p =>
    obtain rfl := o hc
    simp only [Call.run, unitIn, Bta.one, oneE, twoE, threeE, bind_map, map_bind, map_pure, map_ok,
      bind_assoc, pure_bind, list1, list2, list3, one, if_true, Ind.linregIntercept, linregBase hu]
  | linreg p =>
    obtain rfl := o hc
    simp only [Call.run, unitIn, Bta.one, oneE, twoE, threeE, bind_map, map_bind, map_pure, map_ok,
      bind_assoc, pure_bind, list1, list2, list3, one, if_true, Ind.linreg, linregBase hu, mulS hu, add]
  | tsf p =>
    obtain rfl := o hc
    simp only [Call.run, unitIn, Bta.one, oneE, twoE, threeE, bind_map, map_bind, map_pure, map_ok,
      bind_assoc, pure_bind, list1, list2, list3, one, if_true, Ind.tsf, linregBase hu, mulS hu, add]
  | beta r pr p =>
    cases r
    · obtain rfl := o hc
      have e : u * v / (u * u) = v / u := by field_simp
      simp only [Call.run, unitIn, Bta.one, map_ok, list1, Ind.beta, i0, i1, if_true, Bool.false_eq_true, if_false, sumN hu, sumN hv,
        mul hu hv, square hu, sumN huu, sumN huv, rmulS huv, rmulS huu, sub, div huv huu, e]
    · obtain rfl := o hc
      simp only [Call.run, unitIn, Bta.one, map_ok, list1, one, Ind.beta, i0, i1, if_true, pct hu, pct hv]
  | correl sq p =>
    obtain rfl := o hc
    simp only [Call.run, unitIn, Bta.one, oneE, twoE, threeE, bind_map, map_bind, map_pure, map_ok,
      bind_assoc, pure_bind, list1, list2, list3, one, if_true, i0, i1, corr hp hu hv]
  | crossup s =>
    obtain rfl := o hc
    simp only [Call.run, unitIn, Bta.one, oneE, twoE, threeE, bind_map, map_bind, map_pure, map_ok,
      bind_assoc, pure_bind, list1, list2, list3, one, if_true, Ind.crossup, Ind.cup, Ind.cdown, crossDiff hu, ltS0 hu, gtS0 hu, ltL hu, gtL hu]
  | crossdown s =>
    obtain rfl := o hc
    simp only [Call.run, unitIn, Bta.one, oneE, twoE, threeE, bind_map, map_bind, map_pure, map_ok,
      bind_assoc, pure_bind, list1, list2, list3, one, if_true, Ind.crossdown, Ind.cup, Ind.cdown, crossDiff hu, ltS0 hu, gtS0 hu, ltL hu, gtL hu]
  | crossover s =>
    obtain rfl := o hc
    rfl
  | plusDm s ps q =>
    obtain rfl := o hc
    have h := keepsS hp ps
    simp only [Call.run, unitIn, Bta.one, oneE, twoE, threeE, bind_map, map_bind, map_pure, map_ok,
      bind_assoc, pure_bind, list1, list2, list3, one, if_true, plusDm h hu]
  | minusDm s ps q =>
    obtain rfl := o hc
    have h := keepsS hp ps
    simp only [Call.run, unitIn, Bta.one, oneE, twoE, threeE, bind_map, map_bind, map_pure, map_ok,
      bind_assoc, pure_bind, list1, list2, list3, one, if_true, minusDm h hu]
  | dm s ps q =>
    obtain rfl := o hc
    have h := keepsS hp ps
    simp only [Call.run, unitIn, Bta.one, oneE, twoE, threeE, bind_map, map_bind, map_pure, map_ok,
      bind_assoc, pure_bind, list1, list2, list3, one, if_true, Ind.dm, plusDm h hu, minusDm h hu]
  | plusDi s ps q t =>
    obtain rfl := o hc
    have h := keepsS hp ps
    simp only [Call.run, unitIn, Bta.one, oneE, twoE, threeE, bind_map, map_bind, map_pure, map_ok,
      bind_assoc, pure_bind, list1, list2, list3, one, if_true, plusDi h hu]
  | minusDi s ps q t =>
    obtain rfl := o hc
    have h := keepsS hp ps
    simp only [Call.run, unitIn, Bta.one, oneE, twoE, threeE, bind_map, map_bind, map_pure, map_ok,
      bind_assoc, pure_bind, list1, list2, list3, one, if_true, minusDi h hu]
  | dx s ps q t =>
    obtain rfl := o hc
    have h := keepsS hp ps
    simp only [Call.run, unitIn, Bta.one, oneE, twoE, threeE, bind_map, map_bind, map_pure, map_ok,
      bind_assoc, pure_bind, list1, list2, list3, one, if_true, dx h hu]
  | di s ps q t =>
    obtain rfl := o hc
    have h := keepsS hp ps
    simp only [Call.run, unitIn, Bta.one, oneE, twoE, threeE, bind_map, map_bind, map_pure, map_ok,
      bind_assoc, pure_bind, list1, list2, list3, one, if_true, Ind.di, plusDi h hu, minusDi h hu]
  | adx s m ps q t p =>
    obtain rfl := o hc
    have h := keepsS hp.1 ps
    simp only [Call.run, unitIn, Bta.one, oneE, twoE, threeE, bind_map, map_bind, map_pure, map_ok,
      bind_assoc, pure_bind, list1, list2, list3, one, if_true, Ind.adx, dx h hu]
  | adxr s m ps q t p pr =>
    obtain rfl := o hc
    have h := keepsS hp.1 ps
    simp only [Call.run, unitIn, oneE, map_bind, map_pure, list1, one, adxr h hu]
  | sar af am =>
    obtain rfl := o hc
    simp only [Call.run, unitIn, Bta.one, oneE, twoE, threeE, bind_map, map_bind, map_pure, map_ok,
      bind_assoc, pure_bind, list1, list2, list3, one, if_true, Ind.sar, applySar (sarize hu af am)]
  | sarext P =>
    by_cases hP : P.startval = .fin 0
    · obtain rfl := o ((if_pos hP).symm.trans hc)
      simp only [Call.run, unitIn, oneE, bind_map, map_bind, map_pure, list1, Ind.sarext, applySar (sarExtize hu hP)]
    · exact absurd ((if_neg hP).symm.trans hc) (by simp)
  | htDcperiod F =>
    obtain rfl := o hc
    simp only [Call.run, unitIn, Bta.one, oneE, twoE, threeE, bind_map, map_bind, map_pure, map_ok,
      bind_assoc, pure_bind, list1, list2, list3, one, if_true, htDcperiod hu]
  | htDcphase F =>
    obtain rfl := o hc
    simp only [Call.run, unitIn, Bta.one, oneE, twoE, threeE, bind_map, map_bind, map_pure, map_ok,
      bind_assoc, pure_bind, list1, list2, list3, one, if_true, htCheck hu, htDcphase hu]
  | htTrendline F =>
    obtain rfl := o hc
    simp only [Call.run, unitIn, Bta.one, oneE, twoE, threeE, bind_map, map_bind, map_pure, map_ok,
      bind_assoc, pure_bind, list1, list2, list3, one, if_true, htCheck hu, htTrendline hu]
  | htTrendmode F =>
    obtain rfl := o hc
    simp only [Call.run, unitIn, Bta.one, oneE, twoE, threeE, bind_map, map_bind, map_pure, map_ok,
      bind_assoc, pure_bind, list1, list2, list3, one, if_true, htCheck hu, htTrendmode hu]
  | htPhasor F =>
    obtain rfl := o hc
    simp only [Call.run, unitIn, Bta.one, oneE, twoE, threeE, bind_map, map_bind, map_pure, map_ok,
      bind_assoc, pure_bind, list1, list2, list3, one, if_true, htInphase hu, htQuadrature hu]
  | htSine F =>
    obtain rfl := o hc
    simp only [Call.run, unitIn, Bta.one, oneE, twoE, threeE, bind_map, map_bind, map_pure, map_ok,
      bind_assoc, pure_bind, list1, list2, list3, one, if_true, htCheck hu, htSine hu, htLeadsine hu]
  | mama F at' f s =>
    obtain rfl := o hc
    simp only [Call.run, unitIn, Bta.one, oneE, twoE, threeE, bind_map, map_bind, map_pure, map_ok,
      bind_assoc, pure_bind, list1, list2, list3, one, if_true, mama hu]
  | mathFn f => exact absurd hc (by simp [unitsOut])

end Un
end Bta
