import Verif.Lemmas.Mirror2

/-!
# Indicators of lines with the sign changed: operands exchanged

`a - b` and `b - a` differ in more than the sign if the lines differ in length, hence the assumption on bars.
-/

set_option linter.unusedSectionVars false
set_option linter.unusedVariables false
set_option linter.unusedSimpArgs false

namespace Bta
open Line
open Spec (neg)

variable {V : Type} [PyFloat V] [SignSym V]

namespace Mi

/-- a line of `n` bars -/
def B (n : ℕ) (a : Line V) : Prop := (barsRel V n).rv a a

theorem B.rep {n : ℕ} {a : Line V} (h : B n a) : ∃ m g, RepW a n m g := by
  obtain ⟨_, ⟨hp, _, _⟩, hl, _⟩ := h
  refine ⟨a.minperiod.toNat, fun i => a.series.getD i nan, ⟨hl, by omega, by omega, ?_⟩⟩
  intro i _ hi
  rw [List.getD_eq_getElem?_getD, List.getElem?_eq_getElem (by omega)]; rfl

theorem B.of {n : ℕ} {a : Line V} (hl : a.series.length = n) (hp : 1 ≤ a.minperiod) : B n a :=
  ⟨rfl, ⟨hp, rfl, List.prefix_rfl⟩, hl, hl⟩

theorem B.neg {n : ℕ} {a : Line V} (h : B n a) : B n (neg a) := by
  obtain ⟨_, ⟨hp, _, _⟩, hl, _⟩ := h
  exact B.of (by simp [Spec.neg, hl]) hp

section swap
variable {n : ℕ} {a b c : Line V}

theorem rneg {m : ℕ} {g : ℕ → V} (h : Rep nan a n m g) : Rep nan (neg a) n m (fun i => -g i) where
  len := by simp [Spec.neg, h.len]
  mp := h.mp
  pos := h.pos
  val i h1 h2 := by simp [Spec.neg, h.val i h1 h2]
  pre i h1 h2 := by simp [Spec.neg, h.pre i h1 h2, Sg.neg_nan]

theorem subSwap (ha : B n a) (hb : B n b) : neg (a - b) = b - a := by
  obtain ⟨m, g, ra⟩ := ha.rep
  obtain ⟨m', g', rb⟩ := hb.rep
  exact (rneg (rep_sub ra rb)).ext ((rep_sub rb ra).congr (max_comm _ _) fun i _ _ => rfl) fun i _ _ => Sg.sub_swap _ _

theorem addComm (ha : B n a) (hb : B n b) : a + b = b + a := by
  obtain ⟨m, g, ra⟩ := ha.rep
  obtain ⟨m', g', rb⟩ := hb.rep
  exact (rep_add ra rb).ext ((rep_add rb ra).congr (max_comm _ _) fun i _ _ => rfl) fun i _ _ => Sg.add_comm' _ _

theorem addRight (ho : SumOrder V) (ha : B n a) (hb : B n b) (hc : B n c) : a + b + c = a + c + b := by
  obtain ⟨m, g, ra⟩ := ha.rep
  obtain ⟨m', g', rb⟩ := hb.rep
  obtain ⟨m'', g'', rc⟩ := hc.rep
  exact (rep_add (rep_add ra rb).toRepW rc).ext ((rep_add (rep_add ra rc).toRepW rb).congr (max_right_comm _ _ _) fun i _ _ => rfl)
    fun i _ _ => ho.add_right_comm _ _ _

theorem subRight (ho : SumOrder V) (ha : B n a) (hb : B n b) (hc : B n c) : a - b - c = a - c - b := by
  obtain ⟨m, g, ra⟩ := ha.rep
  obtain ⟨m', g', rb⟩ := hb.rep
  obtain ⟨m'', g'', rc⟩ := hc.rep
  exact (rep_sub (rep_sub ra rb).toRepW rc).ext ((rep_sub (rep_sub ra rc).toRepW rb).congr (max_right_comm _ _ _) fun i _ _ => rfl)
    fun i _ _ => ho.sub_right_comm _ _ _

theorem absClip (ha : B n a) : (a.clipHiS (lit 0)).abs = neg (a.clipHiS (lit 0)) := by
  obtain ⟨m, g, ra⟩ := ha.rep
  exact (rep_abs (rep_clipHiS ra (lit 0)).toRepW).ext (rneg (rep_clipHiS ra (lit 0))) fun i _ _ => Sg.absClip _

/-- what fell upside down is what rose -/
theorem absClip' (ha : B n a) : ((neg a).clipHiS (lit 0)).abs = a.clipLoS (lit 0) := by
  rw [absClip ha.neg, clipHiS0, neg_neg]

theorem clipLo' (ha : B n a) : (neg a).clipLoS (lit 0) = (a.clipHiS (lit 0)).abs := by
  rw [clipLoS0, absClip ha]

/-- the change, and its opposite as the directional movement calculates it -/
theorem diffAgo (ha : B n a) {q : ℕ} (hq : 1 ≤ q) : neg (Line.diff q a) = Line.ago (-(q : Int)) a - a := by
  obtain ⟨m, g, ra⟩ := ha.rep
  exact (rneg (rep_diff ra)).ext ((rep_sub (rep_ago hq ra).toRepW ra).congr (by omega) fun i _ _ => rfl)
    fun i _ _ => Sg.sub_swap _ _

end swap

/-! ## single indicators -/

theorem mad (p : ℕ) (a : Line V) : Ind.mad p (neg a) = Ind.mad p a :=
  rollEven (Sg.ng_whenAll' fun l => by
    simp only [Ind.madV, List.length_map, Sg.ng_sum, Sg.ng_divc, List.map_map]
    congr 2
    exact List.map_congr_left fun x _ => by simp only [Function.comp, Sg.ng_sub, Sg.ng_abs]) p a

theorem absGo {arg arg' : List V → ℕ} (h : ∀ l, arg (l.map fun x : V => -x) = arg' l) (p : ℕ) (xs : List V) :
    ∀ (k i c : ℕ), Ind.absIdxGo p arg (xs.map fun x : V => -x) k i c = Ind.absIdxGo p arg' xs k i c
  | 0, _, _ => rfl
  | k + 1, i, c => by
    simp only [Ind.absIdxGo, window_map, Sg.ng_all, h, absGo h p xs k]

theorem absIndex {arg arg' : List V → ℕ} (h : ∀ l, arg (l.map fun x : V => -x) = arg' l) (p : ℕ) (a : Line V) :
    Ind.absIndex p arg (neg a) = Ind.absIndex p arg' a := by
  simp only [Ind.absIndex, neg, pyFrom_map, List.length_map, absGo h]

theorem aroonComp {arg arg' : List V → ℕ} (h : ∀ l, arg (l.map fun x : V => -x) = arg' l) (p : ℕ) (a : Line V) :
    Ind.aroonComp arg p (neg a) = Ind.aroonComp arg' p a := by
  unfold Ind.aroonComp
  simp only
  rw [Mi.arg (arg := fun w => arg w.reverse) (arg' := fun w => arg' w.reverse) (fun l => by rw [← List.map_reverse]; exact h _)]

theorem linregBase (m1 : Bool) (p : ℕ) (a : Line V) :
    Ind.linregBase m1 p (neg a) = (neg (Ind.linregBase m1 p a).1, neg (Ind.linregBase m1 p a).2) := by
  simp only [Ind.linregBase, sumN, dot, rmulS, sub, divS, mulS]

section bars
variable {n : ℕ} {h l c : Line V}

theorem truerange (hh : B n h) (hl : B n l) (hc : B n c) (q : ℕ) :
    Ind.truerange q (neg l) (neg h) (neg c) = Ind.truerange q h l c := by
  simp only [Ind.truerange, ago, clipLoL, clipHiL, sub]
  have b : B n (Line.ago (-(q : Int)) c) := LRel.agoN (R := barsRel V n) hc
  exact subSwap (LRel.clipHiL b hl) (LRel.clipLoL b hh)

theorem pdm1 (hh : B n h) (hl : B n l) {q : ℕ} (hq : 1 ≤ q) : Ind.pdm1 q (neg l) (neg h) = Ind.mdm1 q h l := by
  simp only [Ind.pdm1, Ind.mdm1, Ind.dmMoves, diff, ago, sub, ← diffAgo hl hq, ← diffAgo hh hq, neg_neg]

theorem mdm1 (hh : B n h) (hl : B n l) {q : ℕ} (hq : 1 ≤ q) : Ind.mdm1 q (neg l) (neg h) = Ind.pdm1 q h l := by
  simp only [Ind.pdm1, Ind.mdm1, Ind.dmMoves, diff, ago, sub, ← diffAgo hl hq, ← diffAgo hh hq, neg_neg]

variable (s : Line V → Except Err (Line V))

theorem plusDm (hh : B n h) (hl : B n l) {q : ℕ} (hq : 1 ≤ q) : Ind.plusDm s q (neg l) (neg h) = Ind.minusDm s q h l := by
  unfold Ind.plusDm Ind.minusDm; rw [pdm1 hh hl hq]

theorem minusDm (hh : B n h) (hl : B n l) {q : ℕ} (hq : 1 ≤ q) : Ind.minusDm s q (neg l) (neg h) = Ind.plusDm s q h l := by
  unfold Ind.plusDm Ind.minusDm; rw [mdm1 hh hl hq]

theorem plusDi (hh : B n h) (hl : B n l) (hc : B n c) {q : ℕ} (hq : 1 ≤ q) (t : Bool) :
    Ind.plusDi s q t (neg l) (neg h) (neg c) = Ind.minusDi s q t h l c := by
  simp only [Ind.plusDi, Ind.minusDi, plusDm s hh hl hq, Ind.diTrp, truerange hh hl hc]

theorem minusDi (hh : B n h) (hl : B n l) (hc : B n c) {q : ℕ} (hq : 1 ≤ q) (t : Bool) :
    Ind.minusDi s q t (neg l) (neg h) (neg c) = Ind.plusDi s q t h l c := by
  simp only [Ind.plusDi, Ind.minusDi, minusDm s hh hl hq, Ind.diTrp, truerange hh hl hc]

end bars

theorem corr (sq : V → V) (p : ℕ) (a b : Line V) : Ind.correl sq p (neg a) (neg b) = Ind.correl sq p a b := by
  have := lmap_rolling2 (σ := fun x : V => -x) (τ := fun x : V => -x) (ρ := fun x : V => x) (w := p) (agg := aggCorr sq)
    (agg' := aggCorr sq) nanrfl (fun l => by
      unfold aggCorr
      have e1 : (l.map fun q : V × V => (-q.1, -q.2)).map Prod.fst = (l.map Prod.fst).map (fun x : V => -x) := by
        simp [List.map_map, Function.comp_def]
      have e2 : (l.map fun q : V × V => (-q.1, -q.2)).map Prod.snd = (l.map Prod.snd).map (fun x : V => -x) := by
        simp [List.map_map, Function.comp_def]
      have e3 : ((l.map fun q : V × V => (-q.1, -q.2)).all fun q => isFin q.1 && isFin q.2) =
          l.all fun q => isFin q.1 && isFin q.2 := by
        rw [List.all_map]; congr 1; funext q; simp [Function.comp, Sg.ng_isFin]
      have e4 : ∀ xs ys : List V, List.zipWith (fun x y => x * y) (xs.map (fun x : V => -x)) (ys.map (fun x : V => -x)) =
          List.zipWith (fun x y => x * y) xs ys := fun xs ys => by
        have := zipWith_map2 (σ := fun x : V => -x) (τ := fun x : V => -x) (ρ := fun x : V => x)
          (f := fun x y => x * y) (f' := fun x y => x * y) Sg.ng_mul xs ys
        simpa using this
      have d : ∀ (x : V) (n : ℚ), -x / lit n = -(x / lit n) := fun x n => Sg.ng_divc _ x
      simp only [e1, e2, e3, e4, List.length_map, Sg.ng_sum, d, Sg.ng_mul, Sg.ng_aggVar]) a b
  rw [lmap_id] at this; exact this

/-! ## Hilbert transform -/

/-- the loop variables upside down -/
def htSt (s : Ind.HtSt V) : Ind.HtSt V :=
  { det := s.det.map (fun x : V => -x), i1 := s.i1.map (fun x : V => -x), q1 := s.q1.map (fun x : V => -x), i2 := -s.i2, q2 := -s.q2,
    re := s.re, im := s.im, period := s.period, smooth := s.smooth }

theorem htInit : htSt (Ind.HtSt.init : Ind.HtSt V) = Ind.HtSt.init := by
  simp [htSt, Ind.HtSt.init, Sg.neg_zero']

theorem deq (d : List V) (x : V) :
    Ind.deqAppend (d.map (fun x : V => -x)) (-x) = (Ind.deqAppend d x).map (fun x : V => -x) := by
  simp [Ind.deqAppend]

theorem htAt (x : List V) (i : Int) : Ind.htAt (x.map (fun x : V => -x)) i = -Ind.htAt x i := by
  unfold Ind.htAt; rw [pyGet_map]; cases pyGet x i with
  | none => exact Sg.neg_nan.symm
  | some v => rfl

theorem htHt (x : List V) (adj : V) (i : Int) :
    Ind.htHt (x.map (fun x : V => -x)) adj i = -Ind.htHt x adj i := by
  simp only [Ind.htHt, htAt, Sg.ng_cmul, Sg.ng_add, Sg.ng_sub, Sg.ng_mulc]

theorem htStep (F : HtFns V) (price : List V) (i : ℕ) (s : Ind.HtSt V) :
    Ind.htStep F (price.map (fun x : V => -x)) i (htSt s) = htSt (Ind.htStep F price i s) := by
  have c : ∀ (x : V) (n : ℚ), lit n * -x = -(lit n * x) := fun x n => Sg.ng_cmul _ x
  simp only [Ind.htStep, htSt, htHt, deq, htAt, Sg.ng_sub, Sg.ng_add, c, Sg.ng_mul]

theorem htGo {σ : Type} {step step' : ℕ → σ → σ} {out out' : σ → V} (f : σ → σ) (hs : ∀ i s, step' i (f s) = f (step i s))
    (τ : V → V) (ho : ∀ s, out' (f s) = τ (out s)) :
    ∀ (k i : ℕ) (s : σ), Ind.htGo step' out' k i (f s) = (Ind.htGo step out k i s).map τ
  | 0, _, _ => rfl
  | k + 1, i, s => by
    simp only [Ind.htGo, hs, ho, List.map_cons, htGo f hs τ ho k]

theorem htBuf {σ : Type} {step step' : ℕ → σ → σ} {out out' : σ → V} {s0 : σ} (f : σ → σ) (h0 : f s0 = s0)
    (hs : ∀ i s, step' i (f s) = f (step i s)) (τ : V → V) (h1 : τ nan = nan) (hz : τ (lit 0) = lit 0)
    (ho : ∀ s, out' (f s) = τ (out s)) (start len : ℕ) :
    Ind.htBuf start len step' out' s0 = (Ind.htBuf start len step out s0).map τ := by
  unfold Ind.htBuf
  have := htGo f hs τ ho (len - start) start s0
  rw [h0] at this
  rw [this, List.map_append, List.map_replicate, hz]

theorem htZero (n : ℕ) (price : List V) : Ind.htZero n (price.map (fun x : V => -x)) = (Ind.htZero n price).map (fun x : V => -x) := by
  unfold Ind.htZero
  have := pyFill_map (σ := fun x : V => -x) price 0 n (lit 0)
  rw [Sg.neg_zero'] at this; exact this

theorem htSmooth (a : Line V) : Ind.htSmooth (neg a) = neg (Ind.htSmooth a) := by
  simp only [Ind.htSmooth, ago, rmulS, add, divS, period]

theorem htBase (F : HtFns V) (out : Ind.HtSt V → V) (τ : V → V) (h1 : τ nan = nan)
    (hz : τ (lit 0) = lit 0) (ho : ∀ s, out (htSt s) = τ (out s)) (a : Line V) :
    apply (fun price => Ind.htBuf 6 price.length (Ind.htStep F (Ind.htZero 6 price)) out Ind.HtSt.init) PyFloat.nan
        (Ind.htSmooth (neg a)) =
      lmap τ (apply (fun price => Ind.htBuf 6 price.length (Ind.htStep F (Ind.htZero 6 price)) out Ind.HtSt.init) PyFloat.nan
        (Ind.htSmooth a)) := by
  rw [htSmooth]
  refine lmap_apply (fill := PyFloat.nan) (fill' := PyFloat.nan) (σ := fun x : V => -x) (ρ := τ) h1.symm (fun xs => ?_) _
  rw [List.length_map, htZero]
  exact htBuf htSt htInit (htStep F _) τ h1 hz ho 6 _

theorem htDcperiod (F : HtFns V) (a : Line V) : Ind.htDcperiod F (neg a) = Ind.htDcperiod F a := by
  unfold Ind.htDcperiod
  rw [htBase F _ (fun x => x) rfl rfl (fun s => rfl), lmap_id]

theorem htInphase (F : HtFns V) (a : Line V) : Ind.htInphase F (neg a) = neg (Ind.htInphase F a) := by
  unfold Ind.htInphase
  rw [htBase F _ (fun x : V => -x) Sg.neg_nan Sg.neg_zero' (fun s => htAt _ _)]
  exact periodN _ _

theorem htQuadrature (F : HtFns V) (a : Line V) : Ind.htQuadrature F (neg a) = neg (Ind.htQuadrature F a) := by
  unfold Ind.htQuadrature
  rw [htBase F _ (fun x : V => -x) Sg.neg_nan Sg.neg_zero' (fun s => htAt _ _)]
  exact periodN _ _

/-- the state of the trend line upside down -/
def tlSt (s : Ind.TlSt V) : Ind.TlSt V := ⟨htSt s.ht, -s.it1, -s.it2, -s.it3, -s.out⟩

theorem htIt0 (price : List V) (i dc : ℕ) : Ind.htIt0 (price.map (fun x : V => -x)) i dc = -Ind.htIt0 price i dc := by
  unfold Ind.htIt0
  simp only [pySlice_map, Sg.ng_sum, Sg.ng_divc]
  split <;> rfl

theorem tlNext (F : HtFns V) (price0 : List V) (i : ℕ) (t : Ind.HtSt V) (s : Ind.TlSt V) :
    Ind.tlNext F (price0.map (fun x : V => -x)) i (htSt t) (tlSt s) = tlSt (Ind.tlNext F price0 i t s) := by
  have hd : ∀ s : Ind.HtSt V, Ind.htDc F (htSt s) = Ind.htDc F s := fun _ => rfl
  simp only [Ind.tlNext, tlSt, hd, htIt0, Sg.ng_cmul, Sg.ng_add, Sg.ng_divc]

theorem htInts (F : HtFns V) (price : List V) : ∀ (k i : ℕ) (s : Ind.HtSt V),
    Ind.htInts F (price.map (fun x : V => -x)) k i (htSt s) = Ind.htInts F price k i s := by
  intro k
  induction k with
  | zero => intro i s; rfl
  | succ k ih =>
    intro i s
    simp only [Ind.htInts, htStep, ih]
    rfl

theorem htCheck (F : HtFns V) (a : Line V) : Ind.htCheck F (neg a) = Ind.htCheck F a := by
  unfold Ind.htCheck
  rw [htSmooth]
  simp only [neg, lmap, pyFrom_map, List.length_map, htZero]
  have := htInts F (Ind.htZero 31 (pyFrom (Ind.htSmooth a).series ((Ind.htSmooth a).minperiod - 1)))
    ((pyFrom (Ind.htSmooth a).series ((Ind.htSmooth a).minperiod - 1)).length - 31) 31 Ind.HtSt.init
  rw [htInit] at this
  exact this

theorem htTrendline (F : HtFns V) (a : Line V) : Ind.htTrendline F (neg a) = neg (Ind.htTrendline F a) := by
  unfold Ind.htTrendline
  rw [htSmooth, ← periodN]
  congr 1
  refine lmap_stdop2 (fill := PyFloat.nan) (fill' := PyFloat.nan) (σ := fun x : V => -x) (τ := fun x : V => -x) (ρ := fun x : V => -x) nanrfl
    (fun xs ys => ?_) _ _
  rw [List.length_map, htZero]
  exact htBuf tlSt (by simp only [tlSt, Ind.TlSt.init, htInit, Sg.neg_zero'])
    (fun i s => by
      show Ind.tlNext F _ i (Ind.htStep F _ i (htSt s.ht)) (tlSt s) = _
      rw [htStep, tlNext]) (fun x : V => -x) Sg.neg_nan Sg.neg_zero' (fun s => rfl) 31 _

theorem maskDiv {n j : ℕ} {q i : Line V} (hq : B n q) (hi : B n i) :
    Ind.maskL (Line.period j none (neg q)) (binopS (fun x c => eqv x c) true (neg i) (lit 0)) / neg i =
      Ind.maskL (Line.period j none q) (binopS (fun x c => eqv x c) true i (lit 0)) / i := by
  have key : ∀ {q i : Line V} {m m' : ℕ} {g g' : ℕ → V}, RepW q n m g → RepW i n m' g' →
      Rep nan (Ind.maskL (Line.period j none q) (binopS (fun x c => eqv x c) true i (lit 0)) / i) n (max (max (m + j) m') m')
        (fun k => (if eqv (g' k) (lit 0) then lit 0 else g k) / g' k) := by
    intro q i m m' g g' rq ri
    have hp : RepW (Line.period j none q) n (m + j) g := by
      have : Line.period (j : Int) none q = ⟨q.series, q.minperiod + j⟩ := by
        unfold Line.period
        by_cases hj : (j : Int) = 0
        · rw [if_pos hj, hj]; cases q; simp
        · rw [if_neg hj]
      rw [this]; exact rq.up j
    exact rep_div (rep_stdop2 (fill := nan) (k := fun k => if eqv (g' k) (lit 0) then lit 0 else g k) hp
      (rep_binopS (f := fun x c => eqv x c) (fill := true) (c := (lit 0 : V)) ri).toRepW (zipWith_tail _ _ _ _ _)).toRepW ri
  obtain ⟨m, g, rq⟩ := hq.rep
  obtain ⟨m', g', ri⟩ := hi.rep
  have ngw : ∀ {a : Line V} {m : ℕ} {g : ℕ → V}, RepW a n m g → RepW (neg a) n m (fun i => -g i) := fun h =>
    ⟨by simp [Spec.neg, h.len], h.mp, h.pos, fun i h1 h2 => by simp [Spec.neg, h.val i h1 h2]⟩
  exact (key (ngw rq) (ngw ri)).ext (key rq ri) fun k _ _ => Sg.ratio _ _

theorem mama {n : ℕ} {a : Line V} (ha : B n a) (F : HtFns V) (at' : V → V) (f s : V) :
    Ind.mama F at' f s (neg a) = (Ind.mama F at' f s a).map (fun r => (neg r.1, neg r.2)) := by
  have e1 : ∀ a : Line V, _ := fun a => htBase F (fun s => Ind.htAt s.i1 6) (fun x : V => -x) Sg.neg_nan Sg.neg_zero' (fun s => htAt _ _) a
  have e2 : ∀ a : Line V, _ := fun a => htBase F (fun s => Ind.htAt s.q1 6) (fun x : V => -x) Sg.neg_nan Sg.neg_zero' (fun s => htAt _ _) a
  have b1 : B n _ := LRel.htLoop (R := barsRel V n) (F := F) (out := fun s => Ind.htAt s.i1 6) (le_refl 6) trivial ha
  have b2 : B n _ := LRel.htLoop (R := barsRel V n) (F := F) (out := fun s => Ind.htAt s.q1 6) (le_refl 6) trivial ha
  have k := maskDiv (j := 6) b2 b1
  have hl : ∀ y : Line V, lmap (fun x : V => -x) y = neg y := fun _ => rfl
  have c6 : ((6 : ℕ) : Int) = 6 := rfl
  rw [c6] at k
  unfold Ind.mama
  simp only [e1, e2, hl, k, ewmDyn, Un.bind_map, Un.map_bind, Un.map_pure, periodN]

end Mi
end Bta
