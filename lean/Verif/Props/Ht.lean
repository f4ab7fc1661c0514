import Verif.Lemmas.Ht
import Verif.Props.Ma
import Mathlib.Analysis.SpecialFunctions.Trigonometric.Arctan

/-!
# C40, C41, C66 — the Hilbert transform family
-/

set_option linter.unusedSectionVars false
set_option linter.unusedVariables false

namespace Bta
open Line Ext

section generic
variable {V : Type} [PyFloat V]

/-- `_period(inc)` without value only moves the minimum period -/
theorem repW_period_none {l : Line V} {n m inc : ℕ} {g : ℕ → V} (h : RepW l n m g) (hi : 1 ≤ inc) :
    RepW (period (inc : Int) none l) n (m + inc) g := by
  unfold period
  rw [if_neg (by omega)]
  exact ⟨h.len, by simp [h.mp], by omega, fun i h1 h2 => h.val i (by omega) h2⟩

/-- `_period(inc, val=nan)` -/
theorem rep_period_nan {l : Line V} {n m inc : ℕ} {g : ℕ → V} (h : Rep nan l n m g) (hi : 1 ≤ inc) :
    Rep nan (period (inc : Int) (some nan) l) n (m + inc) g := by
  have hp := h.pos
  have hs : (period (inc : Int) (some nan) l).series
      = l.series.take (min (m - 1) n) ++ List.replicate (min (m - 1 + inc) n - min (m - 1) n) nan
        ++ l.series.drop (max (min (m - 1) n) (min (m - 1 + inc) n)) := by
    unfold period
    rw [if_neg (by omega)]
    simp only []
    rw [if_neg (by omega)]
    unfold pyFill
    rw [h.mp, h.len, pyStart_pred _ hp, show (m : Int) - 1 + (inc : Int) = ((m - 1 + inc : ℕ) : Int) from by omega,
      pyStart_nat]
  have hl : l.series.length = n := h.len
  have hlen : (l.series.take (min (m - 1) n)).length = min (m - 1) n := by rw [List.length_take, hl]; omega
  refine { len := ?_, mp := ?_, pos := by omega, val := ?_, pre := ?_ }
  · rw [hs]; simp [hl]; omega
  · unfold period
    rw [if_neg (by omega)]
    simp [h.mp]
  · intro i h1 h2
    rw [hs, List.getElem?_append_right (by simp [hl]; omega)]
    rw [List.getElem?_drop, List.length_append, List.length_replicate, hlen, ← h.val i (by omega) h2]
    congr 1
    omega
  · intro i h1 h2
    rw [hs]
    by_cases hi : i + 1 < m
    · rw [List.append_assoc, List.getElem?_append_left (by rw [hlen]; omega), List.getElem?_take, if_pos (by omega)]
      exact h.pre i hi h2
    · rw [List.getElem?_append_left (by rw [List.length_append, hlen, List.length_replicate]; omega),
        List.getElem?_append_right (by rw [hlen]; omega), List.getElem?_replicate, if_pos (by rw [hlen]; omega)]

end generic

section exact
variable {K : Type} [Field K] [LinearOrder K] [IsStrictOrderedRing K]
variable {a : Line (Ext K)} {n m : ℕ} {x : ℕ → K}

/-- two inputs: the mid price -/
theorem htMid_shows {h l : Line (Ext K)} {mh ml : ℕ} {H L : ℕ → K} (hh : Holds h n mh H) (hl : Holds l n ml L) :
    Shows (Ind.htMid h l) n (max mh ml) (fun i => (H i + L i) / 2) := by
  have := Holds.divS (hh.add hl).toRepW (c := (2 : K)) (by norm_num)
  unfold Ind.htMid
  rw [show (lit 2 : Ext K) = fin 2 from by simp]
  exact this

theorem htSmooth_holds (h : Holds a n m x) : Holds (Ind.htSmooth a) n (m + 6) (Spec.htWeighted x) := by
  have h1 := (h.ago (s := 1) (by omega)).toRepW
  have h2 := (h.ago (s := 2) (by omega)).toRepW
  have h3 := (h.ago (s := 3) (by omega)).toRepW
  have e1 := Holds.add (h.rmulS 4).toRepW (Holds.rmulS h1 3).toRepW
  have e2 := Holds.add e1.toRepW (Holds.rmulS h2 2).toRepW
  have e3 := Holds.add e2.toRepW h3
  have e := Holds.divS e3.toRepW (c := (10 : K)) (by norm_num)
  have e' := repW_period_none (inc := 3) e.toRepW (by omega)
  unfold Ind.htSmooth
  simp only [lit_def]
  norm_num
  refine holds_congr e' (by omega) ?_
  intro i _ _
  rfl

/-- bar `i` counted from the first bar the loop sees -/
abbrev rel (m i : ℕ) : ℕ := i - (m + 5)

theorem sees_price (n m start : ℕ) (x : ℕ → K) :
    Ind.Sees (Ind.htZero start (tail n (m + 6 - 1) fun i => fin (Spec.htWeighted x i))) (n - (m + 6 - 1))
      (Spec.htPrice x (m + 5) start) := Ind.sees_zero

/-- common to all: a loop over the smoothed price which goes through the states `st`, with output `v k` after `k` bars -/
theorem loop_shows {σ : Type} {start rest : ℕ} (hsr : start ≤ rest) (hr : 1 ≤ rest) (h : Holds a n m x)
    {step : List (Ext K) → Nat → σ → σ} {out : σ → Ext K} {st : ℕ → σ} {v : ℕ → K} {s0 : σ} (h0 : s0 = st 0)
    (hv : ∀ k, out (st k) = fin (v k))
    (hst : ∀ k, start + k < n - (m + 6 - 1) →
      step (tail n (m + 6 - 1) fun i => fin (Spec.htWeighted x i)) (start + k) (st k) = st (k + 1)) :
    Shows (period (rest : Int) (some nan) (apply (fun price =>
        Ind.htBuf start price.length (step price) out s0) nan (Ind.htSmooth a))) n (m + 6 + rest)
      (fun i => v (rel m i + 1 - start)) := by
  have hpos := h.pos
  have e := rep_apply (fill := (nan : Ext K)) (F := fun price => Ind.htBuf start price.length (step price) out s0)
    (htSmooth_holds h)
    (by
      simp only [tail_length]
      rw [h0]
      exact Ind.htBuf_tail hst)
  refine (rep_period_nan e hr).congr rfl ?_
  intro i h1 h2
  rw [if_neg (by omega), hv]
  rfl

/-- the same for loops which also see the price not smoothed -/
theorem loop2_shows {σ : Type} {start rest : ℕ} (hsr : start ≤ rest) (hr : 1 ≤ rest) (h : Holds a n m x)
    {step : List (Ext K) → List (Ext K) → Nat → σ → σ} {out : σ → Ext K} {st : ℕ → σ} {v : ℕ → K} {s0 : σ} (h0 : s0 = st 0)
    (hv : ∀ k, out (st k) = fin (v k))
    (hst : ∀ k, start + k < n - (m + 6 - 1) →
      step (tail n (m + 6 - 1) fun i => fin (Spec.htWeighted x i)) (tail n (m + 6 - 1) fun i => fin (x i)) (start + k) (st k)
        = st (k + 1)) :
    Shows (period (rest : Int) (some nan) (apply2 (fun price price0 =>
        Ind.htBuf start price.length (step price price0) out s0) nan (Ind.htSmooth a) a)) n (m + 6 + rest)
      (fun i => v (rel m i + 1 - start)) := by
  have hpos := h.pos
  have e := rep_stdop2 (fill := (nan : Ext K)) (F := fun price price0 => Ind.htBuf start price.length (step price price0) out s0)
    (htSmooth_holds h) h
    (by
      simp only [tail_length]
      rw [h0, show max (m + 6) m = m + 6 from by omega]
      exact Ind.htBuf_tail hst)
  refine (rep_period_nan e hr).congr (by omega) ?_
  intro i h1 h2
  rw [if_neg (by omega), hv]
  simp only [rel]
  congr 2

section outputs
variable {F : HtFns (Ext K)} {T : Spec.Trig K}

/-- `ht_dcperiod` delivers the smoothed period of Ehlers' discriminator, from bar `m + 31` on. -/
theorem C40_dcperiod (hF : F.Agrees T) (hT : T.Ok) (h : Holds a n m x) :
    Shows (Ind.htDcperiod F a) n (m + 32)
      (fun i => (Spec.htAt T (Spec.htPrice x (m + 5) 6) 6 (rel m i)).smooth) := by
  have e := loop_shows (start := 6) (rest := 26) (by omega) (by omega) h
    (step := fun price => Ind.htStep F (Ind.htZero 6 price)) (out := Ind.HtSt.smooth)
    (st := fun k => Ind.emb (Spec.htRun T (Spec.htPrice x (m + 5) 6) 6 k)) (s0 := Ind.HtSt.init)
    Ind.emb_zero (fun k => rfl)
    (fun k hk => Ind.htStep_emb hF hT (sees_price n m 6 x) hk (by omega) _)
  exact shows_congr e (by omega) (fun i _ _ => rfl)

/-- **C40** every value delivered by `ht_dcperiod` is a number between 5.5 and 50 bars -/
theorem C40_range (hF : F.Agrees T) (hT : T.Ok) (h : Holds a n m x) (i : ℕ) (h1 : m + 32 ≤ i + 1) (h2 : i < n) :
    ∃ v : K, (Ind.htDcperiod F a).series[i]? = some (fin v) ∧ 11 / 2 ≤ v ∧ v ≤ 50 := by
  refine ⟨_, (C40_dcperiod hF hT h).val i h1 h2, ?_, ?_⟩
  · exact Spec.htRun_smooth_ge T _ _ _ (by simp only [rel]; omega)
  · exact (Spec.htRun_inv T _ _ _).s50

/-- `ht_phasor`: in-phase component -/
theorem C40_inphase (hF : F.Agrees T) (hT : T.Ok) (h : Holds a n m x) :
    Shows (Ind.htInphase F a) n (m + 32)
      (fun i => (Spec.htAt T (Spec.htPrice x (m + 5) 6) 6 (rel m i)).i1 0) := by
  have e := loop_shows (start := 6) (rest := 26) (by omega) (by omega) h
    (step := fun price => Ind.htStep F (Ind.htZero 6 price)) (out := fun s => Ind.htAt s.i1 6)
    (st := fun k => Ind.emb (Spec.htRun T (Spec.htPrice x (m + 5) 6) 6 k)) (s0 := Ind.HtSt.init)
    Ind.emb_zero (fun k => rfl)
    (fun k hk => Ind.htStep_emb hF hT (sees_price n m 6 x) hk (by omega) _)
  exact shows_congr e (by omega) (fun i _ _ => rfl)

/-- `ht_phasor`: quadrature component -/
theorem C40_quadrature (hF : F.Agrees T) (hT : T.Ok) (h : Holds a n m x) :
    Shows (Ind.htQuadrature F a) n (m + 32)
      (fun i => (Spec.htAt T (Spec.htPrice x (m + 5) 6) 6 (rel m i)).q1 0) := by
  have e := loop_shows (start := 6) (rest := 26) (by omega) (by omega) h
    (step := fun price => Ind.htStep F (Ind.htZero 6 price)) (out := fun s => Ind.htAt s.q1 6)
    (st := fun k => Ind.emb (Spec.htRun T (Spec.htPrice x (m + 5) 6) 6 k)) (s0 := Ind.HtSt.init)
    Ind.emb_zero (fun k => rfl)
    (fun k hk => Ind.htStep_emb hF hT (sees_price n m 6 x) hk (by omega) _)
  exact shows_congr e (by omega) (fun i _ _ => rfl)

/-- a loop over the phase with any output -/
theorem phase_shows (hF : F.Agrees T) (hT : T.Ok) (h : Holds a n m x) {out : Ext K → Ext K} {w : K → K}
    (hw : ∀ p, out (fin p) = fin (w p)) :
    Shows (period 57 (some nan) (apply (fun price =>
        Ind.htBuf 31 price.length (Ind.htPhStep F (Ind.htZero 31 price)) (fun s => out s.2) (Ind.HtSt.init, lit 0)) nan
        (Ind.htSmooth a))) n (m + 63) (fun i => w (Spec.htPhAt T (Spec.htPrice x (m + 5) 31) 31 (rel m i))) := by
  have e := loop_shows (start := 31) (rest := 57) (by omega) (by omega) h
    (step := fun price => Ind.htPhStep F (Ind.htZero 31 price)) (out := fun s => out s.2)
    (st := fun k => (Ind.emb (Spec.htRun T (Spec.htPrice x (m + 5) 31) 31 k), fin (Spec.htPhRun T (Spec.htPrice x (m + 5) 31) 31 k)))
    (s0 := (Ind.HtSt.init, lit 0)) (by simp [Ind.emb_zero, Spec.htRun, Spec.htPhRun]) (fun k => hw _)
    (fun k hk => Ind.htPhStep_emb hF hT (sees_price n m 31 x) (le_refl _) hk)
  exact shows_congr e (by omega) (fun i _ _ => rfl)

/-- `ht_dcphase` delivers the phase of the dominant cycle: at bar `i` it is computed from the last `d` smoothed prices,
`d` the period in bars at `i`. -/
theorem C41_dcphase (hF : F.Agrees T) (hT : T.Ok) (h : Holds a n m x) :
    Shows (Ind.htDcphase F a) n (m + 63) (fun i => Spec.htPhAt T (Spec.htPrice x (m + 5) 31) 31 (rel m i)) :=
  phase_shows hF hT h (out := fun v => v) (w := fun v => v) (fun _ => rfl)

/-- `ht_sine`: the sine of that phase -/
theorem C41_sine (hF : F.Agrees T) (hT : T.Ok) (h : Holds a n m x) :
    Shows (Ind.htSine F a) n (m + 63)
      (fun i => T.sin (Spec.htPhAt T (Spec.htPrice x (m + 5) 31) 31 (rel m i) * (1 / T.deg))) :=
  phase_shows hF hT h (out := Ind.htSin F) (w := fun p => T.sin (p * (1 / T.deg))) (Ind.htSin_fin hF hT)

/-- `ht_sine`: the sine of the phase 45 degrees later -/
theorem C41_leadsine (hF : F.Agrees T) (hT : T.Ok) (h : Holds a n m x) :
    Shows (Ind.htLeadsine F a) n (m + 63)
      (fun i => T.sin ((Spec.htPhAt T (Spec.htPrice x (m + 5) 31) 31 (rel m i) + 45) * (1 / T.deg))) :=
  phase_shows hF hT h (out := Ind.htLead F) (w := fun p => T.sin ((p + 45) * (1 / T.deg))) (Ind.htLead_fin hF hT)

/-- `ht_trendline`: weighted mean of the last four means over the dominant cycle of prices -/
theorem C41_trendline (hF : F.Agrees T) (hT : T.Ok) (h : Holds a n m x) :
    Shows (Ind.htTrendline F a) n (m + 63)
      (fun i => Spec.htTlAt T (Spec.htPrice x (m + 5) 31) (fun j => x (m + 5 + j)) 31 (rel m i)) := by
  have e := loop2_shows (start := 31) (rest := 57) (by omega) (by omega) h
    (step := fun price price0 i s => Ind.tlNext F price0 i (Ind.htStep F (Ind.htZero 31 price) i s.ht) s) (out := Ind.TlSt.out)
    (st := Ind.tlEmb T (Spec.htPrice x (m + 5) 31) (fun j => x (m + 5 + j)) 31)
    (s0 := Ind.TlSt.init) (Ind.tlEmb_zero _ _ _ _) (fun k => rfl)
    (fun k hk => by
      have e1 : Ind.htStep F (Ind.htZero 31 (tail n (m + 6 - 1) fun i => fin (Spec.htWeighted x i))) (31 + k)
          (Ind.tlEmb T (Spec.htPrice x (m + 5) 31) (fun j => x (m + 5 + j)) 31 k).ht
          = Ind.emb (Spec.htRun T (Spec.htPrice x (m + 5) 31) 31 (k + 1)) :=
        Ind.htStep_emb hF hT (sees_price n m 31 x) hk (by omega) _
      rw [e1]
      exact Ind.tlNext_emb hF hT _ (le_refl _) hk)
  exact shows_congr e (by omega) (fun i _ _ => rfl)

/-- `ht_trendmode`: 1 in a trend, else 0 -/
theorem C41_trendmode (hF : F.Agrees T) (hT : T.Ok) (h : Holds a n m x) :
    Shows (Ind.htTrendmode F a) n (m + 63)
      (fun i => (Spec.htTrendRun T (Spec.htPrice x (m + 5) 31) (fun j => x (m + 5 + j)) 31 (rel m i + 1 - 31) : K)) := by
  have e := loop2_shows (start := 31) (rest := 57) (by omega) (by omega) h
    (step := fun price price0 => Ind.tmStep F (Ind.htZero 31 price) price0)
    (out := fun s => lit s.trend)
    (v := fun k => (Spec.htTrendRun T (Spec.htPrice x (m + 5) 31) (fun j => x (m + 5 + j)) 31 k : K))
    (st := Ind.tmEmb T (Spec.htPrice x (m + 5) 31) (fun j => x (m + 5 + j)) 31)
    (s0 := Ind.TmSt.init) (Ind.tmEmb_zero _ _ _ _) (fun k => by simp [Ind.tmEmb])
    (fun k hk => Ind.tmStep_emb hF hT (sees_price n m 31 x) (le_refl _) hk)
  exact shows_congr e (by omega) (fun i _ _ => rfl)

/-- **C41** the dominant cycle used at bar `i` in `ht_dcphase`, `ht_sine`, `ht_trendline`, `ht_trendmode` has no more
bars than there are between the first bar the loop sees and `i`; where values are delivered it has 6 to 50 bars. -/
theorem C41_window (hT : T.Ok) (y : ℕ → K) (j : ℕ) (hj : 31 ≤ j) :
    Spec.htBars T (Spec.htAt T y 31 j) ≤ j + 1 ∧ Spec.htBars T (Spec.htAt T y 31 j) ≤ 50 ∧
    (57 ≤ j → 6 ≤ Spec.htBars T (Spec.htAt T y 31 j)) := by
  obtain ⟨h1, h2⟩ := Spec.htBars_le hT y 31 (j + 1 - 31)
  refine ⟨?_, h1, ?_⟩
  · exact le_trans h2 (by omega)
  · intro h
    exact Spec.htBars_ge hT y 31 _ (by omega)

/-! ### bars after `i` do not matter -/

theorem htRun_congr {y y' : ℕ → K} {start k : ℕ} (h : ∀ j, j < start + k → y j = y' j) :
    Spec.htRun T y start k = Spec.htRun T y' start k := by
  induction k with
  | zero => rfl
  | succ k ih =>
    unfold Spec.htRun
    rw [ih (fun j hj => h j (by omega))]
    congr 1
    funext b
    exact h _ (by omega)

theorem htComp_congr {y y' : ℕ → K} {w : K → K} {j d : ℕ} (h : ∀ i, i ≤ j → y i = y' i) :
    Spec.htComp T w y j d = Spec.htComp T w y' j d := by
  unfold Spec.htComp
  apply Finset.sum_congr rfl
  intro k _
  rw [h _ (by omega)]

theorem htPhRun_congr {y y' : ℕ → K} {start k : ℕ} (h : ∀ j, j < start + k → y j = y' j) :
    Spec.htPhRun T y start k = Spec.htPhRun T y' start k := by
  induction k with
  | zero => rfl
  | succ k ih =>
    unfold Spec.htPhRun
    simp only []
    rw [ih (fun j hj => h j (by omega)), htRun_congr h, htComp_congr (T := T) (w := T.sin) (fun i hi => h i (by omega)),
      htComp_congr (T := T) (w := T.cos) (fun i hi => h i (by omega))]

theorem htItRun_congr {y y' x x' : ℕ → K} {start k : ℕ} (h : ∀ j, j < start + k → y j = y' j)
    (hx : ∀ j, j < start + k → x j = x' j) : Spec.htItRun T y x start k = Spec.htItRun T y' x' start k := by
  cases k with
  | zero => rfl
  | succ k =>
    simp only [Spec.htItRun, Spec.htMean, Spec.winMean, Spec.winSum]
    rw [htRun_congr h]
    have : ∀ d, ∑ j ∈ Finset.range d, x (start + k - j) = ∑ j ∈ Finset.range d, x' (start + k - j) := by
      intro d
      apply Finset.sum_congr rfl
      intro j _
      exact hx _ (by omega)
    rw [this]

theorem htTlRun_congr {y y' x x' : ℕ → K} {start k : ℕ} (h : ∀ j, j < start + k → y j = y' j)
    (hx : ∀ j, j < start + k → x j = x' j) : Spec.htTlRun T y x start k = Spec.htTlRun T y' x' start k := by
  unfold Spec.htTlRun
  rw [htItRun_congr h hx, htItRun_congr (k := k - 1) (fun j hj => h j (by omega)) (fun j hj => hx j (by omega)),
    htItRun_congr (k := k - 2) (fun j hj => h j (by omega)) (fun j hj => hx j (by omega)),
    htItRun_congr (k := k - 3) (fun j hj => h j (by omega)) (fun j hj => hx j (by omega))]

theorem htSinRun_congr {y y' : ℕ → K} {start k : ℕ} (h : ∀ j, j < start + k → y j = y' j) :
    Spec.htSinRun T y start k = Spec.htSinRun T y' start k := by
  cases k with
  | zero => rfl
  | succ k => simp only [Spec.htSinRun]; rw [htPhRun_congr h]

theorem htLeadRun_congr {y y' : ℕ → K} {start k : ℕ} (h : ∀ j, j < start + k → y j = y' j) :
    Spec.htLeadRun T y start k = Spec.htLeadRun T y' start k := by
  cases k with
  | zero => rfl
  | succ k => simp only [Spec.htLeadRun]; rw [htPhRun_congr h]

theorem htCross_congr {y y' : ℕ → K} {start k : ℕ} (h : ∀ j, j < start + (k + 1) → y j = y' j) :
    Spec.htCross T y start k ↔ Spec.htCross T y' start k := by
  unfold Spec.htCross
  rw [htSinRun_congr h, htLeadRun_congr h, htSinRun_congr (k := k) (fun j hj => h j (by omega)),
    htLeadRun_congr (k := k) (fun j hj => h j (by omega))]

theorem htDays_congr {y y' : ℕ → K} {start k : ℕ} (h : ∀ j, j < start + k → y j = y' j) :
    Spec.htDays T y start k = Spec.htDays T y' start k := by
  induction k with
  | zero => rfl
  | succ k ih =>
    unfold Spec.htDays
    rw [ih (fun j hj => h j (by omega))]
    have hc := htCross_congr (T := T) h
    by_cases hR : Spec.htCross T y start k
    · rw [if_pos hR, if_pos (hc.mp hR)]
    · rw [if_neg hR, if_neg (fun hd => hR (hc.mpr hd))]

theorem htTrendRun_congr {y y' x x' : ℕ → K} {start k : ℕ} (h : ∀ j, j < start + k → y j = y' j)
    (hx : ∀ j, j < start + k → x j = x' j) : Spec.htTrendRun T y x start k = Spec.htTrendRun T y' x' start k := by
  cases k with
  | zero => rfl
  | succ k =>
    simp only [Spec.htTrendRun]
    have : Spec.htTrending T y x start k ↔ Spec.htTrending T y' x' start k := by
      unfold Spec.htTrending
      simp only []
      rw [htRun_congr h, htTlRun_congr h hx, htPhRun_congr h, htPhRun_congr (k := k) (fun j hj => h j (by omega)),
        h _ (by omega), htCross_congr h, htDays_congr h]
    by_cases hR : Spec.htTrending T y x start k
    · rw [if_pos hR, if_pos (this.mp hR)]
    · rw [if_neg hR, if_neg (fun hc => hR (this.mpr hc))]

theorem htPrice_congr {x x' : ℕ → K} {o start i : ℕ} (h : ∀ j, j ≤ i → x j = x' j) (j : ℕ) (hj : o + j ≤ i) :
    Spec.htPrice x o start j = Spec.htPrice x' o start j := by
  unfold Spec.htPrice Spec.htWeighted
  rw [h _ hj, h _ (by omega), h _ (by omega), h _ (by omega)]

theorem same_bar {l l' : Line (Ext K)} {n' M : ℕ} {u u' : ℕ → K} (h : Shows l n M u) (h' : Shows l' n' M u') {i : ℕ}
    (hi : i < n) (hi' : i < n') (e : M ≤ i + 1 → u i = u' i) : l.series[i]? = l'.series[i]? := by
  by_cases hM : M ≤ i + 1
  · rw [h.val i hM hi, h'.val i hM hi', e hM]
  · rw [h.pre i (by omega) hi, h'.pre i (by omega) hi']

/-- **C41** no bar after `i` has an influence on the value at `i`: two inputs, possibly of different length, which are
equal up to bar `i` give the same values at `i`. -/
theorem C41_no_future (hF : F.Agrees T) (hT : T.Ok) (h : Holds a n m x) {a' : Line (Ext K)} {n' : ℕ} {x' : ℕ → K}
    (h' : Holds a' n' m x') (i : ℕ) (hi : i < n) (hi' : i < n') (hx : ∀ j, j ≤ i → x j = x' j) :
    (Ind.htDcperiod F a).series[i]? = (Ind.htDcperiod F a').series[i]? ∧
    (Ind.htInphase F a).series[i]? = (Ind.htInphase F a').series[i]? ∧
    (Ind.htQuadrature F a).series[i]? = (Ind.htQuadrature F a').series[i]? ∧
    (Ind.htDcphase F a).series[i]? = (Ind.htDcphase F a').series[i]? ∧
    (Ind.htSine F a).series[i]? = (Ind.htSine F a').series[i]? ∧
    (Ind.htLeadsine F a).series[i]? = (Ind.htLeadsine F a').series[i]? ∧
    (Ind.htTrendline F a).series[i]? = (Ind.htTrendline F a').series[i]? ∧
    (Ind.htTrendmode F a).series[i]? = (Ind.htTrendmode F a').series[i]? := by
  have hy : ∀ start, m + 5 + start ≤ i → ∀ j, j < start + (rel m i + 1 - start) →
      Spec.htPrice x (m + 5) start j = Spec.htPrice x' (m + 5) start j := by
    intro start hs j hj
    refine htPrice_congr hx j ?_
    simp only [rel] at hj
    omega
  have hz : m + 5 + 31 ≤ i → ∀ j, j < 31 + (rel m i + 1 - 31) → x (m + 5 + j) = x' (m + 5 + j) := by
    intro hs j hj
    refine hx _ ?_
    simp only [rel] at hj
    omega
  refine ⟨same_bar (C40_dcperiod hF hT h) (C40_dcperiod hF hT h') hi hi' fun hM => ?_,
    same_bar (C40_inphase hF hT h) (C40_inphase hF hT h') hi hi' fun hM => ?_,
    same_bar (C40_quadrature hF hT h) (C40_quadrature hF hT h') hi hi' fun hM => ?_,
    same_bar (C41_dcphase hF hT h) (C41_dcphase hF hT h') hi hi' fun hM => ?_,
    same_bar (C41_sine hF hT h) (C41_sine hF hT h') hi hi' fun hM => ?_,
    same_bar (C41_leadsine hF hT h) (C41_leadsine hF hT h') hi hi' fun hM => ?_,
    same_bar (C41_trendline hF hT h) (C41_trendline hF hT h') hi hi' fun hM => ?_,
    same_bar (C41_trendmode hF hT h) (C41_trendmode hF hT h') hi hi' fun hM => ?_⟩
  · unfold Spec.htAt; rw [htRun_congr (hy 6 (by omega))]
  · unfold Spec.htAt; rw [htRun_congr (hy 6 (by omega))]
  · unfold Spec.htAt; rw [htRun_congr (hy 6 (by omega))]
  · unfold Spec.htPhAt; rw [htPhRun_congr (hy 31 (by omega))]
  · unfold Spec.htPhAt; rw [htPhRun_congr (hy 31 (by omega))]
  · unfold Spec.htPhAt; rw [htPhRun_congr (hy 31 (by omega))]
  · unfold Spec.htTlAt; rw [htTlRun_congr (hy 31 (by omega)) (hz (by omega))]
  · rw [htTrendRun_congr (hy 31 (by omega)) (hz (by omega))]

/-! ### ranges -/

/-- **C66** every value delivered by `ht_trendmode` is 0 or 1 -/
theorem C66_trendmode (hF : F.Agrees T) (hT : T.Ok) (h : Holds a n m x) (i : ℕ) (h1 : m + 63 ≤ i + 1) (h2 : i < n) :
    (Ind.htTrendmode F a).series[i]? = some (fin 0) ∨ (Ind.htTrendmode F a).series[i]? = some (fin 1) := by
  rw [(C41_trendmode hF hT h).val i h1 h2]
  obtain ⟨k, hk⟩ : ∃ k, rel m i + 1 - 31 = k + 1 := ⟨rel m i + 1 - 31 - 1, by simp only [rel]; omega⟩
  simp only [hk, Spec.htTrendRun]
  split_ifs
  · right; simp
  · left; simp

/-- **C66** every value of `ht_sine` is between -1 and 1, if `sin` is -/
theorem C66_sine (hF : F.Agrees T) (hT : T.Ok) (hsin : ∀ t, -1 ≤ T.sin t ∧ T.sin t ≤ 1) (h : Holds a n m x) (i : ℕ)
    (h1 : m + 63 ≤ i + 1) (h2 : i < n) :
    ∃ s l : K, (Ind.htSine F a).series[i]? = some (fin s) ∧ (Ind.htLeadsine F a).series[i]? = some (fin l) ∧
      (-1 ≤ s ∧ s ≤ 1) ∧ (-1 ≤ l ∧ l ≤ 1) :=
  ⟨_, _, (C41_sine hF hT h).val i h1 h2, (C41_leadsine hF hT h).val i h1 h2, hsin _, hsin _⟩

theorem winMean_mem {x : ℕ → K} {d i : ℕ} (hd : 1 ≤ d) {lo hi : K} (h : ∀ j, j < d → lo ≤ x (i - j) ∧ x (i - j) ≤ hi) :
    lo ≤ Spec.winMean x d i ∧ Spec.winMean x d i ≤ hi := by
  have hd0 : (0 : K) < d := by exact_mod_cast hd
  unfold Spec.winMean Spec.winSum
  constructor
  · rw [le_div_iff₀ hd0]
    have := Finset.card_nsmul_le_sum (Finset.range d) (fun j => x (i - j)) lo (fun j hj => (h j (Finset.mem_range.mp hj)).1)
    simpa [mul_comm] using this
  · rw [div_le_iff₀ hd0]
    have := Finset.sum_le_card_nsmul (Finset.range d) (fun j => x (i - j)) hi (fun j hj => (h j (Finset.mem_range.mp hj)).2)
    simpa [mul_comm] using this

/-- **C71** the trend line is between the least and the greatest of the last 53 prices -/
theorem C71_trendline_range (hF : F.Agrees T) (hT : T.Ok) (h : Holds a n m x) (i : ℕ) (h1 : m + 63 ≤ i + 1) (h2 : i < n)
    {lo hi : K} (hx : ∀ j, j < 53 → lo ≤ x (i - j) ∧ x (i - j) ≤ hi) :
    ∃ v : K, (Ind.htTrendline F a).series[i]? = some (fin v) ∧ lo ≤ v ∧ v ≤ hi := by
  refine ⟨_, (C41_trendline hF hT h).val i h1 h2, ?_⟩
  have key : ∀ q, q ≤ 3 → lo ≤ Spec.htItRun T (Spec.htPrice x (m + 5) 31) (fun j => x (m + 5 + j)) 31 (rel m i + 1 - 31 - q) ∧
      Spec.htItRun T (Spec.htPrice x (m + 5) 31) (fun j => x (m + 5 + j)) 31 (rel m i + 1 - 31 - q) ≤ hi := by
    intro q hq
    obtain ⟨k, hk⟩ : ∃ k, rel m i + 1 - 31 - q = k + 1 := ⟨rel m i + 1 - 31 - q - 1, by simp only [rel]; omega⟩
    have hk' : m + 5 + (31 + k) + q = i := by simp only [rel] at hk; omega
    have hk15 : 15 ≤ k + 1 := by simp only [rel] at hk; omega
    simp only [hk, Spec.htItRun, Spec.htMean]
    have hb := Spec.htBars_ge hT (Spec.htPrice x (m + 5) 31) 31 (k + 1) hk15
    obtain ⟨hb1, hb2⟩ := Spec.htBars_le hT (Spec.htPrice x (m + 5) 31) 31 (k + 1)
    rw [if_neg (by omega)]
    refine winMean_mem (by omega) ?_
    intro j hj
    have := hx (j + q) (by omega)
    rw [show i - (j + q) = m + 5 + (31 + k - j) from by omega] at this
    exact this
  have k0 := key 0 (by omega)
  have k1 := key 1 (by omega)
  have k2 := key 2 (by omega)
  have k3 := key 3 (by omega)
  unfold Spec.htTlAt Spec.htTlRun
  rw [Nat.sub_zero] at k0
  constructor
  · rw [le_div_iff₀ (by norm_num)]; linarith [k0.1, k1.1, k2.1, k3.1]
  · rw [div_le_iff₀ (by norm_num)]; linarith [k0.2, k1.2, k2.2, k3.2]

/-- lower bound of the period after `k` bars -/
def plQ : ℕ → ℚ
  | 0 => 0
  | k + 1 => 6 / 5 + 4 / 5 * plQ k

/-- lower bound of the smoothed period after `k` bars -/
def slQ : ℕ → ℚ
  | 0 => 0
  | k + 1 => 33 / 100 * plQ (k + 1) + 67 / 100 * slQ k

/-- upper bound of the phase after `k` bars -/
def uQ : ℕ → ℚ
  | 0 => 315
  | k + 1 => max 315 (max (360 / slQ (k + 1)) (uQ k - 180 + 360 / slQ (k + 1)))

theorem plQ_nonneg (k : ℕ) : 0 ≤ plQ k := by
  induction k with
  | zero => simp [plQ]
  | succ k ih => simp only [plQ]; linarith

theorem slQ_pos (k : ℕ) : 0 ≤ slQ k ∧ 0 < slQ (k + 1) := by
  have h1 : ∀ k, 0 ≤ slQ k := by
    intro k
    induction k with
    | zero => simp [slQ]
    | succ k ih => have := plQ_nonneg (k + 1); simp only [slQ]; linarith
  refine ⟨h1 k, ?_⟩
  have := plQ_nonneg k
  have := h1 k
  simp only [slQ, plQ]
  linarith

theorem htRun_lower (y : ℕ → K) (start k : ℕ) :
    (plQ k : K) ≤ (Spec.htRun T y start k).period ∧ (slQ k : K) ≤ (Spec.htRun T y start k).smooth := by
  induction k with
  | zero => simp [plQ, slQ, Spec.htRun, Spec.Ht.zero]
  | succ k ih =>
    obtain ⟨raw, hraw⟩ : ∃ raw, (Spec.htRun T y start (k + 1)).period = Spec.htLimit raw (Spec.htRun T y start k).period :=
      ⟨_, rfl⟩
    have hsm : (Spec.htRun T y start (k + 1)).smooth
      = 33 / 100 * (Spec.htRun T y start (k + 1)).period + 67 / 100 * (Spec.htRun T y start k).smooth := rfl
    have e1 := Spec.htLimit_ge raw (p := (Spec.htRun T y start k).period)
    rw [← hraw] at e1
    have h1 : (plQ (k + 1) : K) ≤ (Spec.htRun T y start (k + 1)).period := by
      simp only [plQ]; push_cast; linarith [ih.1]
    refine ⟨h1, ?_⟩
    rw [hsm]
    simp only [slQ]
    push_cast
    linarith [ih.2]

/-- one step of the phase -/
theorem htPhase_step (hat : ∀ t, -90 < T.atan t * T.deg ∧ T.atan t * T.deg < 90) {sm sl re im prev u : K} (h0 : 0 < sl)
    (hs : sl ≤ sm) (hl : -45 < prev) (hu : prev ≤ u) :
    -45 < Spec.htPhase T sm re im prev ∧
      Spec.htPhase T sm re im prev ≤ max 315 (max (360 / sl) (u - 180 + 360 / sl)) := by
  have hs0 : 0 < sm := lt_of_lt_of_le h0 hs
  have e1 : 0 < 360 / sm := by positivity
  have e2 : 360 / sm ≤ 360 / sl := div_le_div_of_nonneg_left (by norm_num) h0 hs
  have m1 : (315 : K) ≤ max 315 (max (360 / sl) (u - 180 + 360 / sl)) := le_max_left _ _
  have m2 : 360 / sl ≤ max 315 (max (360 / sl) (u - 180 + 360 / sl)) := le_trans (le_max_left _ _) (le_max_right _ _)
  have m3 : u - 180 + 360 / sl ≤ max 315 (max (360 / sl) (u - 180 + 360 / sl)) :=
    le_trans (le_max_right _ _) (le_max_right _ _)
  generalize max 315 (max (360 / sl) (u - 180 + 360 / sl)) = M at *
  generalize 360 / sl = R at *
  unfold Spec.htPhase
  simp only []
  generalize 360 / sm = r at *
  by_cases him : im ≠ 0
  · rw [if_pos him]
    obtain ⟨ha1, ha2⟩ := hat (re / im)
    have e3 : (0 : K) ≤ (if im < 0 then 180 else 0) ∧ (if im < 0 then 180 else 0 : K) ≤ 180 := by
      split_ifs <;> constructor <;> norm_num
    obtain ⟨e3, e4⟩ := e3
    generalize (if im < 0 then 180 else 0 : K) = z at *
    split_ifs with hc
    · constructor <;> linarith
    · constructor <;> linarith
  · have him : im = 0 := by simpa using him
    subst him
    simp only [ne_eq, not_true_eq_false, if_false, lt_irrefl, add_zero]
    have e3 : prev - 90 ≤ (if re < 0 then prev - 90 else if 0 < re then prev + 90 else prev) ∧
        (if re < 0 then prev - 90 else if 0 < re then prev + 90 else prev) ≤ prev + 90 := by
      split_ifs <;> constructor <;> linarith
    obtain ⟨e3, e4⟩ := e3
    generalize (if re < 0 then prev - 90 else if 0 < re then prev + 90 else prev) = z at *
    split_ifs with hc
    · constructor <;> linarith
    · constructor <;> linarith

theorem htPhRun_bounds (hat : ∀ t, -90 < T.atan t * T.deg ∧ T.atan t * T.deg < 90) (y : ℕ → K) (start k : ℕ) :
    -45 < Spec.htPhRun T y start k ∧ Spec.htPhRun T y start k ≤ (uQ k : K) := by
  induction k with
  | zero => simp only [Spec.htPhRun, uQ]; constructor <;> norm_num
  | succ k ih =>
    have h := htPhase_step hat (sl := (slQ (k + 1) : K)) (by exact_mod_cast (slQ_pos k).2)
      (htRun_lower (T := T) y start (k + 1)).2 ih.1 ih.2
      (re := Spec.htComp T T.sin y (start + k) (Spec.htBars T (Spec.htRun T y start (k + 1))))
      (im := Spec.htComp T T.cos y (start + k) (Spec.htBars T (Spec.htRun T y start (k + 1))))
    refine ⟨h.1, le_trans h.2 (le_of_eq ?_)⟩
    simp only [uQ]
    push_cast
    rfl

/-- 15 bars after the start the phase has come into its range -/
theorem htPhRun_range (hat : ∀ t, -90 < T.atan t * T.deg ∧ T.atan t * T.deg < 90) (y : ℕ → K) (start k : ℕ)
    (hk : 15 ≤ k) : -45 < Spec.htPhRun T y start k ∧ Spec.htPhRun T y start k ≤ 315 := by
  obtain ⟨j, rfl⟩ : ∃ j, k = 15 + j := ⟨k - 15, by omega⟩
  clear hk
  induction j with
  | zero =>
    have h := htPhRun_bounds hat y start 15
    have hu : uQ 15 ≤ 315 := by decide +kernel
    refine ⟨h.1, le_trans h.2 ?_⟩
    exact_mod_cast hu
  | succ j ih =>
    have h := htPhase_step hat (sl := (11 / 2 : K)) (by norm_num)
      (Spec.htRun_smooth_ge T y start (15 + j + 1) (by omega)) ih.1 ih.2
      (re := Spec.htComp T T.sin y (start + (15 + j)) (Spec.htBars T (Spec.htRun T y start (15 + j + 1))))
      (im := Spec.htComp T T.cos y (start + (15 + j)) (Spec.htBars T (Spec.htRun T y start (15 + j + 1))))
    refine ⟨h.1, le_trans h.2 (max_le (le_refl _) (max_le ?_ ?_))⟩ <;> norm_num

/-- **C72** the phase delivered by `ht_dcphase` is in (-45, 315] degrees, if the arctangent is within 90 degrees -/
theorem C72_dcphase_range (hF : F.Agrees T) (hT : T.Ok)
    (hat : ∀ t, -90 < T.atan t * T.deg ∧ T.atan t * T.deg < 90) (h : Holds a n m x) (i : ℕ)
    (h1 : m + 63 ≤ i + 1) (h2 : i < n) :
    ∃ v : K, (Ind.htDcphase F a).series[i]? = some (fin v) ∧ -45 < v ∧ v ≤ 315 := by
  refine ⟨_, (C41_dcphase hF hT h).val i h1 h2, ?_⟩
  exact htPhRun_range hat _ 31 _ (by simp only [rel]; omega)

/-! ### unit of the prices -/

/-- the state for prices `c` times as high -/
def _root_.Spec.Ht.scale (c : K) (s : Spec.Ht K) : Spec.Ht K :=
  ⟨fun k => c * s.det k, fun k => c * s.i1 k, fun k => c * s.q1 k, c * s.i2, c * s.q2, c * c * s.re, c * c * s.im,
    s.period, s.smooth⟩

theorem push_scale (c : K) (f : ℕ → K) (v : K) : Spec.push (fun k => c * f k) (c * v) = fun k => c * Spec.push f v k := by
  funext k
  cases k <;> rfl

theorem hilbert_scale (c : K) (f : ℕ → K) : Spec.hilbert (fun k => c * f k) = c * Spec.hilbert f := by
  unfold Spec.hilbert
  ring

theorem htRaw_scale {c : K} (hc : c ≠ 0) (re im p : K) : Spec.htRaw T (c * c * re) (c * c * im) p = Spec.htRaw T re im p := by
  unfold Spec.htRaw
  have h2 : c * c ≠ 0 := mul_ne_zero hc hc
  rw [mul_div_mul_left _ _ h2]
  simp only [ne_eq, mul_eq_zero, hc, or_self, false_or]

theorem htNext_scale {c : K} (hc : c ≠ 0) (f : ℕ → K) (s : Spec.Ht K) :
    Spec.htNext T (fun k => c * f k) (s.scale c) = (Spec.htNext T f s).scale c := by
  have hi2 : ∀ a b d e : K, 1 / 5 * (c * a - c * b * d) + 4 / 5 * (c * e) = c * (1 / 5 * (a - b * d) + 4 / 5 * e) := by
    intros; ring
  have hq2 : ∀ a b d e : K, 1 / 5 * (c * a + c * b * d) + 4 / 5 * (c * e) = c * (1 / 5 * (a + b * d) + 4 / 5 * e) := by
    intros; ring
  have hre : ∀ a b d e r : K, 1 / 5 * (c * a * (c * b) + c * d * (c * e)) + 4 / 5 * (c * c * r)
      = c * c * (1 / 5 * (a * b + d * e) + 4 / 5 * r) := by intros; ring
  have him : ∀ a b d e r : K, 1 / 5 * (c * a * (c * b) - c * d * (c * e)) + 4 / 5 * (c * c * r)
      = c * c * (1 / 5 * (a * b - d * e) + 4 / 5 * r) := by intros; ring
  unfold Spec.htNext Spec.Ht.scale
  simp only [hilbert_scale, mul_assoc c, push_scale]
  simp only [← mul_assoc c]
  simp only [hi2, hq2, hre, him, htRaw_scale hc]

theorem htRun_scale {c : K} (hc : c ≠ 0) (y : ℕ → K) (start k : ℕ) :
    Spec.htRun T (fun j => c * y j) start k = (Spec.htRun T y start k).scale c := by
  induction k with
  | zero => simp [Spec.htRun, Spec.Ht.zero, Spec.Ht.scale]
  | succ k ih =>
    simp only [Spec.htRun]
    rw [ih]
    exact htNext_scale hc _ _

theorem htBars_scale {c : K} (hc : c ≠ 0) (y : ℕ → K) (start k : ℕ) :
    Spec.htBars T (Spec.htRun T (fun j => c * y j) start k) = Spec.htBars T (Spec.htRun T y start k) := by
  rw [htRun_scale hc]; rfl

theorem htComp_scale (c : K) (w : K → K) (y : ℕ → K) (j d : ℕ) :
    Spec.htComp T w (fun j => c * y j) j d = c * Spec.htComp T w y j d := by
  unfold Spec.htComp
  rw [Finset.mul_sum]
  apply Finset.sum_congr rfl
  intros; ring

theorem htPhase_scale {c : K} (hc : 0 < c) (sm re im prev : K) :
    Spec.htPhase T sm (c * re) (c * im) prev = Spec.htPhase T sm re im prev := by
  unfold Spec.htPhase
  have h0 := hc.ne'
  have h1 : c * im < 0 ↔ im < 0 := by
    constructor
    · intro h; by_contra hn; exact absurd h (not_lt.mpr (mul_nonneg hc.le (not_lt.mp hn)))
    · intro h; exact mul_neg_of_pos_of_neg hc h
  have h2 : c * re < 0 ↔ re < 0 := by
    constructor
    · intro h; by_contra hn; exact absurd h (not_lt.mpr (mul_nonneg hc.le (not_lt.mp hn)))
    · intro h; exact mul_neg_of_pos_of_neg hc h
  have h3 : 0 < c * re ↔ 0 < re := mul_pos_iff_of_pos_left hc
  have h4 : c * im ≠ 0 ↔ im ≠ 0 := by simp [h0]
  rw [mul_div_mul_left _ _ h0]
  simp only [h1, h2, h3, h4]

theorem htPhRun_scale {c : K} (hc : 0 < c) (y : ℕ → K) (start k : ℕ) :
    Spec.htPhRun T (fun j => c * y j) start k = Spec.htPhRun T y start k := by
  induction k with
  | zero => rfl
  | succ k ih =>
    simp only [Spec.htPhRun]
    rw [ih, htBars_scale hc.ne', htComp_scale, htComp_scale, htRun_scale hc.ne', htPhase_scale hc]
    rfl

theorem htItRun_scale {c : K} (hc : c ≠ 0) (y x : ℕ → K) (start k : ℕ) :
    Spec.htItRun T (fun j => c * y j) (fun j => c * x j) start k = c * Spec.htItRun T y x start k := by
  cases k with
  | zero => simp [Spec.htItRun]
  | succ k =>
    simp only [Spec.htItRun, Spec.htMean]
    rw [htBars_scale hc]
    split_ifs
    · simp
    · unfold Spec.winMean Spec.winSum
      rw [← Finset.mul_sum, mul_div_assoc]

theorem htTlRun_scale {c : K} (hc : c ≠ 0) (y x : ℕ → K) (start k : ℕ) :
    Spec.htTlRun T (fun j => c * y j) (fun j => c * x j) start k = c * Spec.htTlRun T y x start k := by
  unfold Spec.htTlRun
  simp only [htItRun_scale hc]
  ring

theorem htSinRun_scale {c : K} (hc : 0 < c) (y : ℕ → K) (start k : ℕ) :
    Spec.htSinRun T (fun j => c * y j) start k = Spec.htSinRun T y start k ∧
    Spec.htLeadRun T (fun j => c * y j) start k = Spec.htLeadRun T y start k := by
  cases k with
  | zero => exact ⟨rfl, rfl⟩
  | succ k => exact ⟨by simp only [Spec.htSinRun, htPhRun_scale hc], by simp only [Spec.htLeadRun, htPhRun_scale hc]⟩

theorem htCross_scale {c : K} (hc : 0 < c) (y : ℕ → K) (start k : ℕ) :
    Spec.htCross T (fun j => c * y j) start k ↔ Spec.htCross T y start k := by
  unfold Spec.htCross
  rw [(htSinRun_scale hc y start k).1, (htSinRun_scale hc y start k).2, (htSinRun_scale hc y start (k + 1)).1,
    (htSinRun_scale hc y start (k + 1)).2]

theorem htDays_scale {c : K} (hc : 0 < c) (y : ℕ → K) (start k : ℕ) :
    Spec.htDays T (fun j => c * y j) start k = Spec.htDays T y start k := by
  induction k with
  | zero => rfl
  | succ k ih =>
    unfold Spec.htDays
    rw [ih]
    have hd := htCross_scale (T := T) hc y start k
    by_cases hR : Spec.htCross T y start k
    · rw [if_pos hR, if_pos (hd.mpr hR)]
    · rw [if_neg hR, if_neg (fun h => hR (hd.mp h))]

theorem htTrendRun_scale {c : K} (hc : 0 < c) (y x : ℕ → K) (start k : ℕ) :
    Spec.htTrendRun T (fun j => c * y j) (fun j => c * x j) start k = Spec.htTrendRun T y x start k := by
  cases k with
  | zero => rfl
  | succ k =>
    simp only [Spec.htTrendRun]
    have : Spec.htTrending T (fun j => c * y j) (fun j => c * x j) start k ↔ Spec.htTrending T y x start k := by
      unfold Spec.htTrending
      simp only []
      rw [htRun_scale hc.ne', htTlRun_scale hc.ne', htPhRun_scale hc, htPhRun_scale hc, htCross_scale hc,
        htDays_scale hc, mul_div_mul_left _ _ hc.ne']
      simp only [ne_eq, mul_eq_zero, hc.ne', false_or]
      rfl
    by_cases hR : Spec.htTrending T y x start k
    · rw [if_pos hR, if_pos (this.mpr hR)]
    · rw [if_neg hR, if_neg (fun h => hR (this.mp h))]

theorem htPrice_scale (c : K) (x : ℕ → K) (o start : ℕ) :
    Spec.htPrice (fun j => c * x j) o start = fun j => c * Spec.htPrice x o start j := by
  funext j
  unfold Spec.htPrice Spec.htWeighted
  split_ifs
  · simp
  · ring

/-- **C73** prices in another unit: if all prices are multiplied with `c > 0`, dominant period, phase, sine waves and
trend mode stay the same; trend line and phasor components are multiplied with `c`. -/
theorem C73_unit (hF : F.Agrees T) (hT : T.Ok) (h : Holds a n m x) {c : K} (hc : 0 < c) {a' : Line (Ext K)}
    (h' : Holds a' n m (fun i => c * x i)) (i : ℕ) (hi : i < n) :
    (Ind.htDcperiod F a').series[i]? = (Ind.htDcperiod F a).series[i]? ∧
    (Ind.htDcphase F a').series[i]? = (Ind.htDcphase F a).series[i]? ∧
    (Ind.htSine F a').series[i]? = (Ind.htSine F a).series[i]? ∧
    (Ind.htLeadsine F a').series[i]? = (Ind.htLeadsine F a).series[i]? ∧
    (Ind.htTrendmode F a').series[i]? = (Ind.htTrendmode F a).series[i]? ∧
    (m + 63 ≤ i + 1 → ∃ v : K, (Ind.htTrendline F a).series[i]? = some (fin v) ∧
      (Ind.htTrendline F a').series[i]? = some (fin (c * v))) ∧
    (m + 32 ≤ i + 1 → ∃ v w : K, (Ind.htInphase F a).series[i]? = some (fin v) ∧
      (Ind.htInphase F a').series[i]? = some (fin (c * v)) ∧
      (Ind.htQuadrature F a).series[i]? = some (fin w) ∧ (Ind.htQuadrature F a').series[i]? = some (fin (c * w))) := by
  refine ⟨same_bar (C40_dcperiod hF hT h') (C40_dcperiod hF hT h) hi hi fun hM => ?_,
    same_bar (C41_dcphase hF hT h') (C41_dcphase hF hT h) hi hi fun hM => ?_,
    same_bar (C41_sine hF hT h') (C41_sine hF hT h) hi hi fun hM => ?_,
    same_bar (C41_leadsine hF hT h') (C41_leadsine hF hT h) hi hi fun hM => ?_,
    same_bar (C41_trendmode hF hT h') (C41_trendmode hF hT h) hi hi fun hM => ?_,
    fun hM => ⟨_, (C41_trendline hF hT h).val i hM hi, ?_⟩,
    fun hM => ⟨_, _, (C40_inphase hF hT h).val i hM hi, ?_, (C40_quadrature hF hT h).val i hM hi, ?_⟩⟩
  · unfold Spec.htAt; rw [htPrice_scale, htRun_scale hc.ne']; rfl
  · unfold Spec.htPhAt; rw [htPrice_scale, htPhRun_scale hc]
  · unfold Spec.htPhAt; rw [htPrice_scale, htPhRun_scale hc]
  · unfold Spec.htPhAt; rw [htPrice_scale, htPhRun_scale hc]
  · rw [htPrice_scale, htTrendRun_scale hc]
  · rw [(C41_trendline hF hT h').val i hM hi]
    unfold Spec.htTlAt
    simp only []
    rw [htPrice_scale, htTlRun_scale hc.ne']
  · rw [(C40_inphase hF hT h').val i hM hi]
    unfold Spec.htAt
    simp only []
    rw [htPrice_scale, htRun_scale hc.ne']
    rfl
  · rw [(C40_quadrature hF hT h').val i hM hi]
    unfold Spec.htAt
    simp only []
    rw [htPrice_scale, htRun_scale hc.ne']
    rfl

end outputs

/-! ### the hypotheses can be met: the functions of the real numbers -/

/-- the real functions -/
noncomputable def realTrig : Spec.Trig ℝ where
  atan := Real.arctan
  sin := Real.sin
  cos := Real.cos
  int := fun x => ⌊x⌋₊
  deg := 180 / Real.pi

theorem realTrig_ok : realTrig.Ok where
  deg := by
    have := Real.pi_pos
    show 0 < 180 / Real.pi
    positivity
  atan := by
    intro x hx
    show Real.arctan x ≠ 0
    rwa [Ne, Real.arctan_eq_zero_iff]
  int := fun x hx => ⟨Nat.floor_le hx, Nat.lt_floor_add_one x⟩

theorem realTrig_atan (t : ℝ) : -90 < realTrig.atan t * realTrig.deg ∧ realTrig.atan t * realTrig.deg < 90 := by
  have hp := Real.pi_pos
  show -90 < Real.arctan t * (180 / Real.pi) ∧ Real.arctan t * (180 / Real.pi) < 90
  have h1 := Real.neg_pi_div_two_lt_arctan t
  have h2 := Real.arctan_lt_pi_div_two t
  constructor
  · rw [mul_div_assoc', lt_div_iff₀ hp]; linarith
  · rw [mul_div_assoc', div_lt_iff₀ hp]; linarith

theorem realTrig_sin (t : ℝ) : -1 ≤ realTrig.sin t ∧ realTrig.sin t ≤ 1 := ⟨Real.neg_one_le_sin t, Real.sin_le_one t⟩

example (x : ℕ → ℝ) : Shows (Ind.htDcphase (HtFns.ofTrig realTrig) (bars 100 x)) 100 64
    (fun i => Spec.htPhAt realTrig (Spec.htPrice x 6 31) 31 (i - 6)) :=
  C41_dcphase (HtFns.ofTrig_agrees _) realTrig_ok (bars_holds 100 x)

example (x : ℕ → ℝ) : (Ind.htTrendmode (HtFns.ofTrig realTrig) (bars 100 fun i => 25 * x i)).series[80]? =
    (Ind.htTrendmode (HtFns.ofTrig realTrig) (bars 100 x)).series[80]? :=
  (C73_unit (HtFns.ofTrig_agrees _) realTrig_ok (bars_holds 100 x) (by norm_num : (0 : ℝ) < 25)
    (bars_holds 100 fun i => 25 * x i) 80 (by norm_num)).2.2.2.2.1

end exact
end Bta
