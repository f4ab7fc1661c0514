import Verif.Props.Ht
import Verif.Props.Kama

/-!
# C74 — the MESA adaptive moving average
-/

set_option linter.unusedSectionVars false
set_option linter.unusedVariables false

namespace Spec
variable {K : Type} [Field K] [LinearOrder K]

/-- phase (in degrees) of the running values -/
def mesaPhase (T : Trig K) (s : Ht K) : K := if s.i1 0 = 0 then 0 else T.deg * T.atan (s.q1 0 / s.i1 0)

/-- phase at bar `i` of prices `x` which start at bar `b`; it counts as 0 before bar `b + 12` -/
def mesaAngle (T : Trig K) (x : ℕ → K) (b i : ℕ) : K :=
  if i < b + 12 then 0 else mesaPhase T (htAt T (htPrice x (b + 6) 6) 6 (i - (b + 6)))

/-- smoothing factor: the fast limit divided by the rate of change of the phase (at least 1 degree per bar), but at least the
slow limit -/
def mesaAlpha (T : Trig K) (fast slow : K) (x : ℕ → K) (b i : ℕ) : K :=
  max (fast / max (mesaAngle T x b (i - 1) - mesaAngle T x b i) 1) slow

end Spec

namespace Bta
open Line Ext

section generic
variable {V : Type} [PyFloat V]

/-- `_period(-1, val=v)` -/
theorem repW_period_neg {l : Line V} {n m : ℕ} {g : ℕ → V} (h : RepW l n m g) (hm : 2 ≤ m) (v : V) :
    RepW (period (-1) (some v) l) n (m - 1) (fun i => if i + 2 = m then v else g i) := by
  have hl : l.series.length = n := h.len
  have hs : (period (-1) (some v) l).series
      = l.series.take (min (m - 2) n) ++ List.replicate (min (m - 1) n - min (m - 2) n) v
        ++ l.series.drop (max (min (m - 2) n) (min (m - 1) n)) := by
    unfold period
    rw [if_neg (by omega)]
    simp only []
    rw [if_pos (by omega)]
    unfold pyFill
    rw [h.mp, h.len, pyStart_pred _ (by omega), show (m : Int) - 1 + -1 = ((m - 2 : ℕ) : Int) from by omega, pyStart_nat]
  have hlen : (l.series.take (min (m - 2) n)).length = min (m - 2) n := by rw [List.length_take, hl]; omega
  refine { len := ?_, mp := ?_, pos := by omega, val := ?_ }
  · rw [hs]; simp [hl]; omega
  · unfold period
    rw [if_neg (by omega)]
    simp only [h.mp]
    omega
  · intro i h1 h2
    rw [hs]
    by_cases hi : i + 2 = m
    · rw [if_pos hi, List.getElem?_append_left (by rw [List.length_append, hlen, List.length_replicate]; omega),
        List.getElem?_append_right (by rw [hlen]; omega), List.getElem?_replicate, if_pos (by rw [hlen]; omega)]
    · rw [if_neg hi, List.getElem?_append_right (by simp [hl]; omega)]
      rw [List.getElem?_drop, List.length_append, List.length_replicate, hlen, ← h.val i (by omega) h2]
      congr 1
      omega

end generic

section exact
variable {K : Type} [Field K] [LinearOrder K] [IsStrictOrderedRing K]
variable {a al : Line (Ext K)} {n m A : ℕ} {x : ℕ → K} {d : ℕ → Ext K}

/-- smoothing with a line of factors, seed 0 -/
theorem ewmDyn_zero {pval : Int} (ha : Holds a n m x) (hal : RepW al n A d) (h2 : 2 ≤ A) (hmA : m ≤ A) (hn : A - 1 ≤ n)
    (hp2 : ({ pval := pval, seed := .zero, alphaP := (A : Int) } : EwmCfg).p2 m = ((A - 1 : ℕ) : Int))
    (hmp : max ((m : Int) + (pval - 0 - 1)) (A : Int) = (A : Int)) :
    Gives (ewmDyn { pval := pval, seed := .zero } al a) fun r => Delivers r n A fun i =>
      adaptV d (fun i => fin (x i)) (A - 2) (fin 0) (i - (A - 2)) := by
  unfold ewmDyn
  simp only [hal.mp]
  rw [ewmNew_ok (P2 := A - 1) (by rw [ha.mp]; exact hp2) (by omega) (by rw [ha.len]; exact hn)]
  have hseed : ∀ p1 p2 p3, seedVal Seed.zero a.series p1 p2 p3 = fin 0 := fun _ _ _ => by
    show (lit 0 : Ext K) = _
    simp
  simp only [hseed]
  have hal' : pyFrom al.series ((A : Int) - 1) = tail n (A - 1) d := by
    rw [show ((A : Int) - 1) = ((A - 1 : ℕ) : Int) from by omega]
    unfold pyFrom
    rw [pyStart_nat, hal.len, Nat.min_eq_left hn]
    exact drop_tail hal (by omega)
  have hdyn : dynAlpha (pyFrom al.series ((A : Int) - 1)) (prepL (fin 0 :: a.series.drop (A - 1))) =
      .ok (tail n (A - 2) fun i => if i = A - 2 then nan else adaptV d (fun i => fin (x i)) (A - 2) (fin 0) (i - (A - 2))) := by
    rw [drop_tail ha (by omega), prepL_cons_tail, hal']
    unfold dynAlpha
    simp only []
    have := dynGo_tail d (fun i => (fin (x i) : Ext K)) (A - 2) (fin 0) (n := n) (n - (A - 1)) 0 (by omega)
    rw [show A - 2 + 0 + 1 = A - 1 from by omega] at this
    rw [show (fin 0 : Ext K) = adaptV d (fun i => (fin (x i) : Ext K)) (A - 2) (fin 0) 0 from rfl, this]
    simp only []
    rw [tail_cons (k := A - 2) _ (by omega), if_pos rfl, show A - 2 + 1 = A - 1 from by omega]
    congr 2
    refine tail_ext (by simp) fun j hj => ?_
    rw [if_neg (by omega), tail_get _ _ _ _ hj]; rfl
  unfold ewmCall
  simp only [hdyn]
  rw [if_pos (by rw [pyStart_pred _ (by omega), ha.len, tail_length]; omega)]
  refine Gives.ok ?_
  rw [ha.mp, hmp, clone_mp_pos (by omega), ha.len]
  refine (Rep.build (M := A - 1) (m := A) (by omega) (by omega) (fun i h1 h2 _ => ?_) rfl rfl).congr rfl
    fun i h1 h2 => if_neg (by omega)
  exact if_pos (by omega)

variable {F : HtFns (Ext K)} {T : Spec.Trig K} {arctan : Ext K → Ext K}

/-- what is assumed about numpy's `arctan` -/
structure ArctanOk (arctan : Ext K → Ext K) (T : Spec.Trig K) : Prop where
  fin : ∀ t, arctan (Ext.fin t) = Ext.fin (T.atan t)
  nan : arctan Ext.nan = Ext.nan

/-- the phase line of mama -/
theorem mesa_phase (hF : F.Agrees T) (hT : T.Ok) (hA : ArctanOk arctan T) (h : Holds a n m x) :
    Holds (rmulS F.rad2deg (mapOp (fun x => if isNaN x then lit 0 else x) (mapOp arctan
      (Ind.maskL (period 6 none (apply (fun price =>
          Ind.htBuf 6 price.length (Ind.htStep F (Ind.htZero 6 price)) (fun s => Ind.htAt s.q1 6) Ind.HtSt.init) nan (Ind.htSmooth a)))
        (binopS (fun x c => eqv x c) true (apply (fun price =>
          Ind.htBuf 6 price.length (Ind.htStep F (Ind.htZero 6 price)) (fun s => Ind.htAt s.i1 6) Ind.HtSt.init) nan (Ind.htSmooth a)) (lit 0))
        / (apply (fun price =>
          Ind.htBuf 6 price.length (Ind.htStep F (Ind.htZero 6 price)) (fun s => Ind.htAt s.i1 6) Ind.HtSt.init) nan (Ind.htSmooth a))))))
      n (m + 12) (fun i => Spec.mesaPhase T (Spec.htAt T (Spec.htPrice x (m + 5) 6) 6 (rel m i))) := by
  have hpos := h.pos
  have loop : ∀ (out : Ind.HtSt (Ext K) → Ext K) (v : Spec.Ht K → K), (∀ s, out (Ind.emb s) = fin (v s)) →
      RepW (apply (fun price => Ind.htBuf 6 price.length (Ind.htStep F (Ind.htZero 6 price)) out Ind.HtSt.init) nan
        (Ind.htSmooth a)) n (m + 6) (fun i => if rel m i < 6 then lit 0 else
          fin (v (Spec.htAt T (Spec.htPrice x (m + 5) 6) 6 (rel m i)))) := by
    intro out v hv
    have e := rep_apply (fill := (nan : Ext K))
      (F := fun price => Ind.htBuf 6 price.length (Ind.htStep F (Ind.htZero 6 price)) out Ind.HtSt.init)
      (htSmooth_holds h)
      (by
        simp only [tail_length]
        rw [Ind.emb_zero]
        exact Ind.htBuf_tail (st := fun k => Ind.emb (Spec.htRun T (Spec.htPrice x (m + 5) 6) 6 k))
          (fun k hk => Ind.htStep_emb hF hT (sees_price n m 6 x) hk (by omega) _))
    refine e.toRepW.congr rfl fun i h1 h2 => ?_
    rw [hv]
    rfl
  have hi := loop (fun s => Ind.htAt s.i1 6) (fun s => s.i1 0) (fun s => rfl)
  have hq := repW_period_none (inc := 6) (loop (fun s => Ind.htAt s.q1 6) (fun s => s.q1 0) (fun s => rfl)) (by omega)
  have he := (rep_binopS (f := fun (x c : Ext K) => eqv x c) (fill := true) (c := lit 0) hi).toRepW
  have hmask := rep_stdop2 (F := List.zipWith fun (x : Ext K) (b : Bool) => if b then lit 0 else x) (fill := nan) hq he
    (zipWith_tail _ _ _ _ _)
  have hd := rep_div hmask.toRepW hi
  have := rep_rmulS (rep_mapOp (f := fun x => if isNaN x then lit 0 else x) (rep_mapOp (f := arctan) hd.toRepW).toRepW).toRepW
    F.rad2deg
  refine this.toRepW.congr (by omega) fun i h1 h2 => ?_
  clear this hd hmask he hq hi loop
  have hl : ¬ rel m i < 6 := by simp only [rel]; omega
  have h0 : (lit 0 : Ext K) = fin 0 := by simp
  simp only [if_neg hl, hF.deg, h0]
  unfold Spec.mesaPhase
  generalize Spec.htAt T (Spec.htPrice x (m + 5) 6) 6 (rel m i) = s
  by_cases hz : s.i1 0 = 0
  · rw [if_pos hz, hz, if_pos (show eqv (fin 0 : Ext K) (fin 0) = true by simp), Ext.fin_div_zero]
    simp [infSign, hA.nan]
  · rw [if_neg hz]
    have : ¬ eqv (fin (s.i1 0) : Ext K) (fin 0) = true := by simpa using hz
    simp only [if_neg this, Ext.fin_div _ hz, hA.fin]
    simp

/-- the smoothing factors -/
theorem mesa_alpha (hF : F.Agrees T) (hT : T.Ok) (hA : ArctanOk arctan T) (h : Holds a n m x) {fast slow : K} {ph : Line (Ext K)}
    (hph : Holds ph n (m + 12) (fun i => Spec.mesaPhase T (Spec.htAt T (Spec.htPrice x (m + 5) 6) 6 (rel m i)))) :
    Holds ((rdivS (fin fast) ((ago (-1) (period (-1) (some (lit 0)) ph) - period (-1) (some (lit 0)) ph).clipLoS (lit 1))).clipLoS (fin slow))
      n (m + 12) (Spec.mesaAlpha T fast slow x (m - 1)) := by
  have hpos := h.pos
  have h0 : (lit 0 : Ext K) = fin 0 := by simp
  have h1 : (lit 1 : Ext K) = fin 1 := by simp
  rw [h0, h1]
  have hp : Holds (period (-1) (some (fin 0)) ph) n (m + 11) (Spec.mesaAngle T x (m - 1)) := by
    refine (repW_period_neg hph (by omega) (fin 0)).congr (by omega) fun i h1 h2 => ?_
    unfold Spec.mesaAngle
    by_cases hi : i + 2 = m + 12
    · rw [if_pos hi, if_pos (by omega)]
    · rw [if_neg hi, if_neg (by omega), show m - 1 + 6 = m + 5 from by omega]
  have hg := Holds.sub (Holds.ago hp (s := 1) (by omega)).toRepW hp
  have hc := Holds.clipLoS hg.toRepW 1
  have hr := rep_rdivS hc.toRepW (fin fast)
  have hr' : Holds (rdivS (fin fast) ((ago (-1) (period (-1) (some (fin 0)) ph) - period (-1) (some (fin 0)) ph).clipLoS (fin 1)))
      n (m + 12) (fun i => fast / max (Spec.mesaAngle T x (m - 1) (i - 1) - Spec.mesaAngle T x (m - 1) i) 1) := by
    refine hr.toRepW.congr (by omega) fun i _ _ => ?_
    exact Ext.fin_div _ (lt_of_lt_of_le zero_lt_one (le_max_right _ _)).ne'
  exact (Holds.clipLoS hr' slow).toRepW

theorem mesaAlpha_bounds (T : Spec.Trig K) {fast slow : K} (hf : 0 ≤ fast) (x : ℕ → K) (b i : ℕ) :
    slow ≤ Spec.mesaAlpha T fast slow x b i ∧ Spec.mesaAlpha T fast slow x b i ≤ max fast slow := by
  unfold Spec.mesaAlpha
  refine ⟨le_max_right _ _, max_le_max (div_le_self hf (le_max_right _ _)) (le_refl _)⟩

/-- **C74** (partial: prices which start with the first bar): `mama` follows `e := e + alpha_i (x_i - e)` from 0 at bar 11, with
the factors the documentation's reference defines, and `fama` follows `mama` with half the factor, both reported from bar 32
on.  The factors lie between the limits.  Missing: lines with a minimum period above 1, see `C74_raises`. -/
theorem C74_mama_partial (hF : F.Agrees T) (hT : T.Ok) (hA : ArctanOk arctan T) (h : Holds a n 1 x) (hn : 12 ≤ n)
    {fast slow : K} (hf : 0 ≤ fast) :
    Gives (Ind.mama F arctan (fin fast) (fin slow) a) fun r => ∃ al : ℕ → K,
      (∀ i, al i = Spec.mesaAlpha T fast slow x 0 i ∧ slow ≤ al i ∧ al i ≤ max fast slow) ∧
      Shows r.1 n 33 (fun i => Spec.adaptive al x 11 0 (i - 11)) ∧
      Shows r.2 n 33 (fun i => Spec.adaptive (fun i => al i / 2) (fun i => Spec.adaptive al x 11 0 (i - 11)) 11 0 (i - 11)) := by
  unfold Ind.mama
  simp only []
  have hal := mesa_alpha hF hT hA h (fast := fast) (slow := slow) (mesa_phase hF hT hA h)
  generalize (rdivS (fin fast) _).clipLoS (fin slow) = al at *
  have hm := ewmDyn_zero (pval := 1) (A := 13) h hal (by omega) (by omega) (by omega) (by decide) (by decide)
  refine Gives.bind hm fun r hr => ?_
  have hr1 : Shows r n 13 (fun i => Spec.adaptive (Spec.mesaAlpha T fast slow x 0) x 11 0 (i - 11)) :=
    hr.congr rfl fun i h1 h2 => adaptV_fin _ _ _ _ _ _ fun k hk => rfl
  have hh : Holds (al.mulS (lit (1 / 2))) n 13 (fun i => Spec.mesaAlpha T fast slow x 0 i / 2) := by
    refine (rep_mulS hal (lit (1 / 2))).toRepW.congr rfl fun i _ _ => ?_
    simp [div_eq_mul_inv]
  have hm2 := ewmDyn_zero (pval := 0) (A := 13) hr1.toRepW hh (by omega) (by omega) (by omega) (by decide) (by decide)
  refine Gives.bind hm2 fun f hfr => Gives.pure ⟨Spec.mesaAlpha T fast slow x 0,
    fun i => ⟨rfl, mesaAlpha_bounds T hf x 0 i⟩, ?_, ?_⟩
  · exact rep_period_nan (inc := 20) hr1 (by omega)
  · refine rep_period_nan (inc := 20) (hfr.congr rfl fun i h1 h2 => ?_) (by omega)
    exact adaptV_fin _ _ _ _ _ _ fun k hk => rfl

/-- **C74** fails for every line with a minimum period above 1: `mama` raises IndexError, whatever the data. -/
theorem C74_raises (hF : F.Agrees T) (hT : T.Ok) (hA : ArctanOk arctan T) (h : Holds a n m x) (hm : 2 ≤ m)
    {fast slow : K} : Ind.mama F arctan (fin fast) (fin slow) a = .error .indexError := by
  unfold Ind.mama
  simp only []
  have hal := mesa_alpha hF hT hA h (fast := fast) (slow := slow) (mesa_phase hF hT hA h)
  generalize (rdivS (fin fast) _).clipLoS (fin slow) = al at *
  have : ewmDyn { pval := 1, seed := .zero } al a = .error .indexError := by
    unfold ewmDyn
    simp only [hal.mp]
    have hp2 : ({ pval := 1, seed := .zero, alphaP := ((m + 12 : ℕ) : Int) } : EwmCfg).p2 a.minperiod =
        ((m + m + 10 : ℕ) : Int) := by
      unfold EwmCfg.p2
      simp only [h.mp]
      split_ifs <;> omega
    by_cases hn : m + m + 10 ≤ n
    · rw [ewmNew_ok hp2 (by omega) (by rw [h.len]; exact hn)]
      simp only []
      unfold ewmCall
      simp only []
      have : ∀ p1 p2 p3, dynAlpha (pyFrom al.series (((m + 12 : ℕ) : Int) - 1)) (prepL
          (seedVal .zero a.series p1 p2 p3 :: a.series.drop (m + m + 10))) = .error .indexError := by
        intro p1 p2 p3
        unfold prepL
        rw [List.map_cons]
        unfold dynAlpha
        simp only []
        rw [dynGo_short _ _ _ ?_]
        rw [show (((m + 12 : ℕ) : Int) - 1) = ((m + 11 : ℕ) : Int) from by omega]
        unfold pyFrom
        rw [pyStart_nat, List.length_map, List.length_drop, List.length_drop, hal.len, h.len]
        omega
      rw [this]
    · rw [ewmNew_short hp2 (by rw [h.len]; omega) (by simp)]
  rw [this]
  rfl

/-- **C74** (range): with limits between 0 and 1, `mama` and `fama` lie between any bounds of the prices so far which also
enclose 0 - the value both are started with. -/
theorem C74_range (hF : F.Agrees T) (hT : T.Ok) (hA : ArctanOk arctan T) (h : Holds a n 1 x) (hn : 12 ≤ n)
    {fast slow : K} (hf : 0 ≤ fast) (hf1 : fast ≤ 1) (hs : 0 ≤ slow) (hs1 : slow ≤ 1) :
    Gives (Ind.mama F arctan (fin fast) (fin slow) a) fun r => ∀ i, 32 ≤ i → i < n → ∃ u v : K,
      r.1.series[i]? = some (fin u) ∧ r.2.series[i]? = some (fin v) ∧
      ∀ lo hi, lo ≤ 0 → 0 ≤ hi → (∀ j, j ≤ i → lo ≤ x j ∧ x j ≤ hi) → (lo ≤ u ∧ u ≤ hi) ∧ (lo ≤ v ∧ v ≤ hi) := by
  refine (C74_mama_partial hF hT hA h hn hf).imp fun r ⟨al, hal, h1, h2⟩ i hi hin =>
    ⟨_, _, h1.val i (by omega) hin, h2.val i (by omega) hin, fun lo hh hlo hhi hx => ?_⟩
  have hb : ∀ k, 0 ≤ al k ∧ al k ≤ 1 := fun k => ⟨hs.trans (hal k).2.1, (hal k).2.2.trans (max_le hf1 hs1)⟩
  have hu : ∀ j, j ≤ i → lo ≤ Spec.adaptive al x 11 0 (j - 11) ∧ Spec.adaptive al x 11 0 (j - 11) ≤ hh := fun j hj =>
    adaptive_bounds ⟨hlo, hhi⟩ _ fun k h3 h4 => ⟨hb k, hx k (by omega)⟩
  refine ⟨hu i (le_refl i), adaptive_bounds ⟨hlo, hhi⟩ _ fun k h3 h4 => ⟨⟨?_, ?_⟩, hu k (by omega)⟩⟩
  · have := hb k; linarith
  · have := hb k; linarith

theorem adaptive_below {c : ℕ → K} {s : ℕ} {P : K} (hP : 0 < P) (hc : ∀ k, 0 < c k ∧ c k < 1) : ∀ j,
    Spec.adaptive c (fun _ => P) s 0 j < P := by
  intro j
  induction j with
  | zero => exact hP
  | succ j ih =>
    unfold Spec.adaptive
    have := hc (s + j + 1)
    nlinarith

/-- **C74** (unlike the averages in C14): if prices are a positive constant, `mama` is below this constant in every bar, for
all limits between 0 and 1. -/
theorem C74_constant (hF : F.Agrees T) (hT : T.Ok) (hA : ArctanOk arctan T) {P : K} (hP : 0 < P)
    (h : Holds a n 1 (fun _ => P)) (hn : 12 ≤ n) {fast slow : K} (hs : 0 < slow) (hs1 : slow < 1) (hf : 0 ≤ fast) (hf1 : fast < 1) :
    Gives (Ind.mama F arctan (fin fast) (fin slow) a) fun r => ∀ i, 32 ≤ i → i < n → ∃ u : K,
      r.1.series[i]? = some (fin u) ∧ u < P := by
  refine (C74_mama_partial hF hT hA h hn hf).imp fun r ⟨al, hal, h1, h2⟩ i hi hin =>
    ⟨_, h1.val i (by omega) hin, adaptive_below hP (fun k => ⟨hs.trans_le (hal k).2.1, (hal k).2.2.trans_lt (max_lt hf1 hs1)⟩) _⟩

/-- numpy's `arctan` on numbers and NaN -/
noncomputable def realArctan : Ext ℝ → Ext ℝ := (HtFns.ofTrig realTrig).atan

example (n : ℕ) (hn : 12 ≤ n) (P : ℝ) (hP : 0 < P) :
    Gives (Ind.mama (HtFns.ofTrig realTrig) realArctan (fin (1/2)) (fin (1/20)) (bars n fun _ => P)) fun r =>
      ∀ i, 32 ≤ i → i < n → ∃ u : ℝ, r.1.series[i]? = some (fin u) ∧ u < P :=
  C74_constant (HtFns.ofTrig_agrees _) realTrig_ok ⟨fun _ => rfl, rfl⟩ hP (bars_holds n _) hn (by norm_num) (by norm_num)
    (by norm_num) (by norm_num)

end exact
end Bta
