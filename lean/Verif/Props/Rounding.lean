import Verif.Lemmas.Flt
import Verif.Lemmas.Calc
import Verif.Lemmas.Causal

/-!
# C107: ranges in floating point arithmetic

The other properties on values are about exact arithmetic.  Here each operation rounds: `R` is any rounding which keeps the order
(`Rounding`), e.g. IEEE 754 double precision (`binary64`).
-/

set_option linter.unusedSectionVars false
set_option linter.unusedVariables false

namespace Bta
open Line Ind Spec

variable {R : Rounding}

theorem lit_flt (q : ℚ) : (lit q : Flt R) = R.fl q := rfl
theorem sub_flt (a b : Flt R) : (a - b : Flt R) = R.round (Ext.add a (Ext.neg b)) := rfl
theorem add_flt (a b : Flt R) : (a + b : Flt R) = R.round (Ext.add a b) := rfl
theorem mul_flt (a b : Flt R) : (a * b : Flt R) = R.round (Ext.mul a b) := rfl
theorem div_flt (a b : Flt R) : (a / b : Flt R) = R.round (Ext.div a b) := rfl

/-! ## rsi, stochrsi -/

/-- 100 - 100 / (1 + x) -/
theorem rsi_core {x : Flt R} (h : NotNegative x) : Within 0 100 (lit 100 - lit 100 / (lit 1 + x) : Flt R) := by
  have e1 : (lit 1 : Flt R) = Ext.fin 1 := R.fl_one
  have e2 : (lit 100 : Flt R) = Ext.fin 100 := R.fl_hundred
  rcases h with rfl | h
  · left
    show R.round (Ext.add (lit 100 : Flt R) (Ext.neg (R.round (Ext.div (lit 100 : Flt R) (R.round (Ext.add (lit 1 : Flt R) Ext.nan)))))) = _
    rw [e1, e2]; rfl
  · have h1 : Ext.Le (.fin 1) (lit 1 + x : Flt R) := by
      rw [e1]
      refine R.le_round (a := Ext.add (.fin 1) x) R.fl_one ?_
      rcases Ext.nonneg_cases h with rfl | ⟨y, rfl, hy⟩
      · rfl
      · exact Ext.le_fin'.mpr (by linarith)
    generalize (lit 1 + x : Flt R) = w at h1
    have h2 : Within 0 100 (lit 100 / w : Flt R) := by
      refine R.round_within R.fl_zero R.fl_hundred (v := Ext.div (lit 100 : Flt R) w) ?_
      rw [e2]
      rcases Ext.nonneg_cases (Ext.Le.trans (b := .fin 1) (Ext.le_fin'.mpr (by norm_num)) h1) with rfl | ⟨y, rfl, hy⟩
      · exact Or.inr ⟨0, rfl, le_rfl, by norm_num⟩
      · have := Ext.le_fin'.mp h1
        refine Or.inr ⟨100 / y, ?_, by positivity, ?_⟩
        · show (if y = 0 then Ext.infSign 100 else Ext.fin (100 / y)) = _
          rw [if_neg (by linarith)]
        · rw [div_le_iff₀ (by linarith)]; linarith
    generalize (lit 100 / w : Flt R) = z at h2
    refine R.round_within R.fl_zero R.fl_hundred (v := Ext.add (lit 100 : Flt R) (Ext.neg z)) ?_
    rw [e2]
    rcases h2 with rfl | ⟨y, rfl, h3, h4⟩
    · exact Or.inl rfl
    · exact Or.inr ⟨100 + -y, rfl, by linarith, by linarith⟩

end Bta

namespace Spec
open Bta

/-- each bar of the line has a value from `lo` to `hi` or none -/
abbrev InRange {R : Rounding} (lo hi : ℚ) (l : Line (Flt R)) : Prop := EachBar (α := Flt R) (Within lo hi) l

/-- no bar of the line has a negative value -/
abbrev NoneNegative {R : Rounding} (l : Line (Flt R)) : Prop := EachBar (α := Flt R) NotNegative l

/-- an average with period `p` of values which are not negative is not negative -/
def KeepsSign {R : Rounding} (ma : MA (Flt R)) (p : ℕ) : Prop :=
  ∀ a r, NoneNegative a → ma p a = .ok r → NoneNegative r

end Spec

namespace Bta
open Line Ind Spec

variable {R : Rounding}

/-- `smma` and `ema` with any seed are such averages, for all periods, and so is `sma`. -/
theorem keepsSign {p : ℕ} (hp : 1 ≤ p) (s : Seed) (off : ℕ) : KeepsSign (smmaG s : MA (Flt R)) p ∧ KeepsSign (emaG s off : MA (Flt R)) p ∧
    KeepsSign (sma : MA (Flt R)) p := by
  have hq : (0 : ℚ) ≤ (p : ℚ) - 1 := by
    have : (1 : ℚ) ≤ p := by exact_mod_cast hp
    linarith
  refine ⟨?_, ?_, ?_⟩
  · intro a r ha h
    have := alphaOfCom_nn (R := R) (com := lit ((p : ℚ) - 1)) (R.le_round (a := .fin _) R.fl_zero (Ext.le_fin'.mpr hq))
    exact nn_ewmMean this.1 this.2 ha h
  · intro a r ha h
    have h1 : Ext.Le (.fin 0) (comOfSpan (lit p) : Flt R) := by
      unfold comOfSpan
      have e1 : (lit 1 : Flt R) = Ext.fin 1 := R.fl_one
      have e2 : (lit 2 : Flt R) = Ext.fin 2 := R.fl_nat 2 (by simp) (by norm_num)
      have h3 : Ext.Le (.fin 1) (lit p : Flt R) := R.le_round (a := .fin _) R.fl_one (Ext.le_fin'.mpr (by linarith))
      generalize (lit (p : ℚ) : Flt R) = w at h3
      have h2 : Ext.Le (.fin 0) (w - lit 1 : Flt R) := by
        refine R.le_round (a := Ext.add w (Ext.neg (lit 1 : Flt R))) R.fl_zero ?_
        rw [e1]
        rcases Ext.nonneg_cases (Ext.Le.trans (b := .fin 1) (Ext.le_fin'.mpr (by norm_num)) h3) with rfl | ⟨y, rfl, hy⟩
        · rfl
        · exact Ext.le_fin'.mpr (by have := Ext.le_fin'.mp h3; linarith)
      generalize (w - lit 1 : Flt R) = u at h2
      refine R.le_round (a := Ext.div u (lit 2 : Flt R)) R.fl_zero ?_
      rw [e2]
      rcases Ext.nonneg_cases h2 with rfl | ⟨y, rfl, hy⟩
      · show Ext.Le _ (if (2 : ℚ) < 0 then Ext.ninf else Ext.pinf)
        rw [if_neg (by norm_num)]; rfl
      · show Ext.Le _ (if (2 : ℚ) = 0 then Ext.infSign y else Ext.fin (y / 2))
        rw [if_neg (by norm_num)]
        exact Ext.le_fin'.mpr (by positivity)
    have := alphaOfCom_nn h1
    exact nn_ewmMean this.1 this.2 ha h
  · intro a r ha h
    injection h with h
    subst h
    refine each_rolling (V := Flt R) hp nn_nan fun win _ hw => ?_
    unfold aggMean whenAllFin
    split
    · exact nn_div (nn_sumV fun x hx => ha x (hw x hx)) (nn_lit (by positivity))
    · exact nn_nan

/-- **C107** the relative strength index is from 0 to 100 at each bar, for any data (with missing and infinite values), any look-back and
any average which keeps the sign, however results are rounded. -/
theorem C107_rsi {ma : MA (Flt R)} {p : ℕ} (hm : KeepsSign ma p) (lookback : ℕ) (a : Line (Flt R)) {r : Line (Flt R)}
    (h : rsi ma lookback p a = .ok r) : InRange 0 100 r := by
  have hu : NoneNegative ((diff lookback a).clipLoS (lit 0)) := each_mapOp (V := Flt R) nn_nan (fun x _ => nn_clipLo x) each_true
  have hd : NoneNegative ((diff lookback a).clipHiS (lit 0)).abs := each_mapOp (V := Flt R) nn_nan (fun x _ => nn_absv x) each_true
  simp only [rsi, bind, Except.bind, pure, Except.pure] at h
  split at h
  · exact nomatch h
  · rename_i u hu'
    split at h
    · exact nomatch h
    · rename_i d hd'
      injection h with h
      subst h
      have hu2 := hm _ _ hu hu'
      have hd2 := hm _ _ hd hd'
      have h1 : NoneNegative (u / d) := each_binop nn_nan (fun x y hx hy => nn_div hx hy) hu2 hd2
      have step : EachBar (fun v : Flt R => Within 0 100 (lit 100 - lit 100 / v : Flt R)) (raddS (lit 1) (u / d)) := by
        refine each_binopS ?_ (fun x hx => rsi_core hx) h1
        left
        have e2 : (lit 100 : Flt R) = Ext.fin 100 := R.fl_hundred
        rw [e2]; rfl
      have step2 : EachBar (fun v : Flt R => Within 0 100 (lit 100 - v : Flt R)) (rdivS (lit 100) (raddS (lit 1) (u / d))) := by
        refine each_binopS ?_ (fun x hx => hx) step
        left
        have e2 : (lit 100 : Flt R) = Ext.fin 100 := R.fl_hundred
        rw [e2]; rfl
      exact each_binopS (γ := Flt R) (Or.inl rfl) (fun x hx => hx) step2

/-- **C107** with the default average, in double precision -/
theorem C107_rsi_binary64 {p : ℕ} (hp : 1 ≤ p) (a : Line (Flt binary64)) {r : Line (Flt binary64)} (h : rsi smma 1 p a = .ok r) :
    InRange 0 100 r :=
  C107_rsi (keepsSign hp .avg 0).1 1 a h

theorem each_of_rep {V : Type} {fill : V} {l : Line V} {n m : ℕ} {g : ℕ → V} {P : V → Prop} (h : Rep fill l n m g) (hf : P fill)
    (hg : ∀ i, m ≤ i + 1 → i < n → P (g i)) : EachBar P l := by
  intro v hv
  obtain ⟨i, hi, e⟩ := List.getElem_of_mem hv
  have hn : i < n := by rw [← h.len]; exact hi
  have e' : l.series[i]? = some v := by rw [List.getElem?_eq_getElem hi, e]
  by_cases hm : i + 1 < m
  · rw [h.pre i hm hn] at e'
    injection e' with e'; rw [← e']; exact hf
  · rw [h.val i (by omega) hn] at e'
    injection e' with e'; rw [← e']; exact hg i (by omega) hn

/-- any line in terms of its values -/
theorem repW_self {V : Type} (l : Line V) (d : V) {m : ℕ} (hm : l.minperiod = m) (h1 : 1 ≤ m) :
    RepW l l.series.length m (fun i => l.series[i]?.getD d) where
  len := rfl
  mp := hm
  pos := h1
  val := by
    intro i _ hi
    rw [List.getElem?_eq_getElem hi]; rfl

/-- the difference of two values of a window is not more than the range of the window -/
theorem sub_le_range {R : Rounding} {x lo hi : ℚ} {a b c : Flt R} (ha : a = Ext.fin x) (hb : b = Ext.fin lo) (hc : c = Ext.fin hi)
    (h1 : lo ≤ x) (h2 : x ≤ hi) : Ext.Le (.fin 0) (a - b : Flt R) ∧ Ext.Le (a - b : Flt R) (c - b : Flt R) := by
  subst ha hb hc
  constructor
  · exact R.le_round (a := .fin (x + -lo)) R.fl_zero (Ext.le_fin'.mpr (by linarith))
  · exact R.round_mono (a := .fin (x + -lo)) (b := .fin (hi + -lo)) (Ext.le_fin'.mpr (by linarith))

theorem ratio_flt {a b : Flt R} (h1 : Ext.Le (.fin 0) a) (h2 : Ext.Le a b) : Within 0 1 (a / b : Flt R) := by
  refine R.round_within R.fl_zero R.fl_one (v := Ext.div a b) ?_
  have h3 := h1.trans h2
  have h4 : Ext.Le (Ext.neg b) a := by
    have := h3.neg
    rw [show Ext.neg (.fin (0 : ℚ)) = .fin 0 from by simp [Ext.neg]] at this
    exact this.trans h1
  rcases Ext.ratio h4 h2 with h | ⟨_, h⟩
  · exact Or.inl h
  · rcases Ext.nn_div h1 h3 with h' | h'
    · exact Or.inl h'
    · exact Ext.within_of_le h' h

theorem mul_lit_within {k : ℕ} (hk : k ≤ 2 ^ 24) {v : Flt R} (h : Within 0 1 v) : Within 0 k (v * lit k : Flt R) := by
  have e : (lit (k : ℚ) : Flt R) = Ext.fin (k : ℚ) := R.nat k hk
  refine R.round_within R.fl_zero (R.nat k hk) (v := Ext.mul v (lit k : Flt R)) ?_
  rw [e]
  rcases h with rfl | ⟨x, rfl, h1, h2⟩
  · exact Or.inl rfl
  · have : (0 : ℚ) ≤ k := by positivity
    exact Or.inr ⟨x * k, rfl, by positivity, mul_le_of_le_one_left this h2⟩

/-- the extremes of a window with the current value -/
theorem window_cases (g : ℕ → Flt R) {p i : ℕ} (hp : 1 ≤ p) (hi : p ≤ i + 1) :
    (aggMax (wnd g p i) = (nan : Flt R) ∧ aggMin (wnd g p i) = (nan : Flt R)) ∨
    ∃ x lo hi : ℚ, g i = Ext.fin x ∧ aggMax (wnd g p i) = (Ext.fin hi : Flt R) ∧ aggMin (wnd g p i) = (Ext.fin lo : Flt R) ∧ lo ≤ x ∧ x ≤ hi := by
  by_cases hall : (wnd g p i).all isFin = true
  · right
    have hf : ∀ j, j < p → ∃ x, g (i - j) = Ext.fin x := by
      intro j hj
      have := List.all_eq_true.mp hall _ ((mem_wnd hi).mpr ⟨j, hj, rfl⟩)
      generalize g (i - j) = v at this
      cases v with
      | fin x => exact ⟨x, rfl⟩
      | _ => exact nomatch this
    let x : ℕ → ℚ := fun j => match g j with | Ext.fin x => x | _ => 0
    have hx : ∀ j, j < p → g (i - j) = Ext.fin (x (i - j)) := by
      intro j hj
      obtain ⟨y, hy⟩ := hf j hj
      simp only [x, hy]; rfl
    have hw : wnd g p i = wnd (fun i => (Ext.fin (x i) : Flt R)) p i := by
      unfold wnd
      refine List.map_congr_left fun j hj => ?_
      have := List.mem_range.mp hj
      have := hx (p - 1 - j) (by omega)
      rw [show i + 1 - p + j = i - (p - 1 - j) from by omega]
      exact this
    rw [hw]
    exact ⟨x i, winMin x p i, winMax x p i, hx 0 (by omega), aggMax_wnd x hp hi, aggMin_wnd x hp hi, winMin_le x (by omega : 0 < p),
      le_winMax x (by omega : 0 < p)⟩
  · left
    unfold aggMax aggMin whenAllFin
    rw [if_neg hall, if_neg hall]
    exact ⟨rfl, rfl⟩

theorem rsi_minperiod {ma : MA (Flt R)} {p k : ℕ} {a r : Line (Flt R)} (hm : ∀ a r, ma p a = .ok r → 1 ≤ r.minperiod)
    (h : rsi ma k p a = .ok r) : 1 ≤ r.minperiod := by
  simp only [rsi, bind, Except.bind, pure, Except.pure] at h
  split at h
  · exact nomatch h
  · rename_i u hu'
    split at h
    · exact nomatch h
    · rename_i d hd'
      injection h with h
      subst h
      have h1 := hm _ _ hu'
      have h2 := hm _ _ hd'
      have e : ∀ (f : Flt R → Flt R → Flt R) (l : Line (Flt R)) (c : Flt R), 1 ≤ l.minperiod → 1 ≤ (binS f l c).minperiod := by
        intro f l c hl
        show 1 ≤ (if max l.minperiod 1 = 0 then l.minperiod else max l.minperiod 1)
        split <;> omega
      refine e (fun x c => c - x) _ (lit 100) (e (fun x c => c / x) _ (lit 100) (e (fun x c => c + x) _ (lit 1) ?_))
      show 1 ≤ (if max u.minperiod d.minperiod = 0 then u.minperiod else max u.minperiod d.minperiod)
      split <;> omega

/-- **C107** StochRSI is from 0 to its scale (1, or 100 with ta-lib compatibility), for any data and however results are rounded. -/
theorem C107_stochrsi {p philo k : ℕ} (hp : 1 ≤ p) (hq : 1 ≤ philo) (hk : k ≤ 2 ^ 24) (a : Line (Flt R)) {r : Line (Flt R)}
    (h : stochrsi p philo (lit k) a = .ok r) : InRange 0 k r := by
  simp only [stochrsi, bind, Except.bind, pure, Except.pure] at h
  split at h
  · exact nomatch h
  · rename_i s hs
    injection h with h
    subst h
    have hmp : 1 ≤ s.minperiod := by
      refine rsi_minperiod (fun a r h => ?_) hs
      simp only [Ind.smma, smmaG, ewmMean] at h
      split at h
      · exact nomatch h
      · unfold ewmCall at h
        simp only at h
        split at h
        · injection h with h
          subst h
          show 1 ≤ (if max (a.minperiod + ((p : ℤ) - 0 - 1)) 1 = 0 then a.minperiod else max (a.minperiod + ((p : ℤ) - 0 - 1)) 1)
          split <;> omega
        · exact nomatch h
    obtain ⟨m, hm⟩ := Int.eq_ofNat_of_zero_le (by omega : 0 ≤ s.minperiod)
    have hr := repW_self s (nan : Flt R) hm (by omega)
    have h1 := rep_rolling (agg := aggMax) hq hr
    have h2 := rep_rolling (agg := aggMin) hq hr
    have h3 := rep_binop (fill := (nan : Flt R)) (f := fun x y : Flt R => x - y) hr h2.toRepW
    have h4 := rep_binop (fill := (nan : Flt R)) (f := fun x y : Flt R => x - y) h1.toRepW h2.toRepW
    have h5 := rep_binop (fill := (nan : Flt R)) (f := fun x y : Flt R => x / y) h3.toRepW h4.toRepW
    refine each_binopS (P := Within 0 1) (Or.inl rfl) (fun x hx => mul_lit_within hk hx) (each_of_rep h5 (Or.inl rfl) fun i h6 h7 => ?_)
    rcases window_cases (fun i => s.series[i]?.getD nan) hq (i := i) (by omega) with ⟨e1, e2⟩ | ⟨x, lo, hi, e0, e1, e2, h8, h9⟩
    · left
      rw [e1, e2]
      cases (s.series[i]?.getD nan : Flt R) <;> rfl
    · have := sub_le_range e0 e2 e1 h8 h9
      exact ratio_flt this.1 this.2

/-! ## aroon -/

theorem argGo_lt {V : Type} (better : V → V → Bool) (xs : List V) : ∀ (best : V) (bi i : ℕ), bi < i → argGo better best bi i xs < i + xs.length := by
  induction xs with
  | nil => intro best bi i h; simpa [argGo] using h
  | cons x xs ih =>
    intro best bi i h
    simp only [argGo, List.length_cons]
    split
    · have := ih x i (i + 1) (by omega); omega
    · have := ih best bi (i + 1) (by omega); omega

theorem aroonComp_within {arg : List (Flt R) → ℕ} (harg : ∀ w, w ≠ [] → arg w < w.length) {p : ℕ} (hp : 100 * p ≤ 2 ^ 24) (a : Line (Flt R)) :
    InRange 0 100 (aroonComp arg p a) := by
  have e2 : (lit 100 : Flt R) = Ext.fin 100 := R.fl_hundred
  have hpe : (lit (p : ℚ) : Flt R) = Ext.fin (p : ℚ) := R.nat p (by omega)
  have h1 : EachBar (fun v : Flt R => v = nan ∨ ∃ k : ℕ, k ≤ p ∧ v = lit k) (rolling (p + 1) (aggApply fun w => lit (arg w.reverse)) a) := by
    refine each_rolling (by omega) (Or.inl rfl) fun win hl _ => ?_
    unfold aggApply whenAllFin
    split
    · right
      have := harg win.reverse (by intro h; have := congrArg List.length h; simp [hl] at this)
      rw [List.length_reverse] at this
      exact ⟨_, by omega, rfl⟩
    · exact Or.inl rfl
  have h2 : EachBar (fun v : Flt R => v = nan ∨ ∃ k : ℕ, k ≤ p ∧ v = Ext.fin (100 * (k : ℚ)))
      (rmulS (lit 100) (rolling (p + 1) (aggApply fun w => lit (arg w.reverse)) a)) := by
    refine each_binopS (γ := Flt R) (Or.inl rfl) (fun x hx => ?_) h1
    rcases hx with rfl | ⟨k, hk, rfl⟩
    · left; rw [e2]; rfl
    · right
      refine ⟨k, hk, ?_⟩
      rw [e2, show (lit (k : ℚ) : Flt R) = Ext.fin (k : ℚ) from R.nat k (by omega)]
      exact R.fl_nat (100 * k) (by push_cast; ring) (by omega)
  have h3 : InRange 0 100 ((rmulS (lit 100) (rolling (p + 1) (aggApply fun w => lit (arg w.reverse)) a)).divS (lit p)) := by
    refine each_binopS (γ := Flt R) (Or.inl rfl) (fun x hx => ?_) h2
    rcases hx with rfl | ⟨k, hk, rfl⟩
    · left; rw [hpe]; rfl
    · refine R.round_within R.fl_zero R.fl_hundred (v := Ext.div (Ext.fin (100 * (k : ℚ))) (lit p : Flt R)) ?_
      rw [hpe]
      show Within 0 100 (if (p : ℚ) = 0 then Ext.infSign (100 * (k : ℚ)) else Ext.fin (100 * (k : ℚ) / p))
      by_cases h0 : (p : ℚ) = 0
      · have : k = 0 := by
          have : p = 0 := by exact_mod_cast h0
          omega
        subst this
        left; simp [h0]
      · rw [if_neg h0]
        have hp' : (0 : ℚ) < p := by
          have : p ≠ 0 := by exact_mod_cast h0
          exact_mod_cast Nat.pos_of_ne_zero this
        have hkp : (k : ℚ) ≤ p := by exact_mod_cast hk
        refine Or.inr ⟨_, rfl, by positivity, ?_⟩
        rw [div_le_iff₀ hp']
        linarith
  refine each_binopS (γ := Flt R) (Or.inl rfl) (fun x hx => ?_) h3
  refine R.round_within R.fl_zero R.fl_hundred (v := Ext.add (lit 100 : Flt R) (Ext.neg x)) ?_
  rw [e2]
  rcases hx with rfl | ⟨y, rfl, h4, h5⟩
  · exact Or.inl rfl
  · exact Or.inr ⟨100 + -y, rfl, by linarith, by linarith⟩

/-- **C107** both lines of aroon are from 0 to 100 and their difference is from -100 to 100, for any data and periods up to 167772. -/
theorem C107_aroon {p : ℕ} (hp : 100 * p ≤ 2 ^ 24) (h l : Line (Flt R)) :
    InRange 0 100 (aroon p h l).1 ∧ InRange 0 100 (aroon p h l).2 ∧ InRange (-100) 100 (aroonosc p h l) := by
  have h1 : InRange 0 100 (aroonDn p l) := by
    refine aroonComp_within (fun w hw => ?_) hp l
    cases w with
    | nil => exact absurd rfl hw
    | cons x xs => have := argGo_lt (fun y b => lt y b) xs x 0 1 (by omega); rw [List.length_cons, Nat.add_comm]; exact this
  have h2 : InRange 0 100 (aroonUp p h) := by
    refine aroonComp_within (fun w hw => ?_) hp h
    cases w with
    | nil => exact absurd rfl hw
    | cons x xs => have := argGo_lt (fun y b => lt b y) xs x 0 1 (by omega); rw [List.length_cons, Nat.add_comm]; exact this
  refine ⟨h1, h2, each_binop (γ := Flt R) (Or.inl rfl) (fun x y hx hy => ?_) h2 h1⟩
  refine R.round_within R.fl_neghundred R.fl_hundred (v := Ext.add x (Ext.neg y)) ?_
  rcases hx with rfl | ⟨u, rfl, h3, h4⟩
  · left; cases y <;> rfl
  · rcases hy with rfl | ⟨w, rfl, h5, h6⟩
    · exact Or.inl rfl
    · exact Or.inr ⟨u + -w, rfl, by linarith, by linarith⟩

/-! ## prices -/

section prices
variable {o h l c : Line (Flt R)} {n mo mh ml mc : ℕ} {O H L C : ℕ → ℚ}

/-- **C107** the balance of power is from -1 to 1 if open and close are from low to high. -/
theorem C107_bop (ho : RepW o n mo fun i => Ext.fin (O i)) (hh : RepW h n mh fun i => Ext.fin (H i))
    (hl : RepW l n ml fun i => Ext.fin (L i)) (hc : RepW c n mc fun i => Ext.fin (C i))
    (bar : ∀ i, L i ≤ O i ∧ O i ≤ H i ∧ L i ≤ C i ∧ C i ≤ H i) : InRange (-1) 1 (bop o h l c) := by
  have h1 := rep_binop (fill := (nan : Flt R)) (f := fun x y : Flt R => x - y) hc ho
  have h2 := rep_binop (fill := (nan : Flt R)) (f := fun x y : Flt R => x - y) hh hl
  have h3 := rep_binop (fill := (nan : Flt R)) (f := fun x y : Flt R => x / y) h1.toRepW h2.toRepW
  refine each_of_rep h3 (Or.inl rfl) fun i _ _ => ?_
  obtain ⟨b1, b2, b3, b4⟩ := bar i
  refine R.round_within R.fl_negone R.fl_one (v := Ext.div (R.fl (C i + -O i)) (R.fl (H i + -L i))) ?_
  have e1 : Ext.Le (R.fl (C i + -O i)) (R.fl (H i + -L i)) := R.mono _ _ (by linarith)
  have e2 : Ext.Le (Ext.neg (R.fl (H i + -L i))) (R.fl (C i + -O i)) := by
    rw [← R.neg]; exact R.mono _ _ (by linarith)
  rcases Ext.ratio e2 e1 with e | ⟨e3, e4⟩
  · exact Or.inl e
  · exact Ext.within_of_le e3 e4

end prices

theorem Rounding.dbl {x : ℚ} (h : R.fl x = .fin x) : R.fl (2 * x) = .fin (2 * x) ∨ R.fl (2 * x) = .pinf ∨ R.fl (2 * x) = .ninf := by
  rcases le_total 0 x with h0 | h0
  · rcases R.double x h0 h with h | h
    · exact Or.inl h
    · exact Or.inr (Or.inl h)
  · have e : R.fl (2 * x) = Ext.neg (R.fl (2 * -x)) := by rw [← R.neg]; congr 1; ring
    rcases R.double (-x) (by linarith) (by rw [R.neg, h]; rfl) with h | h <;> rw [e, h]
    · left; simp [Ext.neg]
    · right; right; rfl

/-- four times a number: the number or infinite -/
theorem Rounding.quad {x : ℚ} (h : R.fl x = .fin x) : R.fl (4 * x) = .fin (4 * x) ∨ R.fl (4 * x) = .pinf ∨ R.fl (4 * x) = .ninf := by
  have e4 : (4 : ℚ) * x = 2 * (2 * x) := by ring
  rcases R.dbl h with h1 | h1 | h1
  · rw [e4]; exact R.dbl h1
  · right; left
    have h0 : 0 ≤ x := by
      by_contra hc
      have := R.mono (2 * x) 0 (by linarith)
      rw [h1, R.fl_zero] at this
      exact nomatch this
    have := R.mono (2 * x) (4 * x) (by linarith)
    rw [h1] at this
    generalize R.fl (4 * x) = v at this
    cases v <;> first | rfl | exact nomatch this
  · right; right
    have h0 : x ≤ 0 := by
      by_contra hc
      have := R.mono 0 (2 * x) (by linarith)
      rw [h1, R.fl_zero] at this
      exact nomatch this
    have := R.mono (4 * x) (2 * x) (by linarith)
    rw [h1] at this
    generalize R.fl (4 * x) = v at this
    cases v <;> first | rfl | exact nomatch this

/-- a finite result is not more than a bound which is a number, or too large to be one -/
theorem Rounding.fin_le {a b z : ℚ} (h : R.fl a = .fin z) (hab : a ≤ b) (hb : R.fl b = .fin b ∨ R.fl b = .pinf ∨ R.fl b = .ninf) : z ≤ b := by
  have h1 := R.mono a b hab
  rw [h] at h1
  rcases hb with hb | hb | hb
  · rw [hb] at h1; exact Ext.le_fin'.mp h1
  · by_contra hc
    have h2 := R.mono b z (by linarith)
    rw [hb, R.idem a z h] at h2
    exact nomatch h2
  · rw [hb] at h1; exact nomatch h1

theorem Rounding.le_fin {a b z : ℚ} (h : R.fl a = .fin z) (hab : b ≤ a) (hb : R.fl b = .fin b ∨ R.fl b = .pinf ∨ R.fl b = .ninf) : b ≤ z := by
  have h1 := R.mono b a hab
  rw [h] at h1
  rcases hb with hb | hb | hb
  · rw [hb] at h1; exact Ext.le_fin'.mp h1
  · rw [hb] at h1; exact nomatch h1
  · by_contra hc
    have h2 := R.mono z b (by linarith)
    rw [hb, R.idem a z h] at h2
    exact nomatch h2

end Bta

namespace Spec
open Bta

/-- `x` is a number of the arithmetic, not the result of a rounding -/
def Number (R : Rounding) (x : ℚ) : Prop := R.fl x = .fin x

/-- the value at each bar `i`, if it is there and finite, is from `lo i` to `hi i` -/
def Between {R : Rounding} (lo hi : ℕ → ℚ) (l : Line (Flt R)) : Prop :=
  ∀ (i : ℕ) (v : Flt R) (x : ℚ), l.series[i]? = some v → v = Ext.fin x → lo i ≤ x ∧ x ≤ hi i

end Spec

namespace Bta
open Line Ind Spec

variable {R : Rounding}

theorem between_of_rep {l : Line (Flt R)} {n m : ℕ} {g : ℕ → Flt R} {lo hi : ℕ → ℚ} (h : Rep (nan : Flt R) l n m g)
    (hg : ∀ i x, m ≤ i + 1 → i < n → g i = Ext.fin x → lo i ≤ x ∧ x ≤ hi i) : Between lo hi l := by
  intro i v x hv e
  subst e
  have hn : i < n := by
    rw [← h.len]
    exact (List.getElem?_eq_some_iff.mp hv).1
  by_cases hm : i + 1 < m
  · rw [h.pre i hm hn] at hv
    exact nomatch hv
  · rw [h.val i (by omega) hn] at hv
    injection hv with hv
    exact hg i x (by omega) hn hv

/-- half the sum of two numbers -/
theorem half_sum {x y lo hi v : ℚ} (hlo : Number R lo) (hhi : Number R hi) (h1 : lo ≤ x) (h2 : x ≤ hi) (h3 : lo ≤ y) (h4 : y ≤ hi) {a b : Flt R}
    (ha : a = Ext.fin x) (hb : b = Ext.fin y) (h : ((a + b) / lit 2 : Flt R) = Ext.fin v) : lo ≤ v ∧ v ≤ hi := by
  subst ha hb
  have e2 : (lit 2 : Flt R) = Ext.fin 2 := R.fl_nat 2 (by simp) (by norm_num)
  change R.round (Ext.div (R.fl (x + y)) (lit 2 : Flt R)) = Ext.fin v at h
  rw [e2] at h
  cases hz : R.fl (x + y) with
  | fin z =>
    have h5 := Rounding.fin_le hz (by linarith : x + y ≤ 2 * hi) (R.dbl hhi)
    have h6 := Rounding.le_fin hz (by linarith : 2 * lo ≤ x + y) (R.dbl hlo)
    rw [hz] at h
    change R.round (if (2 : ℚ) = 0 then Ext.infSign z else Ext.fin (z / 2)) = _ at h
    rw [if_neg (by norm_num)] at h
    exact ⟨Rounding.le_fin h (by linarith) (Or.inl hlo), Rounding.fin_le h (by linarith) (Or.inl hhi)⟩
  | pinf => rw [hz] at h; change R.round (if (2 : ℚ) < 0 then .ninf else .pinf) = _ at h; rw [if_neg (by norm_num)] at h; exact nomatch h
  | ninf => rw [hz] at h; change R.round (if (2 : ℚ) < 0 then .pinf else .ninf) = _ at h; rw [if_neg (by norm_num)] at h; exact nomatch h
  | nan => rw [hz] at h; exact nomatch h

section prices
variable {o h l c : Line (Flt R)} {n mo mh ml mc : ℕ} {O H L C : ℕ → ℚ}

/-- **C107** the median price is from low to high however results are rounded. -/
theorem C107_medprice (hh : RepW h n mh fun i => Ext.fin (H i)) (hl : RepW l n ml fun i => Ext.fin (L i))
    (num : ∀ i, Number R (H i) ∧ Number R (L i)) (bar : ∀ i, L i ≤ H i) : Between L H (medprice (lit 2) h l) := by
  have h1 := rep_binop (fill := (nan : Flt R)) (f := fun x y : Flt R => x + y) hh hl
  have h2 := rep_binopS (fill := (nan : Flt R)) (f := fun x y : Flt R => x / y) (c := lit 2) h1.toRepW
  refine between_of_rep h2 fun i x _ _ hx => ?_
  exact half_sum (num i).2 (num i).1 (bar i) le_rfl le_rfl (bar i) rfl rfl hx

theorem number_winMax {x : ℕ → ℚ} {p : ℕ} (hp : 1 ≤ p) (i : ℕ) (h : ∀ i, Number R (x i)) : Number R (winMax x p i) := by
  obtain ⟨j, _, hj⟩ := (winMax_isGreatest x hp i).1
  rw [hj]; exact h _

theorem number_winMin {x : ℕ → ℚ} {p : ℕ} (hp : 1 ≤ p) (i : ℕ) (h : ∀ i, Number R (x i)) : Number R (winMin x p i) := by
  obtain ⟨j, _, hj⟩ := (winMin_isLeast x hp i).1
  rw [hj]; exact h _

theorem rep_highest {R : Rounding} {x : ℕ → ℚ} {a : Line (Flt R)} {n m p : ℕ} (hp : 1 ≤ p) (ha : RepW a n m fun i => Ext.fin (x i)) :
    Rep (nan : Flt R) (highest p a) n (m + p - 1) fun i => aggMax (wnd (fun i => Ext.fin (x i)) p i) := rep_rolling (agg := aggMax) hp ha
theorem rep_lowest {R : Rounding} {x : ℕ → ℚ} {a : Line (Flt R)} {n m p : ℕ} (hp : 1 ≤ p) (ha : RepW a n m fun i => Ext.fin (x i)) :
    Rep (nan : Flt R) (lowest p a) n (m + p - 1) fun i => aggMin (wnd (fun i => Ext.fin (x i)) p i) := rep_rolling (agg := aggMin) hp ha

/-- **C107** the mid price is from the lowest low to the highest high of the period however results are rounded. -/
theorem C107_midprice {p : ℕ} (hp : 1 ≤ p) (hh : RepW h n mh fun i => Ext.fin (H i)) (hl : RepW l n ml fun i => Ext.fin (L i))
    (num : ∀ i, Number R (H i) ∧ Number R (L i)) (bar : ∀ i, L i ≤ H i) :
    Between (winMin L p) (winMax H p) (midprice p h l) := by
  have h3 := rep_highest hp hh
  have h4 := rep_lowest hp hl
  have h1 := rep_binop (fill := (nan : Flt R)) (f := fun x y : Flt R => x + y) h3.toRepW h4.toRepW
  have h2 := rep_binopS (fill := (nan : Flt R)) (f := fun x y : Flt R => x / y) (c := lit 2) h1.toRepW
  have hpos := hh.pos
  refine between_of_rep h2 fun i x hi _ hx => ?_
  have h5 : winMin L p i ≤ winMax H p i :=
    ((winMin_le L (by omega : 0 < p)).trans (bar (i - 0))).trans (le_winMax H (by omega : 0 < p))
  exact half_sum (number_winMin hp i fun i => (num i).2) (number_winMax hp i fun i => (num i).1) h5 le_rfl le_rfl h5
    (aggMax_wnd H hp (by omega)) (aggMin_wnd L hp (by omega)) hx

/-- **C107** the mid point is from the lowest to the highest value of the period however results are rounded. -/
theorem C107_midpoint {p : ℕ} (hp : 1 ≤ p) (hc : RepW c n mc fun i => Ext.fin (C i)) (num : ∀ i, Number R (C i)) :
    Between (winMin C p) (winMax C p) (midpoint p c) :=
  C107_midprice hp hc hc (fun i => ⟨num i, num i⟩) fun i => le_rfl

/-- **C107** the weighted close price with the weight 2 and the divisor 4 is from low to high however results are rounded. -/
theorem C107_wclprice (hh : RepW h n mh fun i => Ext.fin (H i)) (hl : RepW l n ml fun i => Ext.fin (L i))
    (hc : RepW c n mc fun i => Ext.fin (C i)) (num : ∀ i, Number R (H i) ∧ Number R (L i)) (bar : ∀ i, L i ≤ C i ∧ C i ≤ H i) :
    Between L H (wclprice (lit 2) (lit 4) h l c) := by
  have h1 := rep_binop (fill := (nan : Flt R)) (f := fun x y : Flt R => x + y) hh hl
  have h2 := rep_binopS (fill := (nan : Flt R)) (f := fun x y : Flt R => x * y) (c := lit 2) hc
  have h3 := rep_binop (fill := (nan : Flt R)) (f := fun x y : Flt R => x + y) h1.toRepW h2.toRepW
  have h4 := rep_binopS (fill := (nan : Flt R)) (f := fun x y : Flt R => x / y) (c := lit 4) h3.toRepW
  refine between_of_rep h4 fun i x _ _ hx => ?_
  obtain ⟨b1, b2⟩ := bar i
  obtain ⟨n1, n2⟩ := num i
  have e2 : (lit 2 : Flt R) = Ext.fin 2 := R.fl_nat 2 (by simp) (by norm_num)
  have e4 : (lit 4 : Flt R) = Ext.fin 4 := R.fl_nat 4 (by simp) (by norm_num)
  change R.round (Ext.div (R.round (Ext.add (R.fl (H i + L i)) (R.round (Ext.mul (Ext.fin (C i)) (lit 2 : Flt R))))) (lit 4 : Flt R)) = Ext.fin x at hx
  rw [e2, e4] at hx
  change R.round (Ext.div (R.round (Ext.add (R.fl (H i + L i)) (R.fl (C i * 2)))) (Ext.fin 4)) = Ext.fin x at hx
  have fin4 : ∀ v : Ext ℚ, R.round (Ext.div v (.fin 4)) = .fin x → ∃ z, v = .fin z ∧ R.fl (z / 4) = .fin x := by
    intro v hv
    cases v with
    | fin z =>
      change R.round (if (4 : ℚ) = 0 then Ext.infSign z else Ext.fin (z / 4)) = _ at hv
      rw [if_neg (by norm_num)] at hv
      exact ⟨z, rfl, hv⟩
    | pinf => change R.round (if (4 : ℚ) < 0 then .ninf else .pinf) = _ at hv; rw [if_neg (by norm_num)] at hv; exact nomatch hv
    | ninf => change R.round (if (4 : ℚ) < 0 then .pinf else .ninf) = _ at hv; rw [if_neg (by norm_num)] at hv; exact nomatch hv
    | nan => exact nomatch hv
  obtain ⟨z, hz, hx'⟩ := fin4 _ hx
  have finadd : ∃ u w, R.fl (H i + L i) = .fin u ∧ R.fl (C i * 2) = .fin w ∧ R.fl (u + w) = .fin z := by
    cases hu : R.fl (H i + L i) <;> cases hw : R.fl (C i * 2) <;> rw [hu, hw] at hz <;> first | exact ⟨_, _, rfl, rfl, hz⟩ | exact nomatch hz
  obtain ⟨u, w, hu, hw, hz'⟩ := finadd
  have u1 := Rounding.fin_le hu (by linarith : H i + L i ≤ 2 * H i) (R.dbl n1)
  have u2 := Rounding.le_fin hu (by linarith : 2 * L i ≤ H i + L i) (R.dbl n2)
  have w1 := Rounding.fin_le hw (by linarith : C i * 2 ≤ 2 * H i) (R.dbl n1)
  have w2 := Rounding.le_fin hw (by linarith : 2 * L i ≤ C i * 2) (R.dbl n2)
  have z1 := Rounding.fin_le hz' (by linarith : u + w ≤ 4 * H i) (R.quad n1)
  have z2 := Rounding.le_fin hz' (by linarith : 4 * L i ≤ u + w) (R.quad n2)
  exact ⟨Rounding.le_fin hx' (by linarith) (Or.inl n2), Rounding.fin_le hx' (by linarith) (Or.inl n1)⟩

end prices

/-! ## percentages in double precision -/

theorem sharp : fl64 (100 * (1 + 1 / 2 ^ 53)) = .fin (100 + 1 / 2 ^ 46) := by decide +kernel

theorem percent_pos {x y z : ℚ} (hy : 0 < y) (hr : fl64 y = .fin y) (hxy : x ≤ y) (hz : fl64 (100 * x) = .fin z) : z / y ≤ 100 * (1 + 1 / 2 ^ 53) := by
  have h1 := fl64_mono (100 * x) (100 * y) (by linarith)
  rw [hz] at h1
  rw [div_le_iff₀ hy]
  cases h2 : fl64 (100 * y) with
  | fin w =>
    rw [h2] at h1
    have := Ext.le_fin'.mp h1
    have := fl64_hundred hy hr h2
    linarith
  | pinf =>
    have : z ≤ 100 * y := by
      by_contra hc
      have h3 := fl64_mono (100 * y) z (by linarith)
      rw [h2, fl64_idem hz] at h3
      exact nomatch h3
    nlinarith
  | ninf => rw [h2] at h1; exact nomatch h1
  | nan => rw [h2] at h1; exact nomatch h1

/-- 100 * a / b, each operation rounded, for `a` from `-b` to `b`: if finite, at most the number after 100 -/
theorem percent {a b : Flt binary64} (hb : ∃ t, b = fl64 t) (h1 : Ext.Le (Ext.neg b) a) (h2 : Ext.Le a b) {v : ℚ}
    (hv : ((lit 100 * a) / b : Flt binary64) = Ext.fin v) :
    -(100 + 1 / 2 ^ 46) ≤ v ∧ v ≤ 100 + 1 / 2 ^ 46 ∧ (Ext.Le (.fin 0) a → 0 ≤ v) ∧ (Ext.Le a (.fin 0) → v ≤ 0) := by
  have e2 : (lit 100 : Flt binary64) = Ext.fin 100 := binary64.fl_hundred
  change binary64.round (Ext.div (binary64.round (Ext.mul (lit 100 : Flt binary64) a)) b) = Ext.fin v at hv
  rw [e2] at hv
  have hb0 : Ext.Le (.fin 0) b := by
    have := h1.trans h2
    cases b with
    | fin y => have := Ext.le_fin'.mp this; exact Ext.le_fin'.mpr (by linarith)
    | pinf => rfl
    | _ => exact nomatch this
  rcases Ext.nonneg_cases hb0 with rfl | ⟨y, rfl, hy⟩
  · have : v = 0 := by
      cases hm : binary64.round (Ext.mul (Ext.fin 100) a) with
      | fin z =>
        rw [hm] at hv
        have : fl64 0 = .fin v := hv
        rw [show fl64 0 = .fin 0 from by simp [fl64]] at this
        injection this with this
        exact this.symm
      | _ => rw [hm] at hv; exact nomatch hv
    subst this
    norm_num
  · have ha : ∃ x, a = Ext.fin x := by
      cases a with
      | fin x => exact ⟨x, rfl⟩
      | pinf => exact nomatch h2
      | ninf => exact nomatch h1
      | nan => exact nomatch h1
    obtain ⟨x, rfl⟩ := ha
    have hx1 : -y ≤ x := Ext.le_fin'.mp h1
    have hx2 : x ≤ y := Ext.le_fin'.mp h2
    change binary64.round (Ext.div (fl64 (100 * x)) (Ext.fin y)) = Ext.fin v at hv
    cases hz : fl64 (100 * x) with
    | fin z =>
      rw [hz] at hv
      change binary64.round (if y = 0 then Ext.infSign z else Ext.fin (z / y)) = Ext.fin v at hv
      rcases hy.lt_or_eq with hy | hy
      · rw [if_neg hy.ne'] at hv
        change fl64 (z / y) = Ext.fin v at hv
        have hr : fl64 y = .fin y := by
          obtain ⟨t, ht⟩ := hb
          exact fl64_idem ht.symm
        have p1 := percent_pos hy hr hx2 hz
        have hz' : fl64 (100 * -x) = .fin (-z) := by rw [mul_neg, fl64_neg, hz]; rfl
        have p2 := percent_pos hy hr (by linarith : -x ≤ y) hz'
        have q1 := fl64_mono _ _ p1
        rw [hv, sharp] at q1
        have q2 := fl64_mono _ _ p2
        rw [neg_div, fl64_neg, hv, sharp] at q2
        have q2 := Ext.le_fin'.mp q2
        refine ⟨by linarith, Ext.le_fin'.mp q1, fun h => ?_, fun h => ?_⟩
        · have h := Ext.le_fin'.mp h
          have r1 := fl64_nonneg (by linarith : 0 ≤ 100 * x)
          rw [hz] at r1
          have r2 := fl64_nonneg (div_nonneg (Ext.le_fin'.mp r1) hy.le)
          rw [hv] at r2
          exact Ext.le_fin'.mp r2
        · have h := Ext.le_fin'.mp h
          have r1 := fl64_nonneg (by linarith : 0 ≤ 100 * -x)
          rw [hz'] at r1
          have r2 := fl64_nonneg (div_nonneg (Ext.le_fin'.mp r1) hy.le)
          rw [neg_div, fl64_neg, hv] at r2
          have := Ext.le_fin'.mp r2
          linarith
      · subst hy
        rw [if_pos rfl] at hv
        have : x = 0 := by linarith
        subst this
        rw [mul_zero, show fl64 0 = .fin 0 from by simp [fl64]] at hz
        injection hz with hz
        subst hz
        simp [Ext.infSign] at hv
        exact nomatch hv
    | pinf => rw [hz] at hv; change binary64.round (if y < 0 then .ninf else .pinf) = _ at hv; rw [if_neg (by linarith)] at hv; exact nomatch hv
    | ninf => rw [hz] at hv; change binary64.round (if y < 0 then .pinf else .ninf) = _ at hv; rw [if_neg (by linarith)] at hv; exact nomatch hv
    | nan => rw [hz] at hv; exact nomatch hv

theorem stoch_value {x lo hi v : ℚ} {a b c : Flt binary64} (ha : a = Ext.fin x) (hb : b = Ext.fin lo) (hc : c = Ext.fin hi)
    (h1 : lo ≤ x) (h2 : x ≤ hi) (hv : ((lit 100 * (a - b)) / (c - b) : Flt binary64) = Ext.fin v) : 0 ≤ v ∧ v ≤ 100 + 1 / 2 ^ 46 := by
  have r := sub_le_range ha hb hc h1 h2
  have h9 := (r.1.trans r.2).neg
  rw [show Ext.neg (.fin (0 : ℚ)) = .fin 0 from by simp [Ext.neg]] at h9
  have := percent (by subst hb hc; exact ⟨hi + -lo, rfl⟩) (h9.trans r.1) r.2 hv
  exact ⟨this.2.2.1 r.1, this.2.1⟩

theorem mul_neg_hundred (a : Ext ℚ) : Ext.mul (.fin (-100)) a = Ext.mul (.fin 100) (Ext.neg a) := by
  cases a with
  | fin x => simp [Ext.mul, Ext.neg]
  | pinf => show Ext.infSign (-100) = Ext.infSign (-100); rfl
  | ninf => show Ext.infSign (- -100) = Ext.infSign 100; simp
  | nan => rfl

theorem williams_value {x lo hi v : ℚ} {a b c : Flt binary64} (ha : a = Ext.fin x) (hb : b = Ext.fin lo) (hc : c = Ext.fin hi)
    (h1 : lo ≤ x) (h2 : x ≤ hi) (hv : ((lit (-100) * (c - a)) / (c - b) : Flt binary64) = Ext.fin v) : -(100 + 1 / 2 ^ 46) ≤ v ∧ v ≤ 0 := by
  have r1 : Ext.Le (.fin 0) (c - a : Flt binary64) := by
    subst ha hc
    exact binary64.le_round (a := .fin (hi + -x)) binary64.fl_zero (Ext.le_fin'.mpr (by linarith))
  have r2 : Ext.Le (c - a : Flt binary64) (c - b : Flt binary64) := by
    subst ha hb hc
    exact binary64.round_mono (a := .fin (hi + -x)) (b := .fin (hi + -lo)) (Ext.le_fin'.mpr (by linarith))
  have e : (lit (-100) * (c - a) : Flt binary64) = (lit 100 * (-(c - a)) : Flt binary64) := by
    show binary64.round (Ext.mul (fl64 (-100)) (c - a : Flt binary64)) = binary64.round (Ext.mul (fl64 100) (Ext.neg (c - a : Flt binary64)))
    rw [show fl64 (-100) = .fin (-100) from binary64.fl_neghundred, show fl64 100 = .fin 100 from binary64.fl_hundred]
    exact congrArg _ (mul_neg_hundred _)
  rw [e] at hv
  have hneg : Ext.neg (.fin (0 : ℚ)) = .fin 0 := by simp [Ext.neg]
  have r3 : Ext.Le (-(c - a) : Flt binary64) (.fin 0) := by have := r1.neg; rw [hneg] at this; exact this
  have := percent (a := -(c - a)) (by subst hb hc; exact ⟨hi + -lo, rfl⟩) r2.neg (r3.trans (r1.trans r2)) hv
  exact ⟨this.1, this.2.2.2 r3⟩

/-- 100 * (a - b) / (a + b) of values which are not negative -/
theorem updown_value {a b : Flt binary64} (ha : NotNegative a) (hb : NotNegative b) {v : ℚ}
    (hv : ((lit 100 * (a - b)) / (a + b) : Flt binary64) = Ext.fin v) : -(100 + 1 / 2 ^ 46) ≤ v ∧ v ≤ 100 + 1 / 2 ^ 46 := by
  have e2 : (lit 100 : Flt binary64) = Ext.fin 100 := binary64.fl_hundred
  rcases ha with rfl | ha
  · exfalso
    change binary64.round (Ext.div (binary64.round (Ext.mul (lit 100 : Flt binary64) Ext.nan)) _) = _ at hv
    rw [e2] at hv
    exact nomatch hv
  rcases hb with hb | hb
  · exfalso
    have : ∀ a : Ext ℚ, Ext.add a (Ext.neg .nan) = .nan := by intro a; cases a <;> rfl
    have e3 : (a - b : Flt binary64) = (nan : Flt binary64) := by subst hb; exact congrArg binary64.round (this a)
    rw [e2, e3] at hv
    exact nomatch hv
  rcases Ext.nonneg_cases ha with rfl | ⟨x, rfl, hx⟩ <;> rcases Ext.nonneg_cases hb with rfl | ⟨y, rfl, hy⟩
  · exfalso
    change binary64.round (Ext.div (binary64.round (Ext.mul (lit 100 : Flt binary64) Ext.nan)) _) = _ at hv
    rw [e2] at hv
    exact nomatch hv
  · exfalso
    change binary64.round (Ext.div (binary64.round (Ext.mul (lit 100 : Flt binary64) Ext.pinf)) Ext.pinf) = _ at hv
    rw [e2] at hv
    have : Ext.infSign (100 : ℚ) = .pinf := by decide +kernel
    change binary64.round (Ext.div (binary64.round (Ext.infSign 100)) Ext.pinf) = _ at hv
    rw [this] at hv
    exact nomatch hv
  · exfalso
    change binary64.round (Ext.div (binary64.round (Ext.mul (lit 100 : Flt binary64) Ext.ninf)) Ext.pinf) = _ at hv
    rw [e2] at hv
    have : Ext.infSign (-(100 : ℚ)) = .ninf := by decide +kernel
    change binary64.round (Ext.div (binary64.round (Ext.infSign (-100))) Ext.pinf) = _ at hv
    rw [this] at hv
    exact nomatch hv
  · have := percent ⟨x + y, rfl⟩ (a := fl64 (x + -y)) (b := fl64 (x + y)) (by rw [← fl64_neg]; exact fl64_mono _ _ (by linarith))
      (fl64_mono _ _ (by linarith)) hv
    exact ⟨this.1, this.2.1⟩

section stoch
variable {h l c : Line (Flt binary64)} {n mh ml mc : ℕ} {H L C : ℕ → ℚ} {p : ℕ}

/-- **C107** (what holds) in double precision each finite %K of the fast stochastic is from 0 to the number after 100. -/
theorem C107_stochf_partial (hp : 1 ≤ p) (hh : RepW h n mh fun i => Ext.fin (H i)) (hl : RepW l n ml fun i => Ext.fin (L i))
    (hc : RepW c n mc fun i => Ext.fin (C i)) (bar : ∀ i, L i ≤ C i ∧ C i ≤ H i) {ma : MA (Flt binary64)} {pfast : ℕ}
    {k d : Line (Flt binary64)} (hk : stochf ma p pfast h l c = .ok (k, d)) : Between (fun _ => 0) (fun _ => 100 + 1 / 2 ^ 46) k := by
  have hk' : k = (rmulS (lit 100) (c - lowest p l)) / (highest p h - lowest p l) := by
    simp only [stochf, bind, Except.bind, pure, Except.pure] at hk
    split at hk
    · exact nomatch hk
    · injection hk with hk
      injection hk with hk _
      exact hk.symm
  subst hk'
  have h3 := rep_highest hp hh
  have h4 := rep_lowest hp hl
  have h1 := rep_binop (fill := (nan : Flt binary64)) (f := fun x y : Flt binary64 => x - y) hc h4.toRepW
  have h2 := rep_binop (fill := (nan : Flt binary64)) (f := fun x y : Flt binary64 => x - y) h3.toRepW h4.toRepW
  have h5 := rep_binopS (fill := (nan : Flt binary64)) (f := fun x c : Flt binary64 => c * x) (c := lit 100) h1.toRepW
  have h6 := rep_binop (fill := (nan : Flt binary64)) (f := fun x y : Flt binary64 => x / y) h5.toRepW h2.toRepW
  have hpos := hh.pos
  refine between_of_rep h6 fun i x hi _ hx => ?_
  have a1 := aggMax_wnd H hp (by omega : p ≤ i + 1)
  have a2 := aggMin_wnd L hp (by omega : p ≤ i + 1)
  have b1 : winMin L p i ≤ C i := (winMin_le L (by omega : 0 < p)).trans (bar (i - 0)).1
  have b2 : C i ≤ winMax H p i := (bar i).2.trans (le_winMax H (by omega : 0 < p) (i := i) (j := 0))
  exact stoch_value rfl a2 a1 b1 b2 hx

/-- **C107** (what holds) in double precision each finite value of Williams' %R is from the number before -100 to 0. -/
theorem C107_williamsr_partial (hp : 1 ≤ p) (hh : RepW h n mh fun i => Ext.fin (H i)) (hl : RepW l n ml fun i => Ext.fin (L i))
    (hc : RepW c n mc fun i => Ext.fin (C i)) (bar : ∀ i, L i ≤ C i ∧ C i ≤ H i) :
    Between (fun _ => -(100 + 1 / 2 ^ 46)) (fun _ => 0) (williamsr p h l c) := by
  have h3 := rep_highest hp hh
  have h4 := rep_lowest hp hl
  have h1 := rep_binop (fill := (nan : Flt binary64)) (f := fun x y : Flt binary64 => x - y) h3.toRepW hc
  have h2 := rep_binop (fill := (nan : Flt binary64)) (f := fun x y : Flt binary64 => x - y) h3.toRepW h4.toRepW
  have h5 := rep_binopS (fill := (nan : Flt binary64)) (f := fun x c : Flt binary64 => c * x) (c := lit (-100)) h1.toRepW
  have h6 := rep_binop (fill := (nan : Flt binary64)) (f := fun x y : Flt binary64 => x / y) h5.toRepW h2.toRepW
  have hpos := hh.pos
  refine between_of_rep h6 fun i x hi _ hx => ?_
  have a1 := aggMax_wnd H hp (by omega : p ≤ i + 1)
  have a2 := aggMin_wnd L hp (by omega : p ≤ i + 1)
  have b1 : winMin L p i ≤ C i := (winMin_le L (by omega : 0 < p)).trans (bar (i - 0)).1
  have b2 : C i ≤ winMax H p i := (bar i).2.trans (le_winMax H (by omega : 0 < p) (i := i) (j := 0))
  exact williams_value rfl a2 a1 b1 b2 hx

end stoch

/-- **C107** (what holds) Chande's momentum oscillator with an exponential average (the ta-lib compatible form): in double precision each finite
value is from the number before -100 to the number after 100, for any data. -/
theorem C107_cmo_partial {p : ℕ} (hp : 1 ≤ p) (s : Seed) (a : Line (Flt binary64)) {r : Line (Flt binary64)}
    (h : cmo (smmaG s) p a = .ok r) : Between (fun _ => -(100 + 1 / 2 ^ 46)) (fun _ => 100 + 1 / 2 ^ 46) r := by
  have hm := (keepsSign (R := binary64) hp s 0).1
  have hup : NoneNegative ((diff 1 a).clipLoS (lit 0)) := each_mapOp (V := Flt binary64) nn_nan (fun x _ => nn_clipLo x) each_true
  have hdn : NoneNegative ((diff 1 a).clipHiS (lit 0)).abs := each_mapOp (V := Flt binary64) nn_nan (fun x _ => nn_absv x) each_true
  have hmp : ∀ (a r : Line (Flt binary64)), smmaG s p a = .ok r → 1 ≤ r.minperiod ∧ r.series.length = a.series.length := by
    intro a r h
    simp only [smmaG, ewmMean] at h
    split at h
    · exact nomatch h
    · refine ⟨?_, ewmCall_length h⟩
      unfold ewmCall at h
      simp only at h
      split at h
      · injection h with h
        subst h
        show 1 ≤ (if max (a.minperiod + ((p : ℤ) - 0 - 1)) 1 = 0 then a.minperiod else max (a.minperiod + ((p : ℤ) - 0 - 1)) 1)
        split <;> omega
      · exact nomatch h
  have hlen : ((diff 1 a).clipLoS (lit 0)).series.length = ((diff 1 a).clipHiS (lit 0)).abs.series.length := by
    have e : ∀ (f : Flt binary64 → Flt binary64) (a : Line (Flt binary64)), (mapOp f a).series.length = a.series.length :=
      fun f a => stdop_length fun xs => List.length_map f
    exact (e _ _).trans ((e _ _).trans (e _ _)).symm
  simp only [cmo, bind, Except.bind, pure, Except.pure] at h
  split at h
  · exact nomatch h
  · rename_i u hu'
    split at h
    · exact nomatch h
    · rename_i d hd'
      injection h with h
      subst h
      have hu2 := hm _ _ hup hu'
      have hd2 := hm _ _ hdn hd'
      obtain ⟨u1, u2⟩ := hmp _ _ hu'
      obtain ⟨d1, d2⟩ := hmp _ _ hd'
      obtain ⟨m, hm⟩ := Int.eq_ofNat_of_zero_le (by omega : 0 ≤ u.minperiod)
      obtain ⟨m', hm'⟩ := Int.eq_ofNat_of_zero_le (by omega : 0 ≤ d.minperiod)
      have ru := repW_self u (nan : Flt binary64) hm (by omega)
      have rd := repW_self d (nan : Flt binary64) hm' (by omega)
      rw [show d.series.length = u.series.length from by rw [u2, d2, hlen]] at rd
      have h1 := rep_binop (fill := (nan : Flt binary64)) (f := fun x y : Flt binary64 => x - y) ru rd
      have h2 := rep_binop (fill := (nan : Flt binary64)) (f := fun x y : Flt binary64 => x + y) ru rd
      have h5 := rep_binopS (fill := (nan : Flt binary64)) (f := fun x c : Flt binary64 => c * x) (c := lit 100) h1.toRepW
      have h6 := rep_binop (fill := (nan : Flt binary64)) (f := fun x y : Flt binary64 => x / y) h5.toRepW h2.toRepW
      refine between_of_rep h6 fun i x hi hn hx => ?_
      have n1 : NotNegative (u.series[i]?.getD (nan : Flt binary64)) := by
        cases e : u.series[i]? with
        | none => exact Or.inl rfl
        | some v => exact hu2 v (List.mem_of_getElem? e)
      have n2 : NotNegative (d.series[i]?.getD (nan : Flt binary64)) := by
        cases e : d.series[i]? with
        | none => exact Or.inl rfl
        | some v => exact hd2 v (List.mem_of_getElem? e)
      exact updown_value n1 n2 hx

/-! ## what does not hold -/


/-- the bars of the example: prices with two decimals, as read to double precision -/
def doubles (xs : List ℚ) : Line (Flt binary64) := ⟨xs.map fun x => lit x, 1⟩

/-- some value of the line is above `x` -/
def someAbove (x : ℚ) (l : Line (Flt binary64)) : Bool := l.series.any fun v => lt (lit x : Flt binary64) v

/-- some value of the line is below `x` -/
def someBelow (x : ℚ) (l : Line (Flt binary64)) : Bool := l.series.any fun v => lt v (lit x : Flt binary64)

/-- **C107** (negation) in double precision %K can be above 100: a range from 13.46 to 14.13 closing at the high. -/
theorem C107_not_stochf : ∃ h l c : List ℚ, (∀ b ∈ h.zip (l.zip c), b.2.1 ≤ b.2.2 ∧ b.2.2 ≤ b.1) ∧
    (match stochf sma 5 3 (doubles h) (doubles l) (doubles c) with | .ok (k, _) => someAbove 100 k | _ => false) = true :=
  ⟨[14, 14, 14, 14, 1413/100], [14, 1346/100, 14, 14, 14], [14, 14, 14, 14, 1413/100], by decide +kernel, by decide +kernel⟩

/-- **C107** (negation) in double precision Williams' %R can be below -100: a range from 15.18 to 15.88 closing at the low. -/
theorem C107_not_williamsr : ∃ h l c : List ℚ, (∀ b ∈ h.zip (l.zip c), b.2.1 ≤ b.2.2 ∧ b.2.2 ≤ b.1) ∧
    someBelow (-100) (williamsr 3 (doubles h) (doubles l) (doubles c)) = true :=
  ⟨[1588/100, 155/10, 155/10], [155/10, 155/10, 1518/100], [155/10, 155/10, 1518/100], by decide +kernel, by decide +kernel⟩

/-- **C107** (negation) in double precision cmo can be above 100: two rising closes. -/
theorem C107_not_cmo : ∃ c : List ℚ,
    (match cmo smma 1 (doubles c) with | .ok r => someAbove 100 r | _ => false) = true :=
  ⟨[5828/100, 6115/100], by decide +kernel⟩

/-- **C107** (negation) in double precision the typical price of a bar with one price can be above it. -/
theorem C107_not_typprice : someAbove (143/10) (typprice (lit 3) (doubles [143/10]) (doubles [143/10]) (doubles [143/10])) = true := by decide +kernel

/-- **C107** (negation) in double precision the simple average of one price can be above it. -/
theorem C107_not_sma : (match sma 3 (doubles [1505/100, 1505/100, 1505/100]) with | .ok r => someAbove (1505/100) r | _ => false) = true := by
  decide +kernel

/-! ## examples -/

/-- closes from which the default rsi is computed, one of them missing -/
example : (match rsi smma 1 3 (⟨[lit 10, lit (101/10), lit (99/10), lit (102/10), nan, lit (103/10), lit (101/10)], 1⟩ : Line (Flt binary64)) with
    | .ok r => r.series.map fun v => (le (lit 50) v, isNaN v)
    | _ => []) = [(false, true), (false, true), (false, true), (true, false), (true, false), (true, false), (false, false)] := by decide +kernel

/-- the hypotheses on prices are met -/
example : Between (winMin (fun _ => 3) 2) (winMax (fun _ => 5) 2) (midprice 2 (⟨[lit 5, lit 5], 1⟩ : Line (Flt binary64)) ⟨[lit 3, lit 3], 1⟩) := by
  have e : ∀ k : ℕ, k ≤ 2 ^ 24 → RepW (⟨[lit k, lit k], 1⟩ : Line (Flt binary64)) 2 1 (fun _ => Ext.fin (k : ℚ)) := by
    intro k hk
    have : (lit (k : ℚ) : Flt binary64) = Ext.fin (k : ℚ) := binary64.nat k hk
    refine ⟨rfl, rfl, le_rfl, fun i _ hi => ?_⟩
    interval_cases i <;> exact congrArg some this
  have h1 := e 5 (by norm_num)
  have h2 := e 3 (by norm_num)
  exact C107_midprice (p := 2) (by norm_num) h1 h2 (fun i => ⟨binary64.nat 5 (by norm_num), binary64.nat 3 (by norm_num)⟩) (fun i => by norm_num)

end Bta
