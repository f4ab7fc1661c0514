import Verif.Props.Catalog
import Verif.Props.Lines2

/-!
# Formulas in floating point numbers, whatever the data: C48

The theorems of the other files give outputs as exact numbers and therefore exclude divisions by zero; here numbers are
any `V`, with its own arithmetic (infinities and NaN included), and the statements are about the lines the user gets.
-/

set_option linter.unusedSectionVars false
set_option linter.unusedVariables false

namespace Bta
open Line

variable {V : Type} [PyFloat V]

/-- an average of the library, over data of `n` bars, gives a line of `n` bars -/
theorem avg_bars (ma : Avg V) {p : ℕ} (hk : (Call.avg ma p).Periods) {a r : Line V} (ha : 1 ≤ a.minperiod)
    (hr : ma.run p a = .ok r) : r.series.length = a.series.length ∧ 1 ≤ r.minperiod :=
  C02_indicators (.avg ma p) hk (n := a.series.length) (x := fun _ => a) ⟨fun _ => rfl, fun _ => ha⟩ [r]
    (by show oneE _ = _; rw [hr]; rfl) r (by simp)

/-- **C48** (apo), any data: the fast average less the slow one, bar by bar. -/
theorem C48_apo_bars (ma : Avg V) (pfast pslow : ℕ) (hk1 : (Call.avg ma pfast).Periods) (hk2 : (Call.avg ma pslow).Periods)
    (a r : Line V) (ha : 1 ≤ a.minperiod) (hr : Ind.apo ma.run pfast pslow a = .ok r) :
    ∃ fast slow, ma.run pfast a = .ok fast ∧ ma.run pslow a = .ok slow ∧
      r.minperiod = max fast.minperiod slow.minperiod ∧
      ∀ i : ℕ, i < a.series.length → r.minperiod ≤ (i : Int) + 1 →
        r.series[i]? = Option.map₂ (fun f s => f - s) fast.series[i]? slow.series[i]? := by
  unfold Ind.apo Ind.posc at hr
  simp only [bind, Except.bind, pure, Except.pure, Bool.false_eq_true, if_false] at hr
  cases h1 : ma.run pfast a with
  | error e => simp [h1] at hr
  | ok f =>
    cases h2 : ma.run pslow a with
    | error e => simp [h1, h2] at hr
    | ok s =>
      simp only [h1, h2] at hr
      injection hr with hr
      subst hr
      have b1 := avg_bars ma hk1 ha h1
      have b2 := avg_bars ma hk2 ha h2
      have hb := C05_binop (fun x y : V => x - y) nan f s (by rw [b1.1, b2.1]) b1.2 b2.2
      refine ⟨f, s, rfl, rfl, hb.2.1, fun i hi hm => ?_⟩
      have e := hb.2.2.1 i (by rw [b1.1]; exact hi) (by rw [← hb.2.1]; exact hm)
      rw [List.getElem?_eq_getElem (l := f.series) (by rw [b1.1]; exact hi),
        List.getElem?_eq_getElem (l := s.series) (by rw [b2.1]; exact hi)]
      exact e

/-- **C48** (ppo), any data, also where the slow average is 0: `100*(fast/slow - 1)`, the signal is the average of the ppo,
the histogram is the ppo less its signal, bar by bar. -/
theorem C48_ppo_bars (ma masig : Avg V) (pfast pslow psig : ℕ) (hk1 : (Call.avg ma pfast).Periods)
    (hk2 : (Call.avg ma pslow).Periods) (hk3 : (Call.avg masig psig).Periods)
    (a ppo signal histogram : Line V) (ha : 1 ≤ a.minperiod)
    (hr : Ind.ppo false ma.run masig.run pfast pslow psig a = .ok (ppo, signal, histogram)) :
    ∃ fast slow, ma.run pfast a = .ok fast ∧ ma.run pslow a = .ok slow ∧ masig.run psig ppo = .ok signal ∧
      ppo.minperiod = max fast.minperiod slow.minperiod ∧
      (∀ i : ℕ, i < a.series.length → ppo.minperiod ≤ (i : Int) + 1 →
        ppo.series[i]? = Option.map₂ (fun f s => lit 100 * (f / s - lit 1)) fast.series[i]? slow.series[i]?) ∧
      histogram.minperiod = max ppo.minperiod signal.minperiod ∧
      ∀ i : ℕ, i < a.series.length → histogram.minperiod ≤ (i : Int) + 1 →
        histogram.series[i]? = Option.map₂ (fun p s => p - s) ppo.series[i]? signal.series[i]? := by
  unfold Ind.ppo Ind.posc at hr
  simp only [bind, Except.bind, pure, Except.pure, Bool.false_eq_true, if_false] at hr
  cases h1 : ma.run pfast a with
  | error e => simp [h1] at hr
  | ok f =>
    cases h2 : ma.run pslow a with
    | error e => simp [h1, h2] at hr
    | ok s =>
      simp only [h1, h2] at hr
      cases h3 : masig.run psig (rmulS (lit 100) ((f / s).subS (lit 1))) with
      | error e => simp [h3] at hr
      | ok g =>
        simp only [h3] at hr
        injection hr with hr
        obtain ⟨e1, hr⟩ := Prod.mk.inj hr
        obtain ⟨e2, e3⟩ := Prod.mk.inj hr
        have b1 := avg_bars ma hk1 ha h1
        have b2 := avg_bars ma hk2 ha h2
        have d := C05_binop (fun x y : V => x / y) nan f s (by rw [b1.1, b2.1]) b1.2 b2.2
        have d2 := C05_binop_scalar (fun x y : V => x - y) nan (f / s) (lit 1) (by
          show 1 ≤ (binop _ nan f s).minperiod; rw [d.2.1]; have := b1.2; omega)
        have d3 := C05_binop_scalar (fun x c : V => c * x) nan ((f / s).subS (lit 1)) (lit 100) (by
          show 1 ≤ (binopS _ nan (f / s) _).minperiod; rw [d2.2.1]
          show 1 ≤ (binop _ nan f s).minperiod; rw [d.2.1]; have := b1.2; omega)
        have l1 : (f / s).series.length = a.series.length := d.1.trans b1.1
        have l2 : ((f / s).subS (lit 1)).series.length = a.series.length := d2.1.trans l1
        have m1 : (f / s).minperiod = max f.minperiod s.minperiod := d.2.1
        have m2 : ((f / s).subS (lit 1)).minperiod = max f.minperiod s.minperiod := d2.2.1.trans m1
        have l3 : ppo.series.length = a.series.length := by rw [← e1]; exact d3.1.trans l2
        have m3 : ppo.minperiod = max f.minperiod s.minperiod := by rw [← e1]; exact d3.2.1.trans m2
        have m3' : 1 ≤ ppo.minperiod := by rw [m3]; have := b1.2; omega
        rw [e1] at h3
        rw [e2] at h3
        have b3 := avg_bars masig hk3 m3' h3
        have dh := C05_binop (fun x y : V => x - y) nan ppo signal (by rw [b3.1]) m3' b3.2
        have hh : histogram = binop (fun x y : V => x - y) nan ppo signal := by rw [← e3, ← e2, ← e1]; rfl
        refine ⟨f, s, rfl, rfl, h3, m3, fun i hi hm => ?_, by rw [hh]; exact dh.2.1, fun i hi hm => ?_⟩
        · rw [m3] at hm
          rw [← e1]
          have q1 := d.2.2.1 i (by rw [b1.1]; exact hi) hm
          have q2 := d2.2.2.1 i (by rw [l1]; exact hi) (by rw [m1]; exact hm)
          have q3 := d3.2.2.1 i (by rw [l2]; exact hi) (by rw [m2]; exact hm)
          rw [List.getElem?_eq_getElem (l := f.series) (by rw [b1.1]; exact hi),
        List.getElem?_eq_getElem (l := s.series) (by rw [b2.1]; exact hi)]
          refine q3.trans ?_
          have u2 : ((f / s).subS (lit 1)).series[i]'(by rw [l2]; exact hi) = (f / s).series[i]'(by rw [l1]; exact hi) - lit 1 := by
            have := List.getElem?_eq_some_iff.mp q2
            exact this.2
          have u1 : (f / s).series[i]'(by rw [l1]; exact hi) = f.series[i]'(by rw [b1.1]; exact hi) / s.series[i]'(by rw [b2.1]; exact hi) := by
            have := List.getElem?_eq_some_iff.mp q1
            exact this.2
          rw [u2, u1]; rfl
        · rw [hh] at hm ⊢
          rw [dh.2.1] at hm
          have q := dh.2.2.1 i (by rw [l3]; exact hi) hm
          rw [List.getElem?_eq_getElem (l := ppo.series) (by rw [l3]; exact hi),
            List.getElem?_eq_getElem (l := signal.series) (by rw [b3.1, l3]; exact hi)]
          exact q

/-- C48, a case with a slow average of 0: prices 1, -1, 3; the second ppo is infinite -/
example : ((Ind.ppo false (Avg.sma : Avg (Ext ℚ)).run Avg.sma.run 1 2 1 ⟨[.fin 1, .fin (-1), .fin 3], 1⟩).toOption.map
    fun r => (r.1.series, r.1.minperiod)) = some ([.nan, .ninf, .fin 200], 2) := by decide +kernel

end Bta
