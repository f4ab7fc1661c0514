import Verif.Lemmas.Late
import Verif.Props.Catalog
import Verif.Props.Kama
import Verif.Props.Mama
import Verif.Props.Index

/-!
# Indicators of lines which start late (C97)

The result of an indicator has bars for which it is not defined yet.  An indicator of this result gives what it gives on the
part which is defined, put off by these bars - for every call of the catalogue but those of `kama`, `mama` and the absolute
positions, for which it is shown not to hold.
-/

set_option linter.unusedSectionVars false
set_option linter.unusedVariables false

namespace Bta
open Line Ext

section
variable {V : Type} [PyFloat V]

theorem Avg.okLate : ∀ (m : Avg V) (q p : ℕ), m.Periods q p → m.Delayable → m.Ok True True False q p
  | .sma, _, _, h, _ => h
  | .ema _ _, _, _, h, _ => ⟨trivial, h⟩
  | .smma _, _, _, h, _ => ⟨trivial, h⟩
  | .ewma _, _, _, h, _ => ⟨trivial, h⟩
  | .wma, _, _, h, _ => h
  | .sumN, _, _, h, _ => h
  | .trima, _, _, h, _ => h
  | .dema m, _, p, h, a => Avg.okLate m 1 p h a
  | .tema m, _, p, h, a => Avg.okLate m 1 p h a
  | .trix m, _, p, h, a => Avg.okLate m 1 p h a
  | .gdema m _, _, p, h, a => Avg.okLate m 1 p h a
  | .t3 _, _, _, h, _ => ⟨trivial, h⟩
  | .t3gd m _, _, p, h, a => Avg.okLate m 1 p h a
  | .kama _ _ _ _, _, _, _, a => a.elim
  | .smacc _ _ _, _, _, h, _ => ⟨trivial, h⟩

theorem Call.okLate (c : Call V) (h : c.Periods) (hs : c.Delayable) : c.Ok True True False True := by
  cases c <;> simp only [Call.Periods, Call.Delayable, Call.Ok] at * <;>
    simp_all [Avg.okLate]

theorem Spec.PutOff.toLate {k : ℕ} {l l' : Line V} (h : Spec.PutOff k l l') (hp : 1 ≤ l.minperiod) : Late k l l' := by
  refine ⟨hp, h.mp, ?_, h.len⟩
  refine List.ext_getElem? fun i => ?_
  rw [List.getElem?_drop, Nat.add_comm]
  by_cases hi : i < l.series.length
  · exact h.val i hi
  · rw [List.getElem?_eq_none (by have := h.len; omega), List.getElem?_eq_none (by omega)]

theorem Late.putOff {k : ℕ} {l l' : Line V} (h : Late k l l') : Spec.PutOff k l l' := by
  refine ⟨h.mp, h.len, fun i hi => ?_⟩
  rw [← h.ser, List.getElem?_drop, Nat.add_comm]

/-- **C97**: on inputs which are all put off by `k` bars a call gives the same results, put off by `k` bars.  Missing: the
calls which are not `Delayable`, see `C97_kama`, `C97_mama` and `C97_absolute`. -/
theorem C97_put_off_partial (c : Call V) (hp : c.Periods) (hd : c.Delayable) {k : ℕ} {x x' : ℕ → Line V}
    (h1 : ∀ j, 1 ≤ (x j).minperiod) (hx : ∀ j, Spec.PutOff k (x j) (x' j)) (r : List (Line V)) (hr : c.run x = .ok r) :
    ∃ r', c.run x' = .ok r' ∧ List.Forall₂ (Spec.PutOff k) r r' := by
  obtain ⟨r', g1, g2⟩ := Call.rel (lateRel V k) c (c.okLate hp hd) x x' (fun j => (hx j).toLate (h1 j)) (.inl trivial) r hr
  exact ⟨r', g1, forall₂_mono (fun _ _ h => h.putOff) g2⟩

/-- **C97** (and conversely): whatever a call gives on the inputs put off, it gives on the inputs themselves, earlier.  In
particular it raises on the ones exactly when it raises on the others. -/
theorem C97_put_off_conv_partial (c : Call V) (hp : c.Periods) (hd : c.Delayable) {k : ℕ} {x x' : ℕ → Line V}
    (h1 : ∀ j, 1 ≤ (x j).minperiod) (hx : ∀ j, Spec.PutOff k (x j) (x' j)) (r' : List (Line V)) (hr : c.run x' = .ok r') :
    ∃ r, c.run x = .ok r ∧ List.Forall₂ (Spec.PutOff k) r r' := by
  obtain ⟨r, g1, g2⟩ := Call.rel (lateRel' V k) c (c.okLate hp hd) x' x (fun j => (hx j).toLate (h1 j)) (.inl trivial) r' hr
  exact ⟨r, g1, List.Forall₂.flip (forall₂_mono (fun _ _ h => h.putOff) g2)⟩

/-- a line is what it delivers, put off -/
theorem putOff_delivered {l : Line V} (h1 : 1 ≤ l.minperiod) (h2 : l.minperiod ≤ l.series.length + 1) :
    Spec.PutOff (l.minperiod.toNat - 1) (ofSeries (Spec.delivered l)) l := by
  refine ⟨?_, ?_, fun i _ => ?_⟩
  · show l.minperiod = 1 + ((l.minperiod.toNat - 1 : ℕ) : Int); omega
  · show l.series.length = (l.series.drop _).length + _
    rw [List.length_drop]; omega
  · show _ = (l.series.drop _)[i]?
    rw [List.getElem?_drop, Nat.add_comm]

/-- **C97** (an indicator of results): let the inputs of a call have a common minimum period `m` not beyond their bars (as
the results of another indicator on enough data).  The call gives a result exactly if it does on the delivered parts
alone, with no bar before them, and then it is this result put off by the `m - 1` bars for which nothing was delivered. -/
theorem C97_delivered_partial (c : Call V) (hp : c.Periods) (hd : c.Delayable) {m n : ℕ} {x : ℕ → Line V} (hm : 1 ≤ m)
    (hn : m ≤ n + 1) (hx : ∀ j, (x j).minperiod = m ∧ (x j).series.length = n) :
    (∀ r, c.run (fun j => ofSeries (Spec.delivered (x j))) = .ok r →
      ∃ r', c.run x = .ok r' ∧ List.Forall₂ (Spec.PutOff (m - 1)) r r') ∧
    (∀ r', c.run x = .ok r' →
      ∃ r, c.run (fun j => ofSeries (Spec.delivered (x j))) = .ok r ∧ List.Forall₂ (Spec.PutOff (m - 1)) r r') := by
  have hq : ∀ j, Spec.PutOff (m - 1) (ofSeries (Spec.delivered (x j))) (x j) := by
    intro j
    have := putOff_delivered (l := x j) (by rw [(hx j).1]; omega) (by rw [(hx j).1, (hx j).2]; omega)
    rwa [(hx j).1, Int.toNat_natCast] at this
  exact ⟨fun r hr => C97_put_off_partial c hp hd (fun j => by simp [ofSeries]) hq r hr,
    fun r hr => C97_put_off_conv_partial c hp hd (fun j => by simp [ofSeries]) hq r hr⟩

/-- **C97** (minimum periods add up): if the output number `q` of a call has the minimum period `w` on plain data, on data
with the minimum period `m` it has `w + m - 1`. -/
theorem C97_minperiod_partial (c : Call V) (hp : c.Periods) (hd : c.Delayable) {m n : ℕ} {x : ℕ → Line V} (hm : 1 ≤ m)
    (hn : m ≤ n + 1) (hx : ∀ j, (x j).minperiod = m ∧ (x j).series.length = n) {r' r : List (Line V)}
    (hr' : c.run x = .ok r') (hr : c.run (fun j => ofSeries (Spec.delivered (x j))) = .ok r) {q : ℕ} {o o' : Line V}
    (ho : r[q]? = some o) (ho' : r'[q]? = some o') : o'.minperiod = o.minperiod + m - 1 := by
  obtain ⟨r2, g1, g2⟩ := (C97_delivered_partial c hp hd hm hn hx).1 r hr
  rw [hr'] at g1
  injection g1 with g1
  subst g1
  have := (forall₂_get g2 ho ho').mp
  omega

end

section
variable {K : Type} [Field K] [LinearOrder K] [IsStrictOrderedRing K]

/-- **C97** fails for `kama`: on any line with a minimum period above 1 it raises, also where the delivered part alone gives
values (C19). -/
theorem C97_kama {a : Line (Ext K)} {n m p q : ℕ} {x : ℕ → K} (fast slow : K) (ha : Holds a n m x) (hm : 2 ≤ m) (hp : 1 ≤ p)
    (hq : 1 ≤ q) : (Call.avg (.kama (fin fast) (fin slow) q .avg) p : Call (Ext K)).run (fun _ => a) = .error .indexError := by
  show oneE (Ind.kama _ _ _ _ _ _) = _
  rw [C19_raises (fin fast) (fin slow) ha hm hp hq (.inl rfl)]
  rfl

/-- **C97** fails for `mama` in the same way (C74). -/
theorem C97_mama {F : HtFns (Ext K)} {T : Spec.Trig K} {arctan : Ext K → Ext K} {a : Line (Ext K)} {n m : ℕ} {x : ℕ → K}
    (hF : F.Agrees T) (hT : T.Ok) (hA : ArctanOk arctan T) (h : Holds a n m x) (hm : 2 ≤ m) (fast slow : K) :
    (Call.mama F arctan (fin fast) (fin slow) : Call (Ext K)).run (fun _ => a) = .error .indexError := by
  show twoE (Ind.mama _ _ _ _ _) = _
  rw [C74_raises hF hT hA h hm]
  rfl

/-- **C97** fails for the absolute positions: they are delivered from the first bar on, however late the data start (C43). -/
theorem C97_absolute {a a' : Line (Ext K)} {n n' m m' p k : ℕ} {x x' : ℕ → K} (ha : Holds a n m x) (ha' : Holds a' n' m' x')
    (hp : 1 ≤ p) (hk : 1 ≤ k) : ¬ Spec.PutOff k (Ind.maxindexAbs p a) (Ind.maxindexAbs p a') := by
  intro h
  obtain ⟨f, h1, -⟩ := C43_absolute_max_partial ha hp
  obtain ⟨f', h1', -⟩ := C43_absolute_max_partial ha' hp
  have := h.mp
  rw [h1.mp, h1'.mp] at this
  omega

end

/-! The hypotheses are met. -/

/-- the result of a moving average over 3 bars (`sma`, see below) -/
def smaOf (n : ℕ) : Line (Ext ℚ) := rolling 3 aggMean (sample n 0)

example (n : ℕ) : Ind.sma 3 (sample n 0) = .ok (smaOf n) := rfl

theorem smaOf_mp (n : ℕ) : (smaOf n).minperiod = (3 : ℕ) ∧ (smaOf n).series.length = n := by
  have h := rep_rolling (w := 3) (by omega) (agg := aggMean) (bars_holds n fun i => ((10 + (i * i) % 7 + 0 : ℕ) : ℚ))
  exact ⟨h.mp, h.len⟩

/-- the MACD of a moving average: what it is on the delivered averages alone, two bars later -/
example (n : ℕ) (hn : 2 ≤ n) (r' : List (Line (Ext ℚ)))
    (h : (Call.macd (.ema .avg 0) (.ema .avg 0) (.ema .avg 0) 2 3 2 : Call (Ext ℚ)).run (fun _ => smaOf n) = .ok r') :
    ∃ r, (Call.macd (.ema .avg 0) (.ema .avg 0) (.ema .avg 0) 2 3 2 : Call (Ext ℚ)).run
      (fun _ => ofSeries (Spec.delivered (smaOf n))) = .ok r ∧ List.Forall₂ (Spec.PutOff 2) r r' :=
  (C97_delivered_partial _ (by simp [Call.Periods, Avg.Periods]) (by simp [Call.Delayable, Avg.Delayable]) (by omega)
    (by omega) fun _ => smaOf_mp n).2 r' h

example : ((Call.macd (.ema .avg 0) (.ema .avg 0) (.ema .avg 0) 2 3 2 : Call (Ext ℚ)).run (fun _ => smaOf 8)).toBool = true := by
  decide +kernel

/-- `kama` gives a result on the delivered part and raises on the whole line -/
example : ((Call.avg (.kama (fin 2) (fin 30) 1 .avg) 2 : Call (Ext ℚ)).run
      (fun _ => ofSeries (Spec.delivered (smaOf 8)))).toBool = true ∧
    ((Call.avg (.kama (fin 2) (fin 30) 1 .avg) 2 : Call (Ext ℚ)).run (fun _ => smaOf 8)).toBool = false := by
  constructor <;> decide +kernel

end Bta
