import Verif.Lemmas.Mirror5

/-!
# C89: charts turned upside down

`Spec.mirrorIn` (Spec/Mirror.lean) is the chart upside down: all prices with their sign changed, high and low exchanged, volume as
it is.  `Spec.mirrorOut` says what becomes of the outputs of a call, `Spec.mirrorCall` which call answers the same question of the
turned chart (`max` for `min`, `plus_di` for `minus_di`).  The data are arbitrary lines of one length (`Spec.Data`): missing
values and infinities anywhere.
-/

set_option linter.unusedSectionVars false
set_option linter.unusedVariables false

namespace Bta
open Line

variable {K : Type} [Field K] [LinearOrder K] [IsStrictOrderedRing K]

/-- **C89** no indicator treats rising and falling prices differently: if a call gives a result, then the call for the turned chart
gives that result turned. -/
theorem C89_mirror {n : ℕ} {x : ℕ → Line (Ext K)} (hx : Spec.Data n x) {c : Call (Ext K)} (hk : c.Periods) (hp : Spec.mirrorParams c)
    {f : List (Line (Ext K)) → List (Line (Ext K))} (hc : Spec.mirrorOut c = some f) {r : List (Line (Ext K))} (hr : c.run x = .ok r) :
    (Spec.mirrorCall c).run (Spec.mirrorIn c x) = .ok (f r) :=
  Mi.call x hx c hk f hc hp (Or.inr Ext.sumOrder) r hr

/-- **C89** with each step rounded (in any rounding to which the sign does not matter, such as binary64): the same, bit for bit, but
for the calls which add three prices and more. -/
theorem C89_rounded {R : Rounding} {n : ℕ} {x : ℕ → Line (Flt R)} (hx : Spec.Data n x) {c : Call (Flt R)} (hk : c.Periods)
    (hp : Spec.mirrorParams c) (ho : Spec.orderFree c) {f : List (Line (Flt R)) → List (Line (Flt R))} (hc : Spec.mirrorOut c = some f)
    {r : List (Line (Flt R))} (hr : c.run x = .ok r) : (Spec.mirrorCall c).run (Spec.mirrorIn c x) = .ok (f r) :=
  Mi.call x hx c hk f hc hp (Or.inl ho) r hr

/-- in binary64, where the average of three bars is not the exact one -/
example : (Call.avg (.ema .avg 0) 2).run (fun _ => (⟨[.fin 1, .fin 2, .fin 4], 1⟩ : Line (Flt binary64))) ≠
      .ok [⟨[.nan, .fin (3 / 2), .fin (19 / 6)], 2⟩] ∧
    (Call.avg (.ema .avg 0) 2 : Call (Flt binary64)).Periods ∧
    Spec.mirrorOut (Call.avg (.ema .avg 0) 2 : Call (Flt binary64)) = some (List.map Spec.neg) := by
  refine ⟨by decide +kernel, by simp [Call.Periods, Avg.Periods], rfl⟩

/-- one bar in binary64: open, high, low and close, or high, low, close and volume -/
def bar89 (a b c d : ℚ) : ℕ → Line (Flt binary64)
  | 0 => ⟨[.fin a], 1⟩
  | 1 => ⟨[.fin b], 1⟩
  | 2 => ⟨[.fin c], 1⟩
  | _ => ⟨[.fin d], 1⟩

theorem bar89_data (a b c d : ℚ) : Spec.Data 1 (bar89 a b c d) where
  len k := by match k with | 0 => rfl | 1 => rfl | 2 => rfl | _ + 3 => rfl
  pos k := by match k with | 0 => exact le_refl _ | 1 => exact le_refl _ | 2 => exact le_refl _ | _ + 3 => exact le_refl _

/-- **C89** for these it is not: they add high and low in this order in both charts -/
theorem C89_rounded_order :
    (Call.avgprice (lit 4)).run (Spec.mirrorIn (.avgprice (lit 4)) (bar89 1 (2 ^ 53) 1 1)) ≠
      ((Call.avgprice (lit 4)).run (bar89 1 (2 ^ 53) 1 1)).map (List.map Spec.neg) ∧
    Call.ad.run (Spec.mirrorIn .ad (bar89 (2 ^ 53) 1 (2 ^ 53) 1)) ≠ (Call.ad.run (bar89 (2 ^ 53) 1 (2 ^ 53) 1)).map (List.map Spec.neg) := by
  constructor <;> decide +kernel

/-- bars: high, low, close of a short chart with a missing bar -/
def chart89 : ℕ → Line (Ext ℚ)
  | 0 => ⟨[.fin 11, .fin 13, .fin 12, .nan, .fin 14, .fin 13], 1⟩
  | 1 => ⟨[.fin 9, .fin 10, .fin 8, .nan, .fin 11, .fin 9], 1⟩
  | _ => ⟨[.fin 10, .fin 12, .fin 9, .nan, .fin 13, .fin 10], 1⟩

theorem chart89_data : Spec.Data 6 chart89 where
  len k := by match k with | 0 => rfl | 1 => rfl | _ + 2 => rfl
  pos k := by match k with | 0 => exact le_refl _ | 1 => exact le_refl _ | _ + 2 => exact le_refl _

/-- `di` upside down has its lines exchanged -/
example : (Call.di (.sma : Avg (Ext ℚ)) 2 1 false).Periods ∧ Spec.mirrorParams (Call.di (.sma : Avg (Ext ℚ)) 2 1 false) ∧
    Spec.mirrorOut (Call.di (.sma : Avg (Ext ℚ)) 2 1 false) = some List.reverse ∧
    ((Call.di .sma 2 1 false).run chart89).toOption.isSome = true := by
  refine ⟨?_, trivial, rfl, by decide +kernel⟩
  simp [Call.Periods, Avg.Periods]

/-- `cmo` changes its sign, which it has -/
example : (Call.cmo .sma 2).run (fun k => if k = 0 then chart89 2 else chart89 k) = .ok [⟨[.nan, .nan, .fin (-20), .nan, .nan, .nan], 3⟩] := by
  decide +kernel

/-- **C89** `sar`: upside down it changes its sign if the first two bars show a direction; ... -/
theorem C89_sar {n : ℕ} {x : ℕ → Line (Ext K)} (hx : Spec.Data n x) (AF AFMAX : Ext K) (hd : Spec.directed (x 0) (x 1)) :
    (Call.sar AF AFMAX).run (Spec.mirrorIn (.sar AF AFMAX) x) = ((Call.sar AF AFMAX).run x).map (List.map Spec.neg) := by
  have h := Mi.sar AF AFMAX (Mi.B.of (hx.len 0) (hx.pos 0)) (Mi.B.of (hx.len 1) (hx.pos 1)) hd
  show oneE (Ind.sar AF AFMAX (Spec.neg (x 1)) (Spec.neg (x 0))) = _
  rw [h]
  show oneE ((Ind.sar AF AFMAX (x 0) (x 1)).map Spec.neg) = (oneE (Ind.sar AF AFMAX (x 0) (x 1))).map _
  cases Ind.sar AF AFMAX (x 0) (x 1) <;> rfl

example : Spec.directed (chart89 0) (chart89 1) :=
  ⟨11, 9, 13, 10, rfl, rfl, rfl, rfl, Or.inl (by norm_num)⟩

/-- **C89** ... if they show none it starts long in both charts, and does not. -/
theorem C89_sar_undirected : ∃ x : ℕ → Line (Ext ℚ), Spec.Data 3 x ∧
    (Call.sar (.fin (2 / 100)) (.fin (2 / 10))).run (Spec.mirrorIn (.sar (.fin (2 / 100)) (.fin (2 / 10))) x) ≠
      ((Call.sar (.fin (2 / 100)) (.fin (2 / 10))).run x).map (List.map Spec.neg) := by
  refine ⟨fun k => if k = 0 then ⟨[.fin 10, .fin 10, .fin 10], 1⟩ else ⟨[.fin 5, .fin 5, .fin 5], 1⟩, ⟨?_, ?_⟩, by decide +kernel⟩
  · intro k; by_cases h : k = 0 <;> simp [h]
  · intro k; by_cases h : k = 0 <;> simp [h]

/-- **C89** Williams' %R of the turned chart is the fast %K of the chart, with its sign changed -/
theorem C89_williamsr {n : ℕ} {x : ℕ → Line (Ext K)} (hx : Spec.Data n x) {p : ℕ} (hp : 1 ≤ p) (ma : Avg (Ext K)) (pf : ℕ)
    {k d : Line (Ext K)} (hr : (Call.stochf ma p pf).run x = .ok [k, d]) :
    (Call.williamsr p).run (fun i => Spec.neg (x (if i = 0 then 1 else if i = 1 then 0 else i))) = .ok [Spec.neg k] := by
  have hB : ∀ i, Mi.B n (x i) := fun i => Mi.B.of (hx.len i) (hx.pos i)
  show Bta.one (Ind.williamsr p (Spec.neg (x 1)) (Spec.neg (x 0)) (Spec.neg (x 2))) = _
  rw [Mi.williamsr (hB 0) (hB 1) (hB 2) hp]
  obtain ⟨y, hy, hr⟩ := Mi.bind_ok (show _ >>= _ = Except.ok [k, d] from hr)
  obtain ⟨z, hz, hy⟩ := Mi.bind_ok (show _ >>= _ = Except.ok y from hy)
  injection hy with hy
  subst hy
  injection hr with hr
  injection hr with hr
  rw [← hr]
  rfl

/-- **C89** and the fast %K of the turned chart is Williams' %R of the chart, with its sign changed -/
theorem C89_stochf {n : ℕ} {x : ℕ → Line (Ext K)} (hx : Spec.Data n x) {p : ℕ} (hp : 1 ≤ p) (ma : Avg (Ext K)) (pf : ℕ)
    {k d : Line (Ext K)}
    (hr : (Call.stochf ma p pf).run (fun i => Spec.neg (x (if i = 0 then 1 else if i = 1 then 0 else i))) = .ok [k, d]) :
    (Call.williamsr p).run x = .ok [Spec.neg k] := by
  have hB : ∀ i, Mi.B n (x i) := fun i => Mi.B.of (hx.len i) (hx.pos i)
  obtain ⟨y, hy, hr⟩ := Mi.bind_ok (show _ >>= _ = Except.ok [k, d] from hr)
  obtain ⟨z, hz, hy⟩ := Mi.bind_ok (show _ >>= _ = Except.ok y from hy)
  injection hy with hy
  subst hy
  injection hr with hr
  injection hr with hr
  rw [← hr]
  show _ = Except.ok [Spec.neg (Line.rmulS (lit 100) (Spec.neg (x 2) - Ind.lowest p (Spec.neg (x 0))) /
    (Ind.highest p (Spec.neg (x 1)) - Ind.lowest p (Spec.neg (x 0))))]
  rw [Mi.fastK (hB 0) (hB 1) (hB 2) hp, Mi.neg_neg]
  rfl

/-- **C89** the relative strength index of the turned chart is the complement to 100, wherever it has a finite value; elsewhere the
two agree (both missing) -/
theorem C89_rsi {n : ℕ} {x : ℕ → Line (Ext K)} (hx : Spec.Data n x) {ma : Avg (Ext K)} {q p : ℕ} (hk : (Call.rsi ma q p).Periods)
    {r : Line (Ext K)} (hr : (Call.rsi ma q p).run x = .ok [r]) :
    ∃ r', (Call.rsi ma q p).run (fun i => Spec.neg (x i)) = .ok [r'] ∧ r'.minperiod = r.minperiod ∧
      r'.series.length = r.series.length ∧
      ∀ i, i < n → ((∃ v, r.series[i]? = some (.fin v) ∧ r'.series[i]? = some (.fin (100 - v))) ∨
        ((∀ v, r.series[i]? ≠ some (.fin v)) ∧ r'.series[i]? = r.series[i]?)) := by
  obtain ⟨y, hy, hr⟩ := Mi.bind_ok (show _ >>= _ = Except.ok [r] from hr)
  injection hr with hr
  injection hr with hr
  subst hr
  obtain ⟨r', h1, h2⟩ := Mi.rsi (Mi.B.of (hx.len 0) (hx.pos 0)) (fun b hb => Mi.maB hk b hb) hy
  refine ⟨r', ?_, h2⟩
  show oneE (Ind.rsi ma.run q p (Spec.neg (x 0))) = _
  rw [h1]; rfl

/-- a rise of 2 after a fall of 1: two thirds, upside down one third; before that the average is missing -/
example : (Call.rsi .sma 1 2).run (fun _ => (⟨[.fin 10, .fin 9, .fin 11], 1⟩ : Line (Ext ℚ))) = .ok [⟨[.nan, .nan, .fin (200 / 3)], 3⟩] ∧
    (Call.rsi .sma 1 2).run (fun _ => (⟨[.fin (-10), .fin (-9), .fin (-11)], 1⟩ : Line (Ext ℚ))) =
      .ok [⟨[.nan, .nan, .fin (100 - 200 / 3)], 3⟩] := by
  decide +kernel

/-- %K and %R of a chart with a missing bar -/
example : (Call.stochf .sma 2 1).run chart89 =
      .ok [⟨[.nan, .fin 75, .fin 20, .nan, .nan, .fin 20], 2⟩, ⟨[.nan, .fin 75, .fin 20, .nan, .nan, .fin 20], 2⟩] ∧
    (Call.williamsr 2).run (fun i => Spec.neg (chart89 (if i = 0 then 1 else if i = 1 then 0 else i))) =
      .ok [⟨[.nan, .fin (-75), .fin (-20), .nan, .nan, .fin (-20)], 2⟩] := by
  decide +kernel

end Bta
