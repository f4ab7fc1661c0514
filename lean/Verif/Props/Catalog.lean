import Verif.Lemmas.Checked
import Verif.Spec.Catalog
import Verif.Lemmas.RelInst
import Verif.Props.Ht

/-!
# Every indicator of the library: no repainting, windows, minimum periods (C84-C86)
-/

set_option linter.unusedSectionVars false
set_option linter.unusedVariables false

namespace Bta
open Line

variable {V : Type} [PyFloat V]

theorem Avg.ok_of {acc plain : Prop} : ∀ (m : Avg V) (q p : ℕ), m.Periods q p → (acc ∨ m.Windowed) → (plain ∨ m.Seeded) →
    m.Ok acc plain acc q p
  | .sma, _, _, h, _, _ => h
  | .ema _ _, _, _, h, a, _ => ⟨a.resolve_right id, h⟩
  | .smma _, _, _, h, a, _ => ⟨a.resolve_right id, h⟩
  | .ewma _, _, _, h, _, b => ⟨b.resolve_right id, h⟩
  | .wma, _, _, h, _, _ => h
  | .sumN, _, _, h, _, _ => h
  | .trima, _, _, h, _, _ => h
  | .dema m, _, p, h, a, b => Avg.ok_of m 1 p h a b
  | .tema m, _, p, h, a, b => Avg.ok_of m 1 p h a b
  | .trix m, _, p, h, a, b => Avg.ok_of m 1 p h a b
  | .gdema m _, _, p, h, a, b => Avg.ok_of m 1 p h a b
  | .t3 _, _, _, h, a, _ => ⟨a.resolve_right id, h⟩
  | .t3gd m _, _, p, h, a, b => Avg.ok_of m 1 p h a b
  | .kama _ _ _ _, _, _, h, a, _ => ⟨a.resolve_right id, h⟩
  | .smacc _ _ _, _, _, h, a, _ => ⟨a.resolve_right id, h⟩

theorem Avg.windowed_seeded : ∀ m : Avg V, m.Windowed → m.Seeded
  | .sma, _ => trivial
  | .ema _ _, _ => trivial
  | .smma _, _ => trivial
  | .ewma _, h => h.elim
  | .wma, _ => trivial
  | .sumN, _ => trivial
  | .trima, _ => trivial
  | .dema m, h => Avg.windowed_seeded m h
  | .tema m, h => Avg.windowed_seeded m h
  | .trix m, h => Avg.windowed_seeded m h
  | .gdema m _, h => Avg.windowed_seeded m h
  | .t3 _, _ => trivial
  | .t3gd m _, h => Avg.windowed_seeded m h
  | .kama _ _ _ _, _ => trivial
  | .smacc _ _ _, _ => trivial

theorem Avg.okAll {anyP : Prop} (hP : anyP) (m : Avg V) {q p : ℕ} (h : m.Periods q p) : m.Ok True anyP True q p :=
  m.ok_of q p h (.inl trivial) (.inl hP)

theorem Avg.okSeeded (m : Avg V) {q p : ℕ} (h : m.Periods q p) (h2 : m.Seeded) : m.Ok True False True q p :=
  m.ok_of q p h (.inl trivial) (.inr h2)

theorem Avg.okWindowed (m : Avg V) {q p : ℕ} (h : m.Periods q p) (h2 : m.Windowed) : m.Ok False False False q p :=
  m.ok_of q p h (.inr h2) (.inr (m.windowed_seeded h2))

theorem Call.okAll (c : Call V) (h : c.Periods) (hb : ¬ c.HtBack) : c.Ok True True True False := by
  cases c <;> simp only [Call.Periods, Call.HtBack, Call.Ok, not_true_eq_false] at * <;>
    simp_all [Avg.okAll]
  rcases h with h | h <;> simp_all

theorem Call.okSeeded (c : Call V) (h : c.Periods) (hs : c.Seeded) : c.Ok True False True True := by
  cases c <;> simp only [Call.Periods, Call.Seeded, Call.Ok] at * <;>
    simp_all [Avg.okSeeded]
  rcases h with h | h <;> simp_all

theorem Call.okBars (c : Call V) (h : c.Periods) : c.Ok True True True True := by
  cases c <;> simp only [Call.Periods, Call.Ok] at * <;>
    simp_all [Avg.okAll]
  rcases h with h | h <;> simp_all

theorem Call.okWindowed (c : Call V) (h : c.Periods) (hs : c.Windowed) : c.Ok False False False False := by
  cases c <;> simp only [Call.Periods, Call.Windowed, Call.Ok] at * <;>
    simp_all [Avg.okWindowed]

theorem forall₂_mono {α β : Type} {P Q : α → β → Prop} (h : ∀ a b, P a b → Q a b) {xs : List α} {ys : List β}
    (H : List.Forall₂ P xs ys) : List.Forall₂ Q xs ys := H.imp h

/-- **C84**: adding bars does not change what an indicator gave for the bars there were: if a call gives a result, the same
call on data with bars added at the end does, with as many outputs, and each keeps its minimum period and all its values.
Any number type, any finite or infinite values, NaN included. -/
theorem C84_no_repaint (c : Call V) (hp : c.Periods) (hb : ¬ c.HtBack) {n n' : ℕ} {x x' : ℕ → Line V}
    (hx : Spec.Data n x) (hx' : Spec.Data n' x') (hm : Spec.MoreBars x x') (r : List (Line V)) (hr : c.run x = .ok r) :
    ∃ r', c.run x' = .ok r' ∧ List.Forall₂ Spec.Kept r r' := by
  obtain ⟨r', h1, h2⟩ := Call.rel (causalRel V n n') c (c.okAll hp hb) x x' (fun k =>
    ⟨⟨hx.pos k, (hm.mp k).symm, by rw [hm.ser k]; exact List.take_prefix _ _⟩, hx.len k, hx'.len k⟩) (.inl trivial) r hr
  refine ⟨r', h1, forall₂_mono ?_ h2⟩
  intro o o' h
  have := prefix_iff_get.mp h.pref.ser
  exact ⟨h.pref.mp.symm, this.1, fun i hi => (this.2 i hi).symm⟩

/-- **C85**: an indicator calculated over windows of bars does not depend on how much history is loaded: without the first
`k` bars it gives, from its minimum period on, the same values at the same bars. -/
theorem C85_window_only (c : Call V) (hp : c.Periods) (hw : c.Windowed) {n k : ℕ} {x x' : ℕ → Line V}
    (hx : Spec.Data (n + k) x) (hl : Spec.LaterBars k x x') (h01 : (x 1).minperiod ≤ (x 0).minperiod)
    (r : List (Line V)) (hr : c.run x = .ok r) :
    ∃ r', c.run x' = .ok r' ∧ List.Forall₂ (Spec.SameLater k) r r' := by
  obtain ⟨r', h1, h2⟩ := Call.rel (laterRel V k n) c (c.okWindowed hp hw) x x' (fun j => by
    have hpos := hx.pos j
    have hlen := hx.len j
    refine ⟨(x j).minperiod.toNat, fun i => (x j).series.getD i nan, ⟨hlen, by omega, by omega, ?_⟩,
      ⟨by rw [hl.ser, List.length_drop, hlen]; omega, by rw [hl.mp]; omega, by omega, ?_⟩⟩
    · intro i _ hi
      rw [List.getD_eq_getElem?_getD, List.getElem?_eq_getElem (by omega)]; rfl
    · intro i _ hi
      rw [hl.ser, List.getElem?_drop, Nat.add_comm k i]
      simp only []
      rw [List.getD_eq_getElem?_getD, List.getElem?_eq_getElem (by omega)]
      rfl) (.inr h01) r hr
  refine ⟨r', h1, forall₂_mono ?_ h2⟩
  rintro o o' ⟨m, G, g1, g2⟩
  refine ⟨by rw [g1.mp, g2.mp], by rw [g1.len, g2.len], ?_⟩
  intro i hi hn
  rw [g2.mp] at hi
  rw [g2.len] at hn
  rw [g1.val (i + k) (by omega) (by omega), g2.val i (by omega) hn]

theorem forall₂_get {α β : Type} {R : α → β → Prop} {xs : List α} {ys : List β} (h : List.Forall₂ R xs ys) {q : ℕ} {o : α}
    {o' : β} (ho : xs[q]? = some o) (ho' : ys[q]? = some o') : R o o' := by
  induction h generalizing q with
  | nil => simp at ho
  | cons h1 _ ih =>
    cases q with
    | zero => simp at ho ho'; subst ho ho'; exact h1
    | succ q => exact ih (by simpa using ho) (by simpa using ho')

/-- A minimum period is a window: at a bar from the minimum period on, the value of such an indicator is determined by the
last `minperiod` bars.  Two histories, of any lengths, which agree on these (numbers `i + 1 - minperiod` to `i`, in the
second history moved by `d`) give the same value there. -/
theorem C85_window (c : Call V) (hp : c.Periods) (hw : c.Windowed) {n n' : ℕ} {x x' : ℕ → Line V}
    (hx : Spec.Data n x) (hx' : Spec.Data n' x') (h1 : ∀ k, (x k).minperiod = 1) (h1' : ∀ k, (x' k).minperiod = 1)
    (r r' : List (Line V)) (hr : c.run x = .ok r) (hr' : c.run x' = .ok r') (q : ℕ) (o o' : Line V)
    (ho : r[q]? = some o) (ho' : r'[q]? = some o') (i i' : ℕ) (hi : i < n) (hi' : i' < n')
    (hm : o.minperiod ≤ (i : Int) + 1) (hm' : o.minperiod ≤ (i' : Int) + 1)
    (hag : ∀ k j : ℕ, (j : Int) < o.minperiod → (x k).series[i - j]? = (x' k).series[i' - j]?) :
    o.series[i]? = o'.series[i']? := by
  have hb : ¬ c.HtBack := by
    intro h
    cases c <;> simp [Call.HtBack, Call.Windowed] at h hw
  have hpos : 1 ≤ o.minperiod := by
    obtain ⟨_, h2, h3⟩ := Call.rel (causalRel V n n) c (c.okAll hp hb) x x (fun k =>
      ⟨⟨hx.pos k, rfl, List.prefix_refl _⟩, hx.len k, hx.len k⟩) (.inl trivial) r hr
    rw [hr] at h2
    injection h2 with h2
    subst h2
    exact (forall₂_get h3 ho ho).pref.pos
  obtain ⟨w, hw1⟩ : ∃ w : ℕ, o.minperiod = w := ⟨o.minperiod.toNat, by omega⟩
  -- the window on its own
  set y : ℕ → Line V := fun k => ⟨((x k).series.drop (i + 1 - w)).take w, 1⟩ with hy
  have hyy : y = fun k => ⟨((x' k).series.drop (i' + 1 - w)).take w, 1⟩ := by
    funext k
    rw [hy]
    simp only [Line.mk.injEq, and_true]
    refine List.ext_getElem? ?_
    intro j
    rw [List.getElem?_take, List.getElem?_take]
    by_cases hj : j < w
    · rw [if_pos hj, if_pos hj, List.getElem?_drop, List.getElem?_drop]
      have := hag k (w - 1 - j) (by omega)
      rwa [show i - (w - 1 - j) = i + 1 - w + j by omega, show i' - (w - 1 - j) = i' + 1 - w + j by omega] at this
    · rw [if_neg hj, if_neg hj]
  have key : ∀ {n : ℕ} {x : ℕ → Line V} {r : List (Line V)} {o : Line V} {i : ℕ}, Spec.Data n x → (∀ k, (x k).minperiod = 1) →
      c.run x = .ok r → r[q]? = some o → i < n → w ≤ i + 1 →
      ∃ s b, c.run (fun k => ⟨((x k).series.drop (i + 1 - w)).take w, 1⟩) = .ok s ∧ s[q]? = some b ∧
        b.minperiod = o.minperiod ∧ (o.minperiod = w → o.series[i]? = b.series[w - 1]?) := by
    intro n x r o i hx h1 hr ho hi hwi
    have hd : Spec.Data (n - (i + 1 - w)) (fun k => (⟨(x k).series.drop (i + 1 - w), 1⟩ : Line V)) :=
      ⟨fun k => by simp [hx.len], fun k => by simp⟩
    have ht : Spec.Data w (fun k => (⟨((x k).series.drop (i + 1 - w)).take w, 1⟩ : Line V)) :=
      ⟨fun k => by simp [hx.len]; omega, fun k => by simp⟩
    obtain ⟨u, hu, hu2⟩ := C85_window_only (n := n - (i + 1 - w)) (k := i + 1 - w) c hp hw (x := x)
      (x' := fun k => ⟨(x k).series.drop (i + 1 - w), 1⟩)
      (by rw [show n - (i + 1 - w) + (i + 1 - w) = n by omega]; exact hx) ⟨fun k => (h1 k).symm, fun _ => rfl⟩
      (by rw [h1, h1]) r hr
    obtain ⟨s, hs, -⟩ := Call.rel (mpRel V) c (c.okWindowed hp hw) x
      (fun k => ⟨((x k).series.drop (i + 1 - w)).take w, 1⟩) (fun k => ⟨by rw [h1], by rw [h1]⟩) (.inr (by rw [h1, h1])) r hr
    obtain ⟨u', hu', hk⟩ := C84_no_repaint c hp hb ht hd ⟨fun _ => rfl, fun k => by
      simp only [List.length_take, List.length_drop, hx.len, List.take_take]
      congr 1; omega⟩ s hs
    rw [hu] at hu'
    injection hu' with hu'
    subst hu'
    have hlen1 := hu2.length_eq
    have hlen2 := hk.length_eq
    have hq : q < r.length := by
      by_contra hc
      rw [List.getElem?_eq_none (by omega)] at ho
      cases ho
    obtain ⟨v, hv⟩ : ∃ v, u[q]? = some v := ⟨u[q]'(by omega), List.getElem?_eq_getElem (by omega)⟩
    obtain ⟨b, hbq⟩ : ∃ b, s[q]? = some b := ⟨s[q]'(by omega), List.getElem?_eq_getElem (by omega)⟩
    have f1 := forall₂_get hu2 ho hv
    have f2 := forall₂_get hk hbq hv
    refine ⟨s, b, hs, hbq, by rw [← f1.mp, f2.mp], ?_⟩
    intro how
    have hlb : b.series.length = w := by
      obtain ⟨_, g1, g2⟩ := Call.rel (causalRel V w w) c (c.okAll hp hb) _ _ (fun k =>
        ⟨⟨ht.pos k, rfl, List.prefix_refl _⟩, ht.len k, ht.len k⟩) (.inl trivial) s hs
      rw [hs] at g1
      injection g1 with g1
      subst g1
      exact (forall₂_get g2 hbq hbq).len
    have hlv : v.series.length = n - (i + 1 - w) := by
      obtain ⟨_, g1, g2⟩ := Call.rel (causalRel V _ _) c (c.okAll hp hb) _ _ (fun k =>
        ⟨⟨hd.pos k, rfl, List.prefix_refl _⟩, hd.len k, hd.len k⟩) (.inl trivial) u hu
      rw [hu] at g1
      injection g1 with g1
      subst g1
      exact (forall₂_get g2 hv hv).len
    have hmo := f1.mp
    by_cases hw0 : w = 0
    · omega
    · have e1 := f1.val (w - 1) (by omega) (by omega)
      have e2 := f2.val (w - 1) (by omega)
      rw [← e2, ← e1]
      congr 1; omega
  obtain ⟨s, b, hs, hbq, hsm, hsv⟩ := key hx h1 hr ho hi (by omega)
  obtain ⟨s', b', hs', hbq', hsm', hsv'⟩ := key hx' h1' hr' ho' hi' (by omega)
  rw [← hy] at hs
  rw [← hyy, hs] at hs'
  injection hs' with hs'
  subst hs'
  rw [hbq] at hbq'
  injection hbq' with hbq'
  subst hbq'
  rw [hsv hw1, hsv' (by rw [← hsm', hsm, hw1])]

/-- **C86**: every output of a call has a value for each bar of the data, a minimum period of at least 1, and nothing (NaN)
before its minimum period. -/
theorem C86_starts_at_minperiod (c : Call V) (hp : c.Periods) (hs : c.Seeded) {n : ℕ} {x : ℕ → Line V}
    (hx : Spec.CleanData n x) (r : List (Line V)) (hr : c.run x = .ok r) (o : Line V) (ho : o ∈ r) :
    Spec.StartsAtMinperiod n o := by
  obtain ⟨r', h1, h2⟩ := Call.rel (warmRel V n) c (c.okSeeded hp hs) x x (fun k =>
    ⟨rfl, hx.pos k, hx.len k, hx.pre k⟩) (.inl trivial) r hr
  rw [hr] at h1
  injection h1 with h1
  subst h1
  clear hr
  induction r with
  | nil => cases ho
  | cons a r ih =>
    cases h2 with
    | cons ha h2 =>
      rcases List.mem_cons.mp ho with rfl | ho
      · exact ⟨ha.2.len, ha.2.pos, ha.2.pre⟩
      · exact ih ho h2

theorem one_length {l : Line V} {r : List (Line V)} (h : one l = .ok r) : r.length = 1 := by
  injection h with h; subst h; rfl

theorem oneE_length {l : Except Err (Line V)} {r : List (Line V)} (h : oneE l = .ok r) : r.length = 1 := by
  cases l with
  | error e => cases h
  | ok a => injection h with h; subst h; rfl

theorem twoE_length {l : Except Err (Line V × Line V)} {r : List (Line V)} (h : twoE l = .ok r) : r.length = 2 := by
  cases l with
  | error e => cases h
  | ok a => injection h with h; subst h; rfl

theorem threeE_length {l : Except Err (Line V × Line V × Line V)} {r : List (Line V)} (h : threeE l = .ok r) :
    r.length = 3 := by
  cases l with
  | error e => cases h
  | ok a => injection h with h; subst h; rfl

theorem ok_length {l r : List (Line V)} (h : (Except.ok l : Except Err _) = .ok r) : r.length = l.length := by
  injection h with h; subst h; rfl

set_option maxRecDepth 100000 in
theorem outs_one : ∀ cls ∈ ["sma", "ema", "smma", "ewma", "wma", "sum", "trima", "dema", "tema", "trix", "gdema", "t3",
    "kama", "smacc", "add", "sub", "mult", "div", "max", "min", "maxindex", "minindex", "avgprice", "typprice", "wclprice",
    "medprice", "apo", "mom", "roc", "rocp", "rocr", "rocr100", "rsi", "cmo", "mad", "cci", "var", "var_s", "stddev",
    "stddev_s", "williamsr", "stochrsi", "midprice", "midpoint", "bop", "truelow", "truerange", "atr", "natr",
    "ultimateoscillator", "mfi", "obv", "ad", "adosc", "aroonosc", "linearreg_slope", "linearreg_angle",
    "linearreg_intercept", "linearreg", "tsf", "beta", "correl", "crossup", "crossdown", "crossover", "plus_dm", "minus_dm",
    "plus_di", "minus_di", "dx", "adx", "adxr", "sar", "sarext", "ht_dcperiod", "ht_dcphase", "ht_trendline",
    "ht_trendmode", "sin", "cos", "tan", "sinh", "cosh", "tanh", "asin", "acos", "atan", "ceil", "exp", "floor", "ln",
    "log10", "sqrt"], (Spec.declaredOutputs cls).length = 1 := by decide +kernel

set_option maxRecDepth 100000 in
theorem outs_two : ∀ cls ∈ ["minmax", "minmaxindex", "stochf", "stochastic", "aroon", "dm", "di", "ht_phasor", "ht_sine",
    "mama"], (Spec.declaredOutputs cls).length = 2 := by decide +kernel

set_option maxRecDepth 100000 in
theorem outs_three : ∀ cls ∈ ["macd", "ppo", "ppofast", "bbands"], (Spec.declaredOutputs cls).length = 3 := by
  decide +kernel

/-- **C02** (indicators): every output of every call has exactly the bars of the data, whatever the data hold. -/
theorem C02_indicators (c : Call V) (hp : c.Periods) {n : ℕ} {x : ℕ → Line V} (hx : Spec.Data n x) (r : List (Line V))
    (hr : c.run x = .ok r) (o : Line V) (ho : o ∈ r) : o.series.length = n ∧ 1 ≤ o.minperiod := by
  obtain ⟨r', h1, h2⟩ := Call.rel (barsRel V n) c (c.okBars hp) x x (fun k =>
    ⟨rfl, ⟨hx.pos k, rfl, List.prefix_rfl⟩, hx.len k, hx.len k⟩) (.inl trivial) r hr
  rw [hr] at h1
  injection h1 with h1
  subst h1
  clear hr
  induction r with
  | nil => cases ho
  | cons a r ih =>
    cases h2 with
    | cons ha h2 =>
      rcases List.mem_cons.mp ho with rfl | ho
      · exact ⟨ha.2.len, ha.2.pref.pos⟩
      · exact ih ho h2

/-- **C02** and **C86** for `mavp`, with whatever average and periods (also if the average raises for one of them: then
there is no output): as many bars as the closing prices, a minimum period of at least 1, NaN before it. -/
theorem C86_mavp (ma : MA V) (minp maxp : ℕ) (talib : Bool) (close : Line V) (periods : List ℕ) (r : Line V)
    (hr : Ind.mavp ma minp maxp talib close periods = .ok r) : Spec.StartsAtMinperiod close.series.length r := by
  unfold Ind.mavp at hr
  simp only [bind, Except.bind, pure, Except.pure] at hr
  split at hr
  · cases hr
  · rename_i mas _
    injection hr with hr
    have hmp : ∀ (l : List (ℕ × Line V)) (m : Int), 1 ≤ m → 1 ≤ l.foldl (fun m q => max m q.2.minperiod) m := by
      intro l
      induction l with
      | nil => intro m h; exact h
      | cons q l ih => intro m h; exact ih _ (le_trans h (le_max_left _ _))
    have h1 := hmp mas _ (le_max_right (close.minperiod +
      ((if talib then (maxp : Int) else (((periods.map (Ind.clipBoth minp maxp)).dedup.foldl max 0 : ℕ) : Int)) - 1)) 1)
    rw [← hr]
    generalize List.foldl _ _ _ = M at *
    have hw := Warm.set0 (n := close.series.length) (s := close) (M := M)
      (r := pyFrom ((List.range close.series.length).map fun i => (match mas.find? (fun e =>
        e.1 == (((periods.map (Ind.clipBoth minp maxp))[i]?).getD 0)) with
        | some e => (e.2.series[i]?).getD nan
        | none => nan)) (M - 1)) h1 (by rw [pyFrom_length]; simp)
    exact ⟨hw.len, hw.pos, hw.pre⟩

/-- **C86**: as many outputs as the class declares. -/
theorem C86_outputs (c : Call V) (x : ℕ → Line V) (r : List (Line V)) (hr : c.run x = .ok r) (cls : String)
    (hc : cls ∈ c.names) : r.length = (Spec.declaredOutputs cls).length := by
  cases c with
  | avg m p =>
    rw [oneE_length hr, outs_one]
    cases m <;> (simp only [Call.names, Avg.names] at hc; revert hc; revert cls; simp)
  | ppo b =>
    rw [threeE_length hr, outs_three]
    cases b <;> (simp only [Call.names] at hc; revert hc; revert cls; simp)
  | _ =>
    first
    | (rw [one_length hr, outs_one]; (simp only [Call.names] at hc; revert hc; revert cls; simp))
    | (rw [oneE_length hr, outs_one]; (simp only [Call.names] at hc; revert hc; revert cls; simp))
    | (rw [twoE_length hr, outs_two]; (simp only [Call.names] at hc; revert hc; revert cls; simp))
    | (rw [threeE_length hr, outs_three]; (simp only [Call.names] at hc; revert hc; revert cls; simp))
    | (rw [one_length (checked_ok hr), outs_one]; (simp only [Call.names] at hc; revert hc; revert cls; simp))
    | (rw [ok_length (checked_ok hr), outs_two]; rfl; (simp only [Call.names] at hc; revert hc; revert cls; simp))
    | (rw [ok_length hr, outs_two]; rfl; (simp only [Call.names] at hc; revert hc; revert cls; simp))

/-- The names of the classes in `Spec.defaults` are all classes of the library which can be used, but `mavp`. -/
theorem names_table : ∀ r ∈ Meta.library, r.name ∈
    ["mavp", "truehigh", "_mathrad", "_crossbase", "_linreg_base", "_aroon", "_dm", "_di", "_posc", "_rocbase"] ∨
    r.name ∈ ((Spec.defaults (⟨⟨id, id, id, fun _ => .ok 0, .nan⟩, id, id, .nan, id⟩ : Spec.NumFns (Ext ℚ))).flatMap
      Call.names) := by
  decide +kernel

theorem names_any (N : Spec.NumFns V) : (Spec.defaults N).flatMap Call.names =
    (Spec.defaults (⟨⟨id, id, id, fun _ => .ok 0, .nan⟩, id, id, .nan, id⟩ : Spec.NumFns (Ext ℚ))).flatMap Call.names := by
  simp only [Spec.defaults, List.flatMap_cons, List.flatMap_nil, Call.names, Avg.names]

/-- Every class of the library is one of the calls `C84` to `C86` are about, except `mavp` (C42), `truehigh` (which raises,
C62) and the base classes which are not indicators. -/
theorem C84_covers (N : Spec.NumFns V) (r : Meta.Row) (hr : r ∈ Meta.library)
    (hx : r.name ∉ ["mavp", "truehigh", "_mathrad", "_crossbase", "_linreg_base", "_aroon", "_dm", "_di", "_posc", "_rocbase"]) :
    ∃ c ∈ Spec.defaults N, r.name ∈ c.names := by
  have h := (names_table r hr).resolve_left hx
  rw [← names_any N] at h
  exact List.mem_flatMap.mp h

/-- The default parameters are usable: `C84` holds for every indicator as it comes, but for the four of
`C84_hilbert_partial` (HtNan.lean). -/
theorem C84_defaults (N : Spec.NumFns V) : ∀ c ∈ Spec.defaults N, c.Periods := by
  intro c hc
  simp only [Spec.defaults, List.mem_cons, List.not_mem_nil, or_false] at hc
  repeat' (rcases hc with rfl | hc; · simp [Call.Periods, Avg.Periods])

section
variable {K : Type} [Field K] [LinearOrder K] [IsStrictOrderedRing K]
open Ext

/-- six and eight bars of the same prices, as every input -/
def sample (n : ℕ) : ℕ → Line (Ext ℚ) := fun k => bars n fun i => (10 + (i * i) % 7 + k : ℕ)

theorem sample_data (n : ℕ) : Spec.CleanData n (sample n) where
  len := by intro k; simp [sample, bars, Line.ofSeries]
  pos := by intro k; simp [sample, bars, Line.ofSeries]
  pre := by intro k i hi; simp only [sample, bars, Line.ofSeries] at hi; omega

theorem sample_more {n n' : ℕ} (h : n ≤ n') : Spec.MoreBars (sample n) (sample n') where
  mp := by intro k; rfl
  ser := by
    intro k
    simp only [sample, bars, Line.ofSeries, List.length_map, List.length_range, ← List.map_take, List.take_range,
      Nat.min_eq_left h]

/-- the hypotheses of `C84_no_repaint` are met, e.g. by `macd(2, 3, 2)` on six and eight bars, and it gives a result -/
example : ∃ r, (Call.macd (.ema .avg 0) (.ema .avg 0) (.ema .avg 0) 2 3 2 : Call (Ext ℚ)).run (sample 6) = .ok r ∧
    r.length = 3 ∧ ∃ r', (Call.macd (.ema .avg 0) (.ema .avg 0) (.ema .avg 0) 2 3 2 : Call (Ext ℚ)).run (sample 8) = .ok r' ∧
      List.Forall₂ Spec.Kept r r' := by
  have : ∃ r, (Call.macd (.ema .avg 0) (.ema .avg 0) (.ema .avg 0) 2 3 2 : Call (Ext ℚ)).run (sample 6) = .ok r ∧
      r.length = 3 := by
    have h0 : ((Call.macd (.ema .avg 0) (.ema .avg 0) (.ema .avg 0) 2 3 2 : Call (Ext ℚ)).run (sample 6)).toBool = true := by
      decide +kernel
    cases h : (Call.macd (.ema .avg 0) (.ema .avg 0) (.ema .avg 0) 2 3 2 : Call (Ext ℚ)).run (sample 6) with
    | error e => rw [h] at h0; cases h0
    | ok r => exact ⟨r, rfl, threeE_length h⟩
  obtain ⟨r, h1, h2⟩ := this
  exact ⟨r, h1, h2, C84_no_repaint _ (by simp [Call.Periods, Avg.Periods]) (by simp [Call.HtBack])
    (sample_data 6).toData (sample_data 8).toData (sample_more (by omega)) r h1⟩

/-- the hypotheses of `C85_window_only` are met, e.g. by the Williams oscillator over three bars on eight bars, with and without
the first two -/
example (c : Call (Ext ℚ)) (hc : c = .williamsr 3) (r) (h : c.run (sample 8) = .ok r) :
    ∃ r', c.run (fun k => ⟨(sample 8 k).series.drop 2, (sample 8 k).minperiod⟩) = .ok r' ∧
      List.Forall₂ (Spec.SameLater 2) r r' :=
  C85_window_only (n := 6) (k := 2) (x := sample 8) c (by simp [hc, Call.Periods]) (by simp [hc, Call.Windowed])
    (sample_data 8).toData (by exact ⟨fun _ => rfl, fun _ => rfl⟩) (by simp [sample, bars, Line.ofSeries]) r h

example : ((Call.williamsr 3 : Call (Ext ℚ)).run (sample 8)).toBool = true := by decide +kernel

/-- the value of a recursive average does depend on the history: `ema` is not in `Windowed` -/
example : (Avg.ema .avg 0 : Avg (Ext ℚ)).run 2 (bars 4 fun i => (i * i : ℕ)) = .ok ⟨[nan, fin (1/2), fin (17/6), fin (125/18)], 2⟩ ∧
    (Avg.ema .avg 0 : Avg (Ext ℚ)).run 2 (bars 3 fun i => ((i + 1) * (i + 1) : ℕ)) = .ok ⟨[nan, fin (5/2), fin (41/6)], 2⟩ := by
  constructor <;> decide +kernel

/-- the hypotheses of `C86_starts_at_minperiod` are met -/
example (o : Line (Ext ℚ)) (r) (h : (Call.rsi (.smma .avg) 1 3 : Call (Ext ℚ)).run (sample 8) = .ok r) (ho : o ∈ r) :
    Spec.StartsAtMinperiod 8 o :=
  C86_starts_at_minperiod _ (by simp [Call.Periods, Avg.Periods]) (by simp [Call.Seeded, Avg.Seeded]) (sample_data 8) r h o ho

example : ((Call.rsi (.smma .avg) 1 3 : Call (Ext ℚ)).run (sample 8)).toBool = true := by decide +kernel

/-- What `Avg.Periods` excludes: the seed of an "early" `smacc` on plain data is taken from the end of the data (the
slice starts at index -1), so that adding a bar changes the value there was. -/
theorem C84_early_smacc : ∃ r r' : Line (Ext ℚ),
    (Avg.smacc false true .sum : Avg (Ext ℚ)).run 2 (sample 1 0) = .ok r ∧
    (Avg.smacc false true .sum : Avg (Ext ℚ)).run 2 (sample 2 0) = .ok r' ∧ ¬ Spec.Kept r r' := by
  refine ⟨⟨[fin 10], 1⟩, ⟨[fin 0, fin 11], 1⟩, by decide +kernel, by decide +kernel, ?_⟩
  intro h
  have := h.val 0 (by simp)
  revert this
  decide +kernel

end

end Bta
