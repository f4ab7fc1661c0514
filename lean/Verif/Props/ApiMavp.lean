import Verif.ApiMavp
import Verif.Props.Mavp
import Verif.Props.ApiCalls
import Verif.Props.ApiTalib

/-!
# Averages within indicators (C126)

An average handed over as parameter of an indicator is the average a user calls; `mavp` called with keywords.
-/

namespace Bta.Api

open Meta Py

variable {V : Type} [PyFloat V]

/-- the classes which can be called as averages of one line over a period -/
def _root_.Spec.averages : List Cls :=
  [.sma, .ema, .smma, .ewma, .wma, .«sum», .trima, .dema, .tema, .trix, .gdema, .t3, .kama, .smacc]

theorem ma_class (E : Env V) (v : PyVal) (A : Avg V) (h : ma E v = .ok A) :
    ∃ c ∈ Spec.averages, v = .cls c.row.name := by
  unfold ma at h
  rw [avgOf] at h
  cases hc : asCls v with
  | error e => rw [hc] at h; cases h
  | ok c =>
    refine ⟨c, ?_, asCls_ok hc⟩
    rw [hc] at h
    by_contra hn
    cases hr : resolve E.talib c (("period", .int 1) :: []) with
    | error e => simp only [bind, Except.bind] at h; rw [hr] at h; cases h
    | ok s =>
      simp only [bind, Except.bind] at h
      rw [hr] at h
      revert h hn
      clear hr hc
      cases c <;> intro hn h <;> first | (simp [Spec.averages] at hn; done) | (cases h; done)

theorem inner_is_call (E : Env V) (c : Cls) (hc : c ∈ Spec.averages) (A : Avg V) (h : ma E (.cls c.row.name) = .ok A) (q : ℕ)
    (x : Line V) : call E c [("period", .int q)] [x] = lift (oneE (A.run q x)) := by
  unfold ma at h
  rw [avgOf_succ] at h
  obtain ⟨fn, radians, deg, ht, scipy, talib⟩ := E
  have e2 := ema_on (⟨fn, radians, deg, ht, scipy, talib⟩ : Env V) 1
  have e3 := ema_on (⟨fn, radians, deg, ht, scipy, talib⟩ : Env V) 2
  simp only [Spec.averages, List.mem_cons, List.not_mem_nil, or_false] at hc
  rcases hc with rfl | rfl | rfl | rfl | rfl | rfl | rfl | rfl | rfl | rfl | rfl | rfl | rfl | rfl <;> cases talib <;> first
    | (cases h; rfl)
    | (have h' : (avgOf _ 2 [] (.cls "ema")).bind (fun a => _) = .ok A := h
       rw [e2] at h'
       cases h'
       show ((avgOf _ 3 [] (.cls "ema")).bind fun a => _).bind _ = _
       rw [e3]
       rfl)

/-! ## C126 -/

/-- What a user gets from calling an average on a line: the class is the value `v` (that of a parameter such as `_ma`) and the
keyword `period` has the value `q`. -/
def _root_.Spec.Applied (E : Env V) (v q : Option PyVal) (x o : Line V) : Prop :=
  ∃ c ∈ Spec.averages, ∃ n : ℕ, v = some (.cls c.row.name) ∧ q = some (.int n) ∧
    call E c [("period", .int n)] [x] = .ok [o]

/-- python's `a or b` for values of parameters -/
def _root_.Spec.orElse (a b : Option PyVal) : Option PyVal :=
  match a with
  | some v => if v.truthy then some v else b
  | none => none

/-- The documented formulas of the indicators with a choice of average, with calls of the classes of the library and operators
between lines only: outputs `o` for the inputs `x`. -/
def _root_.Spec.ByCalls (E : Env V) (c : Cls) (kw : Dict String PyVal) (x o : List (Line V)) : Prop :=
  let val := Spec.value E.talib c kw
  let avg := fun k p => Spec.Applied E (val k) (val p)
  match c, x, o with
  | .dema, [x], [o] => ∃ e1 e2, avg "_ma" "period" x e1 ∧ avg "_ma" "period" e1 e2 ∧ o = Line.rmulS (lit 2) e1 - e2
  | .tema, [x], [o] => ∃ e1 e2 e3, avg "_ma" "period" x e1 ∧ avg "_ma" "period" e1 e2 ∧ avg "_ma" "period" e2 e3 ∧
      o = Line.rmulS (lit 3) e1 - Line.rmulS (lit 3) e2 + e3
  | .trix, [x], [o] => ∃ e1 e2 e3, avg "_ma" "period" x e1 ∧ avg "_ma" "period" e1 e2 ∧ avg "_ma" "period" e2 e3 ∧
      call E .roc [("period", .int 1)] [e3] = .ok [o]
  | .apo, [x], [o] => ∃ f s, avg "_ma" "pfast" x f ∧ avg "_ma" "pslow" x s ∧ o = f - s
  | .ppo, [x], [o, sg, hist] => ∃ f s, avg "_ma" "pfast" x f ∧ avg "_ma" "pslow" x s ∧
      o = Line.rmulS (lit 100) ((f / s).subS (lit 1)) ∧
      Spec.Applied E (Spec.orElse (val "_masig") (val "_ma")) (val "psignal") o sg ∧ hist = o - sg
  | .ppofast, [x], [o, sg, hist] => ∃ f s, avg "_ma" "pfast" x f ∧ avg "_ma" "pslow" x s ∧
      o = Line.rmulS (lit 100) ((s / f).subS (lit 1)) ∧
      Spec.Applied E (Spec.orElse (val "_masig") (val "_ma")) (val "psignal") o sg ∧ hist = o - sg
  | .macd, [x], [o, sg, hist] => Spec.compat E.talib kw = false → ∃ f s, avg "_ma" "pfast" x f ∧ avg "_ma" "pslow" x s ∧
      o = f - s ∧ Spec.Applied E (Spec.orElse (val "_masig") (val "_ma")) (val "psignal") o sg ∧ hist = o - sg
  | .rsi, [x], [o] => ∃ (n : ℕ) (d u w : Line V), val "lookback" = some (.int n) ∧
      call E .mom [("period", .int n)] [x] = .ok [d] ∧ avg "_ma" "period" (d.clipLoS (lit 0)) u ∧
      avg "_ma" "period" (d.clipHiS (lit 0)).abs w ∧
      o = Line.rsubS (lit 100) (Line.rdivS (lit 100) (Line.raddS (lit 1) (u / w)))
  | .cmo, [x], [o] => ∃ (d u w : Line V), call E .mom [("period", .int 1)] [x] = .ok [d] ∧
      avg "_sum" "period" (d.clipLoS (lit 0)) u ∧ avg "_sum" "period" (d.clipHiS (lit 0)).abs w ∧
      o = Line.rmulS (lit 100) (u - w) / (u + w)
  | .bbands, [x], [mid, top, bot] => ∃ (n : ℕ) (sd : Line V) (v : PyVal) (k : V), avg "_ma" "period" x mid ∧
      val "period" = some (.int n) ∧ call E .stddev [("period", .int n)] [x] = .ok [sd] ∧
      val "devs" = some v ∧ asNum v = .ok k ∧ top = mid + Line.rmulS k sd ∧ bot = mid - Line.rmulS k sd
  | .cci, [h, l, c], [o] => ∃ (n : ℕ) (tp m md : Line V) (v : PyVal) (k : V), call E .typprice [] [h, l, c] = .ok [tp] ∧
      avg "_ma" "period" tp m ∧ val "period" = some (.int n) ∧ call E .mad [("period", .int n)] [tp] = .ok [md] ∧
      val "factor" = some v ∧ asNum v = .ok k ∧ o = (tp - m) / md.mulS k
  | .stochf, [h, l, c], [k, d] => ∃ (n : ℕ) (hh ll : Line V), val "period" = some (.int n) ∧
      call E .«max» [("period", .int n)] [h] = .ok [hh] ∧ call E .«min» [("period", .int n)] [l] = .ok [ll] ∧
      k = Line.rmulS (lit 100) (c - ll) / (hh - ll) ∧ avg "_ma" "pfast" k d
  | .stochastic, [h, l, c], [k, d] => ∃ (n : ℕ) (k0 d0 : Line V), val "period" = some (.int n) ∧
      call E .stochf [("period", .int n)] [h, l, c] = .ok [k0, d0] ∧ avg "_ma" "pfast" k0 k ∧
      Spec.Applied E (Spec.orElse (val "_maslow") (val "_ma")) (val "pslow") k d
  | .stochrsi, [x], out => Spec.compat E.talib kw = false → ∃ (n m : ℕ) (r hh ll o : Line V) (v : PyVal) (k : V), out = [o] ∧
      val "period" = some (.int n) ∧ call E .rsi [("period", .int n)] [x] = .ok [r] ∧
      Spec.orElse (val "_philo") (val "period") = some (.int m) ∧
      call E .«max» [("period", .int m)] [r] = .ok [hh] ∧ call E .«min» [("period", .int m)] [r] = .ok [ll] ∧
      val "_scale" = some v ∧ asNum v = .ok k ∧ o = ((r - ll) / (hh - ll)).mulS k
  | .atr, [h, l, c], [o] => ∃ (n : ℕ) (tr : Line V), val "_period" = some (.int n) ∧
      call E .truerange [("_period", .int n)] [h, l, c] = .ok [tr] ∧ avg "_ma" "period" tr o
  | .natr, [h, l, c], [o] => ∃ (n : ℕ) (tr a : Line V), val "_period" = some (.int n) ∧
      call E .truerange [("_period", .int n)] [h, l, c] = .ok [tr] ∧ avg "_ma" "period" tr a ∧
      o = Line.rmulS (lit 100) a / c
  | .adosc, [h, l, c, v], [o] => ∃ a f s, call E .ad [] [h, l, c, v] = .ok [a] ∧ avg "_ma" "pfast" a f ∧
      avg "_ma" "pslow" a s ∧ o = f - s
  | _, _, _ => False

/-- the classes of `Spec.ByCalls` -/
def _root_.Spec.withAverage : List Cls :=
  [.dema, .tema, .trix, .apo, .ppo, .ppofast, .macd, .rsi, .cmo, .bbands, .cci, .stochf, .stochastic, .stochrsi, .atr,
   .natr, .adosc]

/-! ### Lemmas -/

theorem call_parts {E : Env V} {c : Cls} {kw : Dict String PyVal} {x o : List (Line V)} (h : call E c kw x = .ok o) :
    ∃ s r, resolve E.talib c kw = .ok s ∧ build E s c = .ok r ∧ r.run (nth (inputsOf c x)) = .ok o := by
  unfold call at h
  obtain ⟨s, hs, h⟩ := ok_bind h
  obtain ⟨r, hr, h⟩ := ok_bind h
  refine ⟨s, r, hs, hr, ?_⟩
  cases hx : r.run (nth (inputsOf c x)) with
  | error e => rw [hx] at h; cases h
  | ok o' => rw [hx] at h; cases h; rfl

theorem applied_of {E : Env V} {v : PyVal} {A : Avg V} (hA : ma E v = .ok A) {n : ℕ} {x o : Line V} (h : A.run n x = .ok o) :
    Spec.Applied E (some v) (some (.int n)) x o := by
  obtain ⟨c, hc, rfl⟩ := ma_class E v A hA
  refine ⟨c, hc, n, rfl, rfl, ?_⟩
  rw [inner_is_call E c hc A hA, h]
  rfl

theorem maOf_parts {E : Env V} {p : String → Option PyVal} {k : String} {A : Avg V} (h : maOf E p k = .ok A) :
    ∃ v, p k = some v ∧ ma E v = .ok A := by
  unfold maOf at h
  obtain ⟨v, hv, h⟩ := ok_bind h
  exact ⟨v, ok_need hv, h⟩

theorem either_parts {p : String → Option PyVal} {a b : String} {v : PyVal} (h : either p a b = .ok v) :
    Spec.orElse (p a) (p b) = some v := by
  unfold either at h
  obtain ⟨w, hw, h⟩ := ok_bind h
  rw [ok_need hw]
  unfold Spec.orElse
  simp only []
  split at h
  · rename_i ht
    obtain rfl := ok_pure h
    rw [if_pos ht]
  · rename_i ht
    rw [if_neg ht, ok_need h]

section
variable {E : Env V} {c : Cls} {kw : Dict String PyVal} {s : Seen} (hn : (keys kw).Nodup) (hs : resolve E.talib c kw = .ok s)
include hn hs

theorem avg_applied {k kp : String} (hk : k ≠ "_talib") (hkp : kp ≠ "_talib") {A : Avg V} (hA : maOf E (get? s.params) k = .ok A)
    {n : ℕ} (hp : nat (get? s.params) kp = .ok n) {x o : Line V} (h : A.run n x = .ok o) :
    Spec.Applied E (Spec.value E.talib c kw k) (Spec.value E.talib c kw kp) x o := by
  obtain ⟨v, h1, h2⟩ := maOf_parts hA
  rw [param_value hn hs hk h1, param_value hn hs hkp (ok_nat hp)]
  exact applied_of h2 h

theorem nat_value {kp : String} (hkp : kp ≠ "_talib") {n : ℕ} (hp : nat (get? s.params) kp = .ok n) :
    Spec.value E.talib c kw kp = some (.int n) := param_value hn hs hkp (ok_nat hp)

theorem params_value {k : String} (hk : k ≠ "_talib") (hd : (get? c.defaults k).isSome = true) :
    get? s.params k = Spec.value E.talib c kw k := by
  rw [resolve_params hn hs, if_pos hd, eff_value _ _ _ _ hk]

theorem either_applied {a b kp : String} (ha : a ≠ "_talib") (hb : b ≠ "_talib") (hkp : kp ≠ "_talib")
    (hda : (get? c.defaults a).isSome = true) (hdb : (get? c.defaults b).isSome = true) {v : PyVal}
    (hv : either (get? s.params) a b = .ok v) {A : Avg V} (hA : ma E v = .ok A)
    {n : ℕ} (hp : nat (get? s.params) kp = .ok n) {x o : Line V} (h : A.run n x = .ok o) :
    Spec.Applied E (Spec.orElse (Spec.value E.talib c kw a) (Spec.value E.talib c kw b)) (Spec.value E.talib c kw kp) x o := by
  rw [← params_value hn hs ha hda, ← params_value hn hs hb hdb, either_parts hv, nat_value hn hs hkp hp]
  exact applied_of hA h

theorem num_value {k : String} (hk : k ≠ "_talib") {y : V} (hp : num (get? s.params) k = .ok y) :
    ∃ v, Spec.value E.talib c kw k = some v ∧ asNum v = .ok y := by
  unfold num at hp
  obtain ⟨v, hv, hp⟩ := ok_bind hp
  exact ⟨v, param_value hn hs hk (ok_need hv), hp⟩

end

/-- calls which the formulas use -/
theorem call_roc (E : Env V) (x : Line V) : call E .roc [("period", .int 1)] [x] = .ok [Ind.roc 1 x] := by
  obtain ⟨fn, radians, deg, ht, scipy, talib⟩ := E; cases talib <;> rfl
theorem call_mom (E : Env V) (n : ℕ) (x : Line V) : call E .mom [("period", .int n)] [x] = .ok [Line.diff n x] := by
  obtain ⟨fn, radians, deg, ht, scipy, talib⟩ := E; cases talib <;> rfl
theorem call_stddev (E : Env V) (n : ℕ) (x : Line V) :
    call E .stddev [("period", .int n)] [x] = .ok [Ind.stddev (E.fn "sqrt") 0 n x] := by
  obtain ⟨fn, radians, deg, ht, scipy, talib⟩ := E; cases talib <;> rfl
theorem call_mad (E : Env V) (n : ℕ) (x : Line V) : call E .mad [("period", .int n)] [x] = .ok [Ind.mad n x] := by
  obtain ⟨fn, radians, deg, ht, scipy, talib⟩ := E; cases talib <;> rfl
theorem call_max (E : Env V) (n : ℕ) (x : Line V) : call E .«max» [("period", .int n)] [x] = .ok [Ind.highest n x] := by
  obtain ⟨fn, radians, deg, ht, scipy, talib⟩ := E; cases talib <;> rfl
theorem call_min (E : Env V) (n : ℕ) (x : Line V) : call E .«min» [("period", .int n)] [x] = .ok [Ind.lowest n x] := by
  obtain ⟨fn, radians, deg, ht, scipy, talib⟩ := E; cases talib <;> rfl
theorem call_typprice (E : Env V) (h l c : Line V) : call E .typprice [] [h, l, c] = .ok [(h + l + c).divS (lit 3)] := by
  obtain ⟨fn, radians, deg, ht, scipy, talib⟩ := E; cases talib <;> rfl
theorem call_truerange (E : Env V) (n : ℕ) (h l c : Line V) :
    call E .truerange [("_period", .int n)] [h, l, c] = .ok [Ind.truerange n h l c] := by
  obtain ⟨fn, radians, deg, ht, scipy, talib⟩ := E; cases talib <;> rfl
theorem call_ad (E : Env V) (h l c v : Line V) : call E .ad [] [h, l, c, v] = .ok [Ind.ad h l c v] := by
  obtain ⟨fn, radians, deg, ht, scipy, talib⟩ := E; cases talib <;> rfl
theorem call_stochf (E : Env V) (n : ℕ) (h l c : Line V) : ∃ d,
    call E .stochf [("period", .int n)] [h, l, c] =
      .ok [Line.rmulS (lit 100) (c - Ind.lowest n l) / (Ind.highest n h - Ind.lowest n l), d] := by
  obtain ⟨fn, radians, deg, ht, scipy, talib⟩ := E; cases talib <;> exact ⟨_, rfl⟩

theorem line1 {x : List (Line V)} (h : x.length = 1) : ∃ a, x = [a] := by
  match x, h with
  | [a], _ => exact ⟨a, rfl⟩
theorem line3 {x : List (Line V)} (h : x.length = 3) : ∃ a b c, x = [a, b, c] := by
  match x, h with
  | [a, b, c], _ => exact ⟨a, b, c, rfl⟩
theorem line4 {x : List (Line V)} (h : x.length = 4) : ∃ a b c d, x = [a, b, c, d] := by
  match x, h with
  | [a, b, c, d], _ => exact ⟨a, b, c, d, rfl⟩

theorem ok_bindE {α β : Type} {x : Except Err α} {f : α → Except Err β} {b : β} (h : (x >>= f) = .ok b) :
    ∃ a, x = .ok a ∧ f a = .ok b := by
  cases x with
  | error e => cases h
  | ok a => exact ⟨a, rfl, h⟩

/-- **C126**: what an indicator with a choice of average gives is its documented formula, in which the average is what a user
gets from calling the class given (by keyword, or by default) with the period given, on the line in question; likewise the
other indicators used within.  Any keywords, with or without ta-lib compatibility, any data, any arithmetic. -/
theorem C126_formula (E : Env V) (c : Cls) (hc : c ∈ Spec.withAverage) (kw : Dict String PyVal) (hn : (keys kw).Nodup)
    (x o : List (Line V)) (hx : x.length = (Spec.inputs c).length) (h : call E c kw x = .ok o) : Spec.ByCalls E c kw x o := by
  obtain ⟨s, r, hs, hr, h⟩ := call_parts h
  simp only [Spec.withAverage, List.mem_cons, List.not_mem_nil, or_false] at hc
  rcases hc with rfl | rfl | rfl | rfl | rfl | rfl | rfl | rfl | rfl | rfl | rfl | rfl | rfl | rfl | rfl | rfl | rfl
  · -- dema
    obtain ⟨x, rfl⟩ := line1 hx
    obtain ⟨A, hA, hr⟩ := ok_bind hr
    obtain ⟨n, hp, hr⟩ := ok_bind hr
    obtain rfl := ok_pure hr
    unfold buildAvg at hA
    obtain ⟨v, hv, hA⟩ := ok_bind hA
    obtain ⟨B, hB, hA⟩ := ok_bind hA
    obtain rfl := ok_pure hA
    obtain ⟨e, he, h⟩ := ok_bindE h
    cases h
    obtain ⟨e1, h1, he⟩ := ok_bindE he
    obtain ⟨e2, h2, he⟩ := ok_bindE he
    cases he
    have hm : maOf E (get? s.params) "_ma" = .ok B := by unfold maOf; rw [hv]; exact hB
    exact ⟨e1, e2, avg_applied hn hs (by decide) (by decide) hm hp h1, avg_applied hn hs (by decide) (by decide) hm hp h2, rfl⟩
  · -- tema
    obtain ⟨x, rfl⟩ := line1 hx
    obtain ⟨A, hA, hr⟩ := ok_bind hr
    obtain ⟨n, hp, hr⟩ := ok_bind hr
    obtain rfl := ok_pure hr
    unfold buildAvg at hA
    obtain ⟨v, hv, hA⟩ := ok_bind hA
    obtain ⟨B, hB, hA⟩ := ok_bind hA
    obtain rfl := ok_pure hA
    obtain ⟨e, he, h⟩ := ok_bindE h
    cases h
    obtain ⟨e1, h1, he⟩ := ok_bindE he
    obtain ⟨e2, h2, he⟩ := ok_bindE he
    obtain ⟨e3, h3, he⟩ := ok_bindE he
    cases he
    have hm : maOf E (get? s.params) "_ma" = .ok B := by unfold maOf; rw [hv]; exact hB
    exact ⟨e1, e2, e3, avg_applied hn hs (by decide) (by decide) hm hp h1, avg_applied hn hs (by decide) (by decide) hm hp h2, avg_applied hn hs (by decide) (by decide) hm hp h3, rfl⟩
  · -- trix
    obtain ⟨x, rfl⟩ := line1 hx
    obtain ⟨A, hA, hr⟩ := ok_bind hr
    obtain ⟨n, hp, hr⟩ := ok_bind hr
    obtain rfl := ok_pure hr
    unfold buildAvg at hA
    obtain ⟨v, hv, hA⟩ := ok_bind hA
    obtain ⟨B, hB, hA⟩ := ok_bind hA
    obtain rfl := ok_pure hA
    obtain ⟨e, he, h⟩ := ok_bindE h
    cases h
    obtain ⟨e1, h1, he⟩ := ok_bindE he
    obtain ⟨e2, h2, he⟩ := ok_bindE he
    obtain ⟨e3, h3, he⟩ := ok_bindE he
    cases he
    have hm : maOf E (get? s.params) "_ma" = .ok B := by unfold maOf; rw [hv]; exact hB
    exact ⟨e1, e2, e3, avg_applied hn hs (by decide) (by decide) hm hp h1, avg_applied hn hs (by decide) (by decide) hm hp h2, avg_applied hn hs (by decide) (by decide) hm hp h3, call_roc E _⟩
  · -- apo
    obtain ⟨x, rfl⟩ := line1 hx
    obtain ⟨A, hA, hr⟩ := ok_bind hr
    obtain ⟨n, hp, hr⟩ := ok_bind hr
    obtain ⟨m, hq, hr⟩ := ok_bind hr
    obtain rfl := ok_pure hr
    obtain ⟨e, he, h⟩ := ok_bindE h
    cases h
    obtain ⟨⟨e1, e2⟩, hp', he⟩ := ok_bindE he
    cases he
    obtain ⟨f1, h1, hp'⟩ := ok_bindE hp'
    obtain ⟨f2, h2, hp'⟩ := ok_bindE hp'
    cases hp'
    exact ⟨_, _, avg_applied hn hs (by decide) (by decide) hA hp h1, avg_applied hn hs (by decide) (by decide) hA hq h2, rfl⟩
  · -- ppo
    obtain ⟨x, rfl⟩ := line1 hx
    obtain ⟨A, hA, hr⟩ := ok_bind hr
    obtain ⟨v, hv, hr⟩ := ok_bind hr
    obtain ⟨B, hB, hr⟩ := ok_bind hr
    obtain ⟨n, hp, hr⟩ := ok_bind hr
    obtain ⟨m, hq, hr⟩ := ok_bind hr
    obtain ⟨k, hg, hr⟩ := ok_bind hr
    obtain rfl := ok_pure hr
    obtain ⟨⟨e0, e1, e2⟩, he, h⟩ := ok_bindE h
    cases h
    obtain ⟨⟨a1, a2⟩, hp', he⟩ := ok_bindE he
    obtain ⟨sg, h3, he⟩ := ok_bindE he
    cases he
    obtain ⟨f1, h1, hp'⟩ := ok_bindE hp'
    obtain ⟨f2, h2, hp'⟩ := ok_bindE hp'
    cases hp'
    exact ⟨_, _, avg_applied hn hs (by decide) (by decide) hA hp h1, avg_applied hn hs (by decide) (by decide) hA hq h2, rfl,
      either_applied hn hs (by decide) (by decide) (by decide) (by decide) (by decide) hv hB hg h3, rfl⟩
  · -- ppofast
    obtain ⟨x, rfl⟩ := line1 hx
    obtain ⟨A, hA, hr⟩ := ok_bind hr
    obtain ⟨v, hv, hr⟩ := ok_bind hr
    obtain ⟨B, hB, hr⟩ := ok_bind hr
    obtain ⟨n, hp, hr⟩ := ok_bind hr
    obtain ⟨m, hq, hr⟩ := ok_bind hr
    obtain ⟨k, hg, hr⟩ := ok_bind hr
    obtain rfl := ok_pure hr
    obtain ⟨⟨e0, e1, e2⟩, he, h⟩ := ok_bindE h
    cases h
    obtain ⟨⟨a1, a2⟩, hp', he⟩ := ok_bindE he
    obtain ⟨sg, h3, he⟩ := ok_bindE he
    cases he
    obtain ⟨f1, h1, hp'⟩ := ok_bindE hp'
    obtain ⟨f2, h2, hp'⟩ := ok_bindE hp'
    cases hp'
    exact ⟨_, _, avg_applied hn hs (by decide) (by decide) hA hp h1, avg_applied hn hs (by decide) (by decide) hA hq h2, rfl,
      either_applied hn hs (by decide) (by decide) (by decide) (by decide) (by decide) hv hB hg h3, rfl⟩
  · -- macd
    obtain ⟨x, rfl⟩ := line1 hx
    obtain ⟨w, hw, hr⟩ := ok_bind hr
    obtain ⟨u, hu, hr⟩ := ok_bind hr
    obtain ⟨F, hF, hr⟩ := ok_bind hr
    obtain ⟨A, hA, hr⟩ := ok_bind hr
    obtain ⟨v, hv, hr⟩ := ok_bind hr
    obtain ⟨B, hB, hr⟩ := ok_bind hr
    obtain ⟨n, hp, hr⟩ := ok_bind hr
    obtain ⟨m, hq, hr⟩ := ok_bind hr
    obtain ⟨k, hg, hr⟩ := ok_bind hr
    obtain rfl := ok_pure hr
    obtain ⟨⟨e0, e1, e2⟩, he, h⟩ := ok_bindE h
    cases h
    obtain ⟨f1, h1, he⟩ := ok_bindE he
    obtain ⟨f2, h2, he⟩ := ok_bindE he
    obtain ⟨sg, h3, he⟩ := ok_bindE he
    cases he
    intro ht
    have hF' : maOf E (get? s.params) "_ma" = .ok F := by
      unfold maOf
      rw [hu]
      rw [resolve_talib hs, ht] at hF
      exact hF
    exact ⟨_, _, avg_applied hn hs (by decide) (by decide) hF' hp h1, avg_applied hn hs (by decide) (by decide) hA hq h2, rfl,
      either_applied hn hs (by decide) (by decide) (by decide) (by decide) (by decide) hv hB hg h3, rfl⟩
  · -- rsi
    obtain ⟨x, rfl⟩ := line1 hx
    obtain ⟨A, hA, hr⟩ := ok_bind hr
    obtain ⟨n, hp, hr⟩ := ok_bind hr
    obtain ⟨m, hq, hr⟩ := ok_bind hr
    obtain rfl := ok_pure hr
    obtain ⟨e, he, h⟩ := ok_bindE h
    cases h
    obtain ⟨f1, h1, he⟩ := ok_bindE he
    obtain ⟨f2, h2, he⟩ := ok_bindE he
    cases he
    exact ⟨n, _, _, _, nat_value hn hs (by decide) hp, call_mom E n x, avg_applied hn hs (by decide) (by decide) hA hq h1,
      avg_applied hn hs (by decide) (by decide) hA hq h2, rfl⟩
  · -- cmo
    obtain ⟨x, rfl⟩ := line1 hx
    obtain ⟨A, hA, hr⟩ := ok_bind hr
    obtain ⟨m, hq, hr⟩ := ok_bind hr
    obtain rfl := ok_pure hr
    obtain ⟨e, he, h⟩ := ok_bindE h
    cases h
    obtain ⟨f1, h1, he⟩ := ok_bindE he
    obtain ⟨f2, h2, he⟩ := ok_bindE he
    cases he
    exact ⟨_, _, _, call_mom E 1 x, avg_applied hn hs (by decide) (by decide) hA hq h1, avg_applied hn hs (by decide) (by decide) hA hq h2, rfl⟩
  · -- bbands
    obtain ⟨x, rfl⟩ := line1 hx
    obtain ⟨A, hA, hr⟩ := ok_bind hr
    obtain ⟨y, hy, hr⟩ := ok_bind hr
    obtain ⟨m, hq, hr⟩ := ok_bind hr
    obtain rfl := ok_pure hr
    obtain ⟨⟨e0, e1, e2⟩, he, h⟩ := ok_bindE h
    cases h
    obtain ⟨f1, h1, he⟩ := ok_bindE he
    cases he
    obtain ⟨v, hv, hv'⟩ := num_value hn hs (by decide) hy
    exact ⟨m, _, v, y, avg_applied hn hs (by decide) (by decide) hA hq h1, nat_value hn hs (by decide) hq, call_stddev E m x, hv, hv', rfl, rfl⟩
  · -- cci
    obtain ⟨x, y, z, rfl⟩ := line3 hx
    obtain ⟨A, hA, hr⟩ := ok_bind hr
    obtain ⟨k, hk, hr⟩ := ok_bind hr
    obtain ⟨m, hq, hr⟩ := ok_bind hr
    obtain rfl := ok_pure hr
    obtain ⟨e, he, h⟩ := ok_bindE h
    cases h
    obtain ⟨f1, h1, he⟩ := ok_bindE he
    cases he
    obtain ⟨v, hv, hv'⟩ := num_value hn hs (by decide) hk
    exact ⟨m, _, _, _, v, k, call_typprice E x y z, avg_applied hn hs (by decide) (by decide) hA hq h1, nat_value hn hs (by decide) hq,
      call_mad E m _, hv, hv', rfl⟩
  · -- stochf
    obtain ⟨x, y, z, rfl⟩ := line3 hx
    obtain ⟨A, hA, hr⟩ := ok_bind hr
    obtain ⟨n, hp, hr⟩ := ok_bind hr
    obtain ⟨m, hq, hr⟩ := ok_bind hr
    obtain rfl := ok_pure hr
    obtain ⟨⟨e0, e1⟩, he, h⟩ := ok_bindE h
    cases h
    obtain ⟨f1, h1, he⟩ := ok_bindE he
    cases he
    exact ⟨n, _, _, nat_value hn hs (by decide) hp, call_max E n x, call_min E n y, rfl, avg_applied hn hs (by decide) (by decide) hA hq h1⟩
  · -- stochastic
    obtain ⟨x, y, z, rfl⟩ := line3 hx
    obtain ⟨A, hA, hr⟩ := ok_bind hr
    obtain ⟨v, hv, hr⟩ := ok_bind hr
    obtain ⟨B, hB, hr⟩ := ok_bind hr
    obtain ⟨n, hp, hr⟩ := ok_bind hr
    obtain ⟨m, hq, hr⟩ := ok_bind hr
    obtain ⟨k, hg, hr⟩ := ok_bind hr
    obtain rfl := ok_pure hr
    obtain ⟨⟨e0, e1⟩, he, h⟩ := ok_bindE h
    cases h
    obtain ⟨⟨a1, a2⟩, hp', he⟩ := ok_bindE he
    obtain ⟨d, h3, he⟩ := ok_bindE he
    cases he
    obtain ⟨f1, h1, hp'⟩ := ok_bindE hp'
    cases hp'
    obtain ⟨d0, hd⟩ := call_stochf E n x y z
    exact ⟨n, _, d0, nat_value hn hs (by decide) hp, hd, avg_applied hn hs (by decide) (by decide) hA hq h1,
      either_applied hn hs (by decide) (by decide) (by decide) (by decide) (by decide) hv hB hg h3⟩
  · -- stochrsi
    obtain ⟨x, rfl⟩ := line1 hx
    intro ht
    obtain ⟨v, hv, hr⟩ := ok_bind hr
    obtain ⟨m, hm, hr⟩ := ok_bind hr
    have hE : E.talib = false := by
      unfold Spec.compat at ht
      simp only [Bool.or_eq_false_iff] at ht
      exact ht.2
    rw [resolve_talib hs, ht] at hr
    simp only [] at hr
    split at hr
    · rename_i hf
      rw [← hf, if_neg (by decide)] at hr
      obtain ⟨n, hp, hr⟩ := ok_bind hr
      obtain ⟨y, hy, hr⟩ := ok_bind hr
      obtain rfl := ok_pure hr
      obtain ⟨e, he, h⟩ := ok_bindE h
      cases h
      obtain ⟨f1, h1, he⟩ := ok_bindE he
      cases he
      obtain ⟨w, hw, hw'⟩ := num_value hn hs (by decide) hy
      have hv' := either_parts hv
      rw [params_value hn hs (by decide) (by decide), params_value hn hs (by decide) (by decide)] at hv'
      have hm' : v = .int m := by
        unfold asNat at hm
        split at hm
        · cases hm; rfl
        · cases hm
      subst hm'
      refine ⟨n, m, f1, _, _, _, w, y, rfl, nat_value hn hs (by decide) hp, ?_, hv', call_max E m f1, call_min E m f1, hw, hw', rfl⟩
      have : call E .rsi [("period", .int n)] [x] = lift (oneE (Ind.rsi Ind.smma 1 n x)) := by
        obtain ⟨fn, radians, deg, ht, scipy, talib⟩ := E
        cases talib <;> rfl
      have h1' : Ind.rsi Ind.smma 1 n x = .ok f1 := h1
      rw [this, h1']
      rfl
    · cases hr
  · -- atr
    obtain ⟨x, y, z, rfl⟩ := line3 hx
    obtain ⟨A, hA, hr⟩ := ok_bind hr
    obtain ⟨n, hp, hr⟩ := ok_bind hr
    obtain ⟨m, hq, hr⟩ := ok_bind hr
    obtain rfl := ok_pure hr
    obtain ⟨e, he, h⟩ := ok_bindE h
    cases h
    exact ⟨n, _, nat_value hn hs (by decide) hp, call_truerange E n x y z, avg_applied hn hs (by decide) (by decide) hA hq he⟩
  · -- natr
    obtain ⟨x, y, z, rfl⟩ := line3 hx
    obtain ⟨A, hA, hr⟩ := ok_bind hr
    obtain ⟨n, hp, hr⟩ := ok_bind hr
    obtain ⟨m, hq, hr⟩ := ok_bind hr
    obtain rfl := ok_pure hr
    obtain ⟨e, he, h⟩ := ok_bindE h
    cases h
    obtain ⟨f1, h1, he⟩ := ok_bindE he
    cases he
    exact ⟨n, _, _, nat_value hn hs (by decide) hp, call_truerange E n x y z, avg_applied hn hs (by decide) (by decide) hA hq h1, rfl⟩
  · -- adosc
    obtain ⟨x, y, z, w, rfl⟩ := line4 hx
    obtain ⟨A, hA, hr⟩ := ok_bind hr
    obtain ⟨n, hp, hr⟩ := ok_bind hr
    obtain ⟨m, hq, hr⟩ := ok_bind hr
    obtain rfl := ok_pure hr
    obtain ⟨e, he, h⟩ := ok_bindE h
    cases h
    obtain ⟨f1, h1, he⟩ := ok_bindE he
    obtain ⟨f2, h2, he⟩ := ok_bindE he
    cases he
    exact ⟨_, _, _, call_ad E x y z w, avg_applied hn hs (by decide) (by decide) hA hp h1, avg_applied hn hs (by decide) (by decide) hA hq h2, rfl⟩

/-- **C126** for `mavp`: from its first bar on it shows, at each bar, what a user gets from calling the class given as `_ma`
with the period of this bar (restricted to the range given by the keywords). -/
theorem C126_mavp (E : Env V) (kw : Dict String PyVal) (hn : (keys kw).Nodup) (close : Line V) (periods : List ℕ)
    (hlen : periods.length = close.series.length) (hc : 1 ≤ close.minperiod) (r : Line V)
    (h1 : Spec.value E.talib .mavp kw "minperiod" ≠ some (.int 0)) (h2 : Spec.value E.talib .mavp kw "maxperiod" ≠ some (.int 0))
    (h3 : Spec.value E.talib .mavp kw "_ma" ≠ some (.cls "smacc")) (h : callMavp E kw close periods = .ok r) :
    ∃ lo hi : ℕ, Spec.value E.talib .mavp kw "minperiod" = some (.int lo) ∧
      Spec.value E.talib .mavp kw "maxperiod" = some (.int hi) ∧
      ∀ i, i < close.series.length → r.minperiod - 1 ≤ i → ∃ s, r.series[i]? = s.series[i]? ∧
        Spec.Applied E (Spec.value E.talib .mavp kw "_ma") (some (.int (Spec.clipPer lo hi periods i))) close s := by
  unfold callMavp at h
  obtain ⟨s, hs, h⟩ := ok_bind h
  obtain ⟨lo, hlo, h⟩ := ok_bind h
  obtain ⟨hi, hhi, h⟩ := ok_bind h
  obtain ⟨A, hA, h⟩ := ok_bind h
  have hr : Ind.mavp A.run lo hi s.talib close periods = .ok r := by
    cases hx : Ind.mavp A.run lo hi s.talib close periods with
    | error e => rw [hx] at h; cases h
    | ok o' => rw [hx] at h; cases h; rfl
  obtain ⟨v, hv, hm⟩ := maOf_parts hA
  have e1 := nat_value hn hs (by decide) hlo
  have e2 := nat_value hn hs (by decide) hhi
  have e3 := param_value hn hs (k := "_ma") (by decide) hv
  refine ⟨lo, hi, e1, e2, fun i hi1 hi2 => ?_⟩
  obtain ⟨o, ho, hv'⟩ := C125_values hlen hr i hi1 hi2
  have hp : 1 ≤ Spec.clipPer lo hi periods i := by
    have : lo ≠ 0 := by rintro rfl; exact h1 e1
    have : hi ≠ 0 := by rintro rfl; exact h2 e2
    unfold Spec.clipPer
    simp only []
    split_ifs <;> omega
  have hu : A.Periods 1 (Spec.clipPer lo hi periods i) :=
    avgOf_usual E 3 v (by rintro rfl; exact h3 e3) A hm 1 _ hp
  obtain ⟨-, -, -, hl, -⟩ := avg_kept hu hc hc ⟨rfl, le_refl _, fun _ _ => rfl⟩ ho
  refine ⟨o, ?_, ?_⟩
  · rw [hv', List.getElem?_eq_getElem (by omega)]; rfl
  · rw [e3]
    exact applied_of hm ho

/-- **C126** for `mavp` without keywords: simple averages over 2 to 30 bars. -/
theorem C126_mavp_defaults (E : Env V) (close : Line V) (periods : List ℕ) :
    callMavp E [] close periods = lift (Ind.mavp Ind.sma 2 30 E.talib close periods) := by
  obtain ⟨fn, radians, deg, ht, scipy, talib⟩ := E
  cases talib <;> rfl

/-! ### Examples -/

/-- does a call give a result? -/
def gives {α : Type} : Out α → Bool
  | .ok _ => true
  | .error _ => false

/-- `C126_formula` for each class, with other averages than the default ones -/
example : [
    (Cls.dema, [("period", .int 3), ("_ma", .cls "wma")], 2), (.tema, [("period", .int 3), ("_ma", .cls "sma")], 2),
    (.trix, [("period", .int 2), ("_ma", .cls "smma")], 2), (.apo, [("pfast", .int 2), ("pslow", .int 4), ("_ma", .cls "ema")], 2),
    (.ppo, [("pfast", .int 2), ("pslow", .int 4), ("psignal", .int 2), ("_masig", .cls "wma")], 2),
    (.ppofast, [("pfast", .int 2), ("pslow", .int 4), ("psignal", .int 2)], 2),
    (.macd, [("pfast", .int 2), ("pslow", .int 4), ("psignal", .int 2), ("_ma", .cls "sma")], 2),
    (.rsi, [("period", .int 3), ("_ma", .cls "sma")], 2), (.cmo, [("period", .int 3)], 2), (.bbands, [("period", .int 3)], 2),
    (.cci, [("period", .int 3), ("_ma", .cls "ema")], 0), (.stochf, [("period", .int 3), ("pfast", .int 2)], 0),
    (.stochastic, [("period", .int 3), ("pfast", .int 2), ("pslow", .int 2), ("_maslow", .cls "ema")], 0),
    (.stochrsi, [("period", .int 3)], 2), (.atr, [("period", .int 3), ("_ma", .cls "sma")], 0), (.natr, [("period", .int 3)], 0),
    (.adosc, [("pfast", .int 2), ("pslow", .int 3)], (0 : ℕ))].all (fun t =>
      gives (call E0 t.1 t.2.1 ((bars.drop t.2.2).take (Spec.inputs t.1).length))) = true := by
  decide +kernel

/-- `C126_mavp`: exponential averages, periods between 2 and 4 -/
example : callMavp E0 [("maxperiod", .int 4), ("_ma", .cls "ema")] (mk [5, 7, 9, 6, 8]) [2, 3, 9, 1, 3] =
    .ok ⟨[.nan, .nan, .nan, .fin (20/3), .fin (29/4)], 4⟩ := by decide +kernel

end Bta.Api
