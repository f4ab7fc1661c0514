import Verif.Props.ApiCalls
import Verif.Props.Short

/-!
# When a call raises (C124)

Whether a call gives a result or raises an exception, and which one, is settled by the keywords and by the number of bars, not
by the values of the data.
-/

namespace Bta.Api

open Meta Py

variable {V : Type} [PyFloat V]

/-! ## Specification -/

/-- The lines have `n` bars each, with values from the first one on asked for: series, or columns of a frame. -/
def _root_.Spec.PlainBars (n : ℕ) (x : List (Line V)) : Prop := ∀ l ∈ x, l.series.length = n ∧ l.minperiod = 1

/-- Two lines have as many bars and the same minimum period. -/
def _root_.Spec.SameShape (n : ℕ) (a b : Line V) : Prop :=
  a.series.length = n ∧ b.series.length = n ∧ a.minperiod = b.minperiod ∧ 1 ≤ a.minperiod

/-- The fewest bars for which a call without keywords gives a result. -/
def _root_.Spec.fewest : Cls → ℕ
  | .ema => 30
  | .smma => 30
  | .dema => 59
  | .tema => 88
  | .trix => 88
  | .gdema => 9
  | .t3 => 25
  | .kama => 30
  | .mama => 12
  | .smacc => 14
  | .macd => 34
  | .apo => 26
  | .ppo => 34
  | .ppofast => 34
  | .rsi => 15
  | .stochrsi => 15
  | .atr => 15
  | .natr => 15
  | .adosc => 10
  | .plus_dm => 15
  | .minus_dm => 15
  | .dm => 15
  | .plus_di => 15
  | .minus_di => 15
  | .di => 15
  | .dx => 15
  | .adx => 29
  | .adxr => 29
  | .sar => 2
  | .sarext => 2
  | _ => 0

/-! ## Lemmas -/

/-- the same for all limits, or nothing below the limit -/
def Lim (f : ℕ → ℕ) : Prop := (∃ N, ∀ k, f k = N) ∨ ∀ k, k ≤ f k

theorem Lim.const (N : ℕ) : Lim (fun _ => N) := .inl ⟨N, fun _ => rfl⟩

theorem Lim.max {f g : ℕ → ℕ} (hf : Lim f) (hg : Lim g) : Lim (fun k => Max.max (f k) (g k)) := by
  rcases hf with ⟨N, hN⟩ | hf
  · rcases hg with ⟨M, hM⟩ | hg
    · exact .inl ⟨Max.max N M, fun k => by simp only [hN, hM]⟩
    · exact .inr fun k => le_trans (hg k) (le_max_right _ _)
  · exact .inr fun k => le_trans (hf k) (le_max_left _ _)

theorem Lim.ite {p : Prop} [Decidable p] {f g : ℕ → ℕ} (hf : Lim f) (hg : Lim g) : Lim (fun k => if p then f k else g k) := by
  by_cases h : p
  · simpa only [if_pos h] using hf
  · simpa only [if_neg h] using hg

theorem lim_id : Lim (fun k => k) := .inr fun k => le_refl k

omit [PyFloat V] in
theorem lim_avg (A : Avg V) (p : ℕ) : ∀ m, Lim (fun k => Spec.avgBars k A p m) := by
  induction A with
  | kama => exact fun m => Lim.ite (Lim.const _) lim_id
  | dema A ih => exact fun m => (ih _).max (ih _)
  | gdema A _ ih => exact fun m => (ih _).max (ih _)
  | tema A ih => exact fun m => (ih _).max ((ih _).max (ih _))
  | trix A ih => exact fun m => (ih _).max ((ih _).max (ih _))
  | t3gd A _ ih => exact fun m => ((ih _).max (ih _)).max (((ih _).max (ih _)).max ((ih _).max (ih _)))
  | _ => exact fun m => Lim.const _

omit [PyFloat V] in
theorem lim_bars (m : ℕ → ℕ) (r : Bta.Call V) : Lim (fun k => Spec.bars k m r) := by
  cases r
  all_goals first
    | exact Lim.const _
    | exact lim_avg _ _ _
    | exact (lim_avg _ _ _).max (lim_avg _ _ _)
    | exact (lim_avg _ _ _).max ((lim_avg _ _ _).max (lim_avg _ _ _))
    | exact ((lim_avg _ _ _).max (lim_avg _ _ _)).max (lim_avg _ _ _)
    | exact (Lim.const _).max (lim_avg _ _ _)
    | exact Lim.ite (Lim.const _) lim_id

omit [PyFloat V] in
/-- a call which is built refuses data for lack of bars only, unless it is one of the four or `crossover` -/
theorem other_reasons {r : Bta.Call V} (hb : ¬ r.HtBack) (hc : ∀ s, r ≠ .crossover s) : ¬ Spec.OtherReasons r := by
  cases r <;> first
    | exact id
    | exact hb
    | exact absurd rfl (hc _)

/-- lines as bound, padded with the first -/
theorem run_padded {E : Env V} {s : Seen} {c : Cls} {r : Bta.Call V} (h : build E s c = .ok r) {x : List (Line V)}
    (hb : Spec.Bound c x) : ∃ a y, inputsOf c x = a :: y ∧ r.run (nth (inputsOf c x)) = r.run (fun i => (a :: y).getD i a) := by
  have hw := inputsOf_width c hb
  have h1 : 1 ≤ Spec.width c := by
    unfold Spec.width
    split
    · exact le_refl _
    · exact inputs_pos c
  revert hw
  generalize inputsOf c x = y
  intro hw
  cases y with
  | nil => exact absurd (le_trans h1 hw) (Nat.not_succ_le_zero 0)
  | cons a y =>
    refine ⟨a, y, rfl, build_width E s c r h fun i hi => ?_⟩
    unfold nth
    have hi : i < (a :: y).length := lt_of_lt_of_le hi hw
    simp only [List.getD_eq_getElem?_getD, List.getElem?_eq_getElem hi, Option.getD_some]

/-- as many bars and the same minimum period -/
def Sh (n : ℕ) (a b : Line V) : Prop := ∃ m, Sz n a m ∧ Sz n b m

omit [PyFloat V] in
theorem _root_.Spec.SameShape.sh {n : ℕ} {a b : Line V} (h : Spec.SameShape n a b) : Sh n a b := by
  obtain ⟨h1, h2, h3, h4⟩ := h
  exact ⟨a.minperiod.toNat, ⟨h1, by omega, by omega⟩, h2, by omega, by omega⟩

theorem inputsOf_sz {c : Cls} {n : ℕ} {x x' : List (Line V)} (h : List.Forall₂ (Sh n) x x') :
    List.Forall₂ (Sh n) (inputsOf c x) (inputsOf c x') := by
  have mid : ∀ {a a' b b' : Line V}, Sh n a a' → Sh n b b' → Sh n (Ind.htMid a b) (Ind.htMid a' b') := by
    rintro a a' b b' ⟨m, h1, h2⟩ ⟨k, g1, g2⟩
    exact ⟨_, ⟨(Ln.add h1.1 g1.1).divS, (h1.2.add g1.2).divS⟩, (Ln.add h2.1 g2.1).divS, (h2.2.add g2.2).divS⟩
  unfold inputsOf
  cases h with
  | nil => cases c <;> exact .nil
  | cons h0 h =>
    cases h with
    | nil => cases c <;> exact .cons h0 .nil
    | cons h1 h =>
      cases c
      all_goals first
        | exact .cons (mid h0 h1) .nil
        | exact .cons h0 (.cons h1 h)

/-- the outcomes of two calls: both give a result, or both end in the same way -/
def _root_.Spec.SameEnd {α β : Type} : Out α → Out β → Prop
  | .ok _, .ok _ => True
  | .error e, .error e' => e = e'
  | _, _ => False

theorem run_shape {E : Env V} {s : Seen} {c : Cls} {r : Bta.Call V} (hr : build E s c = .ok r) (hp : r.Periods)
    (hb : ¬ r.HtBack) {n : ℕ} {x x' : List (Line V)} (hx : Spec.Bound c x) (hx' : Spec.Bound c x')
    (hs : List.Forall₂ (Sh n) x x') :
    Spec.SameEnd (lift (r.run (nth (inputsOf c x)))) (lift (r.run (nth (inputsOf c x')))) := by
  by_cases hc : ∃ s, r = .crossover s
  · obtain ⟨s, rfl⟩ := hc
    exact rfl
  · obtain ⟨a, y, e, h⟩ := run_padded hr hx
    obtain ⟨a', y', e', h'⟩ := run_padded hr hx'
    have hs := inputsOf_sz (c := c) hs
    rw [h, h']
    rw [e, e'] at hs
    have h0 : Sh n a a' := by cases hs; assumption
    have hg := fun i => forall₂_getD hs h0 i
    choose m hm hm' using hg
    have ho := other_reasons hb (fun s h => hc ⟨s, h⟩)
    have t := Call.takes (show n < n + 1 from Nat.lt_succ_self n) r hp ho _ m hm
    have t' := Call.takes (show n < n + 1 from Nat.lt_succ_self n) r hp ho _ m hm'
    by_cases hn : Spec.bars (n + 1) m r ≤ n
    · obtain ⟨_, g, _⟩ := t.1 hn
      obtain ⟨_, g', _⟩ := t'.1 hn
      rw [g, g']
      exact trivial
    · rw [t.2 (by omega), t'.2 (by omega)]
      exact rfl

/-! ## Theorems -/

/-- **C124** Whether a call raises, and what, depends on the keywords, the number of bars and the minimum periods of the data,
not on their values: not on prices, missing ones, infinities.  (Missing: the four classes `Spec.hilbertLate`.) -/
theorem C124_shape_partial (E : Env V) (c : Cls) (hc : c ∉ Spec.hilbertLate) (kw : Dict String PyVal)
    (hu : Spec.Usable E.talib c kw) {n : ℕ} {x x' : List (Line V)} (hb : Spec.Bound c x)
    (hs : List.Forall₂ (Spec.SameShape n) x x') : Spec.SameEnd (call E c kw x) (call E c kw x') := by
  have hb' : Spec.Bound c x' := by
    unfold Spec.Bound at *
    rwa [← hs.length_eq]
  unfold call
  cases hres : resolve E.talib c kw with
  | error e => exact rfl
  | ok s =>
    show Spec.SameEnd (build E s c >>= _) (build E s c >>= _)
    cases hr : build E s c with
    | error e => exact rfl
    | ok r =>
      exact run_shape hr (usable_periods hu hres hr) (build_back E s c hc r hr) hb hb' (forall₂_mono (fun _ _ h => h.sh) hs)

theorem plain_takes {E : Env V} {s : Seen} {c : Cls} {r : Bta.Call V} (hr : build E s c = .ok r) (hp : r.Periods)
    (ho : ¬ Spec.OtherReasons r) {n k : ℕ} (hk : n < k) {x : List (Line V)} (hx : Spec.Bound c x) (hs : Spec.PlainBars n x) :
    (Spec.bars k (fun _ => 1) r ≤ n → ∃ o, lift (r.run (nth (inputsOf c x))) = .ok o) ∧
      (n < Spec.bars k (fun _ => 1) r → lift (r.run (nth (inputsOf c x))) = .error (.py .indexError)) := by
  obtain ⟨a, y, e, h⟩ := run_padded hr hx
  have hsh : List.Forall₂ (fun a b : Line V => Sz n a 1 ∧ Sz n b 1) x x := by
    clear hx e h
    induction x with
    | nil => exact .nil
    | cons b x ih =>
      have hb := hs b (List.mem_cons_self ..)
      exact .cons ⟨⟨hb.1, hb.2, le_refl _⟩, hb.1, hb.2, le_refl _⟩ (ih fun l hl => hs l (List.mem_cons_of_mem _ hl))
  have hin : List.Forall₂ (fun a b : Line V => Sz n a 1 ∧ Sz n b 1) (inputsOf c x) (inputsOf c x) := by
    clear hx e hs h
    have mid : ∀ {a b : Line V}, Sz n a 1 → Sz n b 1 → Sz n (Ind.htMid a b) 1 := fun h g =>
      ⟨(Ln.add h.1 g.1).divS, (h.2.add g.2).divS⟩
    unfold inputsOf
    cases hsh with
    | nil => cases c <;> exact .nil
    | cons h0 h =>
      cases h with
      | nil => cases c <;> exact .cons h0 .nil
      | cons h1 h =>
        cases c
        all_goals first
          | exact .cons ⟨mid h0.1 h1.1, mid h0.1 h1.1⟩ .nil
          | exact .cons h0 (.cons h1 h)
  rw [e] at hin
  have h0 : Sz n a 1 ∧ Sz n a 1 := by cases hin; assumption
  have t := Call.takes hk r hp ho _ (fun _ => 1) (fun i => (forall₂_getD hin h0 i).1)
  rw [h]
  refine ⟨fun hn => ?_, fun hn => by rw [t.2 hn]; rfl⟩
  obtain ⟨o, g, _⟩ := t.1 hn
  exact ⟨o, by rw [g]; rfl⟩

/-- **C124** For given keywords a call on series of the same length either always raises the same exception, or there is a
number of bars from which on it always gives a result, and below which it always raises an IndexError. -/
theorem C124_threshold_partial (E : Env V) (c : Cls) (hc : c ∉ Spec.hilbertLate) (kw : Dict String PyVal)
    (hu : Spec.Usable E.talib c kw) (hm : ∃ x, call E c kw x ≠ .error .outside) :
    (∃ e : Err, ∀ (n : ℕ) (x : List (Line V)), Spec.Bound c x → Spec.PlainBars n x → call E c kw x = .error (.py e)) ∨
      ∃ N : ℕ, ∀ (n : ℕ) (x : List (Line V)), Spec.Bound c x → Spec.PlainBars n x →
        (N ≤ n → ∃ o, call E c kw x = .ok o) ∧ (n < N → call E c kw x = .error (.py .indexError)) := by
  obtain ⟨x0, h0⟩ := hm
  unfold call at h0 ⊢
  cases hres : resolve E.talib c kw with
  | error e =>
    rw [hres] at h0
    cases e with
    | outside => exact absurd rfl h0
    | py e => exact .inl ⟨e, fun _ _ _ _ => rfl⟩
  | ok s =>
    rw [hres] at h0
    have h0 : (build E s c >>= fun r => lift (r.run (nth (inputsOf c x0)))) ≠ .error .outside := h0
    show (∃ e : Err, ∀ (n : ℕ) (x : List (Line V)), _ → _ →
        (build E s c >>= fun r => lift (r.run (nth (inputsOf c x)))) = _) ∨
      ∃ N : ℕ, ∀ (n : ℕ) (x : List (Line V)), _ → _ →
        (_ → ∃ o, (build E s c >>= fun r => lift (r.run (nth (inputsOf c x)))) = .ok o) ∧
          (_ → (build E s c >>= fun r => lift (r.run (nth (inputsOf c x)))) = _)
    cases hr : build E s c with
    | error e =>
      rw [hr] at h0
      cases e with
      | outside => exact absurd rfl h0
      | py e => exact .inl ⟨e, fun _ _ _ _ => rfl⟩
    | ok r =>
      by_cases hx : ∃ s, r = .crossover s
      · obtain ⟨s, rfl⟩ := hx
        exact .inl ⟨.typeError, fun _ _ _ _ => rfl⟩
      · have ho := other_reasons (build_back E s c hc r hr) (fun s h => hx ⟨s, h⟩)
        have t := fun n x hb hs => plain_takes hr (usable_periods hu hres hr) ho (show n < n + 1 from Nat.lt_succ_self n) (x := x) hb hs
        rcases lim_bars (fun _ => 1) r with ⟨N, hN⟩ | hl
        · refine .inr ⟨N, fun n x hb hs => ?_⟩
          have t := t n x hb hs
          simp only [hN] at t
          exact t
        · exact .inl ⟨.indexError, fun n x hb hs => (t n x hb hs).2 (hl (n + 1))⟩

theorem documented_build (E : Env V) (hE : E.talib = false) (c : Cls) (r : Bta.Call V) (hr : Spec.documented E c = some r) :
    ∃ s, resolve E.talib c [] = .ok s ∧ build E s c = .ok r := by
  obtain ⟨fn, radians, deg, ht, scipy, talib⟩ := E
  subst hE
  cases c <;> cases hr <;> exact ⟨_, rfl, rfl⟩

theorem documented_bars (E : Env V) (c : Cls) (r : Bta.Call V) (hr : Spec.documented E c = some r)
    (hc : c ∉ [Cls.crossover, .mavp, .truehigh] ++ Spec.hilbertLate) :
    ¬ Spec.OtherReasons r ∧ ∀ k, Spec.bars k (fun _ => 1) r = Spec.fewest c := by
  cases c
  all_goals first
    | exact absurd (by decide) hc
    | (cases hr; done)
    | (cases hr; exact ⟨id, fun k => rfl⟩)

/-- **C124** For calls without keywords the numbers are those of `Spec.fewest`: with 30 bars and more `ema` gives a result,
with fewer it raises; an indicator not listed there gives a result for any number of bars, even for none. -/
theorem C124_defaults_partial (E : Env V) (hE : E.talib = false) (c : Cls) (hp : isPrivate c.row.name = false)
    (hc : c ∉ [Cls.crossover, .mavp, .truehigh] ++ Spec.hilbertLate) (n : ℕ) (x : List (Line V)) (hb : Spec.Bound c x)
    (hx : Spec.PlainBars n x) :
    (Spec.fewest c ≤ n → ∃ o, call E c [] x = .ok o) ∧
      (n < Spec.fewest c → call E c [] x = .error (.py .indexError)) := by
  obtain ⟨r, hr⟩ : ∃ r, Spec.documented E c = some r := by
    have := C117_covered E c hp (fun h => hc (by rw [h]; decide)) (fun h => hc (by rw [h]; decide))
    exact Option.isSome_iff_exists.1 this
  obtain ⟨s, hs, hbd⟩ := documented_build E hE c r hr
  obtain ⟨ho, hN⟩ := documented_bars E c r hr hc
  have hper : r.Periods := by
    by_cases h : c = .smacc
    · subst h
      cases hr
      simp [Call.Periods, Avg.Periods]
    · exact usable_periods (C121_defaults E.talib c h) hs hbd
  have t := plain_takes hbd hper ho (show n < n + 1 from Nat.lt_succ_self n) hb hx
  rw [hN] at t
  unfold call
  rw [hs]
  show (_ → ∃ o, (build E s c >>= _) = .ok o) ∧ (_ → (build E s c >>= _) = _)
  rw [hbd]
  exact t

/-- **C124** fails for the four others: of two series with as many bars one gives a result, the other a ValueError. -/
theorem C124_not_hilbert {K : Type} [Field K] [LinearOrder K] [IsStrictOrderedRing K] [FloorRing K] (E : Env (Ext K))
    {T : Spec.Trig K} (hF : E.ht.Agrees T) (hT : T.Ok) (c : Cls) (hc : c ∈ Spec.hilbertLate) (y : ℕ → K) {n : ℕ} (hn : 37 ≤ n) :
    ∃ x x' : List (Line (Ext K)), Spec.Bound c x ∧ Spec.PlainBars (n + 1) x ∧ Spec.PlainBars (n + 1) x' ∧
      (∃ o, call E c [] x = .ok o) ∧ call E c [] x' = .error (.py .valueError) := by
  refine ⟨[Bta.bars (n + 1) y], [Line.ofSeries ((Bta.bars n y).series ++ [PyFloat.nan])], ?_, ?_, ?_,
    (C121_not_hilbert E hF hT c hc y (by omega)).1, (C121_not_hilbert E hF hT c hc y hn).2⟩
  · simp only [Spec.hilbertLate, List.mem_cons, List.not_mem_nil, or_false] at hc
    rcases hc with rfl | rfl | rfl | rfl <;> exact .inr ⟨rfl, rfl⟩
  · intro l hl
    rcases List.mem_singleton.1 hl with rfl
    exact ⟨by simp [Bta.bars, Line.ofSeries], rfl⟩
  · intro l hl
    rcases List.mem_singleton.1 hl with rfl
    exact ⟨by simp [Bta.bars, Line.ofSeries], rfl⟩

/-! ## Cases -/

/-- `rsi` over 3 bars: usable; with 3 bars an IndexError, with 4 a result, whatever they are (here one is missing) -/
example : Spec.Usable E0.talib .rsi [("period", .int 3)] := usable_of_check (by decide +kernel)

example : call E0 .rsi [("period", .int 3)] [mk [1, 2, 3]] = .error (.py .indexError) ∧
    (call E0 .rsi [("period", .int 3)] [mk [1, 2, 3, 4]]).isOk = true ∧
    (call E0 .rsi [("period", .int 3)] [⟨[.nan, .fin 1, .pinf, .nan], 1⟩]).isOk = true := by decide +kernel

example : Spec.Bound .rsi [mk [1, 2, 3]] ∧ Spec.PlainBars 3 [mk [1, 2, 3]] ∧
    List.Forall₂ (Spec.SameShape 4) [mk [1, 2, 3, 4]] [⟨[.nan, .fin 1, .pinf, .nan], 1⟩] :=
  ⟨.inl rfl, by simp [Spec.PlainBars, mk], .cons ⟨rfl, rfl, rfl, le_refl _⟩ .nil⟩

example (x : List (Line Q)) (n : ℕ) (hb : Spec.Bound .adx x) (hx : Spec.PlainBars n x) (hn : n < 29) :
    call E0 .adx [] x = .error (.py .indexError) :=
  (C124_defaults_partial E0 rfl .adx (by decide) (by decide) n x hb hx).2 hn

end Bta.Api
