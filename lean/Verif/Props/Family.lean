import Verif.Props.ApiMavp

/-!
# Indicators of a family (C127)

Indicators documented in terms of each other agree when called with the same keywords.
-/

namespace Bta.Api

open Meta Py

variable {V : Type} [PyFloat V]

/-! ### Classes which see the same keywords -/

/-- the initialisers of these classes take no keywords of their own -/
theorem initCheck_plain (c : Cls) (h1 : c ≠ .ewma) (h2 : c ≠ .minmaxindex) (hf : Spec.furtherKeywords c = []) (ks : List String) :
    initCheck c.rows 0 ks = if ks = [] then .ok () else .error .typeError := by
  obtain ⟨r, hr, hi, hname, hany, hkws⟩ := takes_rows c (all_mem c) h1 h2
  unfold initCheck
  cases ks with
  | nil =>
    rw [if_pos rfl, if_pos]
    rw [List.all_eq_true]
    intro r _
    unfold takes
    split <;> simp
  | cons k ks =>
    rw [if_neg (List.cons_ne_nil k ks), if_neg]
    rw [List.all_eq_true]
    intro h
    have := h r (by simp [List.mem_filter, hr, hi])
    unfold takes at this
    rw [if_neg hname] at this
    have hk : k ∉ r.kws := fun hk => by
      have := hkws k hk
      rw [hf] at this
      cases this
    simp [hany, hk] at this

theorem resolve_alike (g : Bool) (c d : Cls) (hc : c ≠ .ewma ∧ c ≠ .minmaxindex ∧ Spec.furtherKeywords c = [])
    (hd : d ≠ .ewma ∧ d ≠ .minmaxindex ∧ Spec.furtherKeywords d = []) (h1 : c.defaults = d.defaults) (h2 : c.hooks = d.hooks)
    (kw : Dict String PyVal) : resolve g c kw = resolve g d kw := by
  unfold resolve
  dsimp only
  rw [initCheck_plain c hc.1 hc.2.1 hc.2.2, initCheck_plain d hd.1 hd.2.1 hd.2.2, h1, h2]

/-- a call which names declared parameters only is not refused -/
theorem resolve_known (g : Bool) (c : Cls) (hc : c ≠ .ewma ∧ c ≠ .minmaxindex ∧ Spec.furtherKeywords c = [])
    {kw : Dict String PyVal} (hn : (keys kw).Nodup) (hh : ∀ k ∈ keys (Spec.talibDefaults c), (get? c.defaults k).isSome = true)
    (hk : ∀ k v, get? kw k = some v → k = "_talib" ∨ (get? c.defaults k).isSome = true) : ∃ s, resolve g c kw = .ok s := by
  have he : (fromKwargs ⟨c.defaults, []⟩ (talibKwargs g c.hooks kw)).2 = [] := by
    have hget : ∀ k, get? (fromKwargs ⟨c.defaults, []⟩ (talibKwargs g c.hooks kw)).2 k = none := by
      intro k
      rw [(get?_fromKwargs _ (defaults_nodup c) _ (nodup_talibKwargs g c.hooks hn) k).2]
      split
      · rfl
      · rename_i hd
        rw [get?_talibKwargs g c.hooks hn]
        unfold eff
        have e1 : (if k = "_talib" then none else get? kw k) = none := by
          split
          · rfl
          · rename_i ht
            cases hg : get? kw k with
            | none => rfl
            | some v => exact absurd ((hk k v hg).resolve_left ht) hd
        rw [e1, hooks_flatten c k (fun h => absurd h hc.2.1)]
        split
        · cases hg : get? (Spec.talibDefaults c) k with
          | none => rfl
          | some v => exact absurd (hh k (mem_keys_iff.2 (by rw [hg]; rfl))) hd
        · rfl
    cases hl : (fromKwargs ⟨c.defaults, []⟩ (talibKwargs g c.hooks kw)).2 with
    | nil => rfl
    | cons p l =>
      have := hget p.1
      rw [hl] at this
      simp [get?] at this
  unfold resolve
  dsimp only
  rw [initCheck_plain c hc.1 hc.2.1 hc.2.2, he]
  exact ⟨_, rfl⟩

/-- one output after the other -/
def _root_.Spec.both (a b : Out (List (Line V))) : Out (List (Line V)) := a >>= fun p => b >>= fun q => .ok (p ++ q)

/-- an operation between the outputs -/
def _root_.Spec.comb (f : Line V → Line V → Line V) (a b : Out (List (Line V))) : Out (List (Line V)) :=
  a >>= fun p => b >>= fun q => .ok (List.zipWith f p q)

/-- an operation on each output -/
def _root_.Spec.each (f : Line V → Line V) (a : Out (List (Line V))) : Out (List (Line V)) := a >>= fun p => .ok (p.map f)

/-- **C127**: `dm` gives what `plus_dm` and `minus_dm` give with the same keywords, and raises what they raise. -/
theorem C127_dm (E : Env V) (kw : Dict String PyVal) (x : List (Line V)) :
    call E .dm kw x = Spec.both (call E .plus_dm kw x) (call E .minus_dm kw x) := by
  have e1 := resolve_alike E.talib .plus_dm .dm (by decide) (by decide) rfl rfl kw
  have e2 := resolve_alike E.talib .minus_dm .dm (by decide) (by decide) rfl rfl kw
  unfold call
  rw [e1, e2]
  cases resolve E.talib .dm kw with
  | error e => rfl
  | ok s =>
    simp only [Spec.both, build, bind, Except.bind]
    cases smoother E (get? s.params) with
    | error e => rfl
    | ok A =>
      dsimp only
      cases nat (get? s.params) "period" with
      | error e => rfl
      | ok n =>
        dsimp only
        cases nat (get? s.params) "_period" with
        | error e => rfl
        | ok q =>
          simp only [pure, Except.pure, Call.run, inputsOf, Ind.dm, Ind.plusDm, Ind.minusDm, oneE, twoE, bind, Except.bind]
          cases A.run n (Ind.pdm1 q (nth x 0) (nth x 1)) with
          | error e => rfl
          | ok p =>
            dsimp only
            cases A.run n (Ind.mdm1 q (nth x 0) (nth x 1)) with
            | error e => rfl
            | ok m => rfl

/-- **C127**: `di` gives what `plus_di` and `minus_di` give with the same keywords, and raises what they raise. -/
theorem C127_di (E : Env V) (kw : Dict String PyVal) (x : List (Line V)) :
    call E .di kw x = Spec.both (call E .plus_di kw x) (call E .minus_di kw x) := by
  have e1 := resolve_alike E.talib .plus_di .di (by decide) (by decide) rfl rfl kw
  have e2 := resolve_alike E.talib .minus_di .di (by decide) (by decide) rfl rfl kw
  unfold call
  rw [e1, e2]
  cases resolve E.talib .di kw with
  | error e => rfl
  | ok s =>
    simp only [Spec.both, build, bind, Except.bind]
    cases smoother E (get? s.params) with
    | error e => rfl
    | ok A =>
      dsimp only
      cases nat (get? s.params) "period" with
      | error e => rfl
      | ok n =>
        dsimp only
        cases nat (get? s.params) "_period" with
        | error e => rfl
        | ok q =>
          simp only [pure, Except.pure, Call.run, inputsOf, Ind.di, oneE, twoE, bind, Except.bind]
          cases Ind.plusDi (A.run n) q s.talib (nth x 0) (nth x 1) (nth x 2) with
          | error e => rfl
          | ok p =>
            dsimp only
            cases Ind.minusDi (A.run n) q s.talib (nth x 0) (nth x 1) (nth x 2) with
            | error e => rfl
            | ok m => rfl

/-- **C127**: `dx` is `100 * abs(pdi - mdi) / (pdi + mdi)` of the results of `plus_di` and `minus_di` with the same keywords. -/
theorem C127_dx (E : Env V) (kw : Dict String PyVal) (x : List (Line V)) :
    call E .dx kw x = Spec.comb (fun p m => Line.rmulS (lit 100) (p - m).abs / (p + m))
      (call E .plus_di kw x) (call E .minus_di kw x) := by
  have e1 := resolve_alike E.talib .plus_di .dx (by decide) (by decide) rfl rfl kw
  have e2 := resolve_alike E.talib .minus_di .dx (by decide) (by decide) rfl rfl kw
  unfold call
  rw [e1, e2]
  cases resolve E.talib .dx kw with
  | error e => rfl
  | ok s =>
    simp only [Spec.comb, build, bind, Except.bind]
    cases smoother E (get? s.params) with
    | error e => rfl
    | ok A =>
      dsimp only
      cases nat (get? s.params) "period" with
      | error e => rfl
      | ok n =>
        dsimp only
        cases nat (get? s.params) "_period" with
        | error e => rfl
        | ok q =>
          simp only [pure, Except.pure, Call.run, inputsOf, Ind.dx, oneE, bind, Except.bind]
          cases Ind.plusDi (A.run n) q s.talib (nth x 0) (nth x 1) (nth x 2) with
          | error e => rfl
          | ok p =>
            dsimp only
            cases Ind.minusDi (A.run n) q s.talib (nth x 0) (nth x 1) (nth x 2) with
            | error e => rfl
            | ok m => rfl

/-- **C127**: `natr` is `100 * atr / close` for the `atr` with the same keywords. -/
theorem C127_natr (E : Env V) (kw : Dict String PyVal) (h l c : Line V) :
    call E .natr kw [h, l, c] = Spec.each (fun a => Line.rmulS (lit 100) a / c) (call E .atr kw [h, l, c]) := by
  have e1 := resolve_alike E.talib .atr .natr (by decide) (by decide) rfl rfl kw
  unfold call
  rw [e1]
  cases resolve E.talib .natr kw with
  | error e => rfl
  | ok s =>
    simp only [Spec.each, build, bind, Except.bind]
    cases maOf E (get? s.params) "_ma" with
    | error e => rfl
    | ok A =>
      dsimp only
      cases nat (get? s.params) "_period" with
      | error e => rfl
      | ok n =>
        dsimp only
        cases nat (get? s.params) "period" with
        | error e => rfl
        | ok q =>
          simp only [pure, Except.pure, Call.run, inputsOf, Ind.natr, oneE, bind, Except.bind]
          cases hA : Ind.atr A.run n q (nth [h, l, c] 0) (nth [h, l, c] 1) (nth [h, l, c] 2) with
          | error e => rfl
          | ok p => rfl

/-- one parameter which is a number of bars -/
theorem family1 (E : Env V) (c d : Cls) (hc : c ≠ .ewma ∧ c ≠ .minmaxindex ∧ Spec.furtherKeywords c = [])
    (hd : d ≠ .ewma ∧ d ≠ .minmaxindex ∧ Spec.furtherKeywords d = []) (h1 : d.defaults = c.defaults) (h2 : d.hooks = c.hooks)
    (k : String) (f g : ℕ → Call V) (F : List (Line V) → List (Line V)) (x y : List (Line V))
    (hf : ∀ s, build E s c = nat (get? s.params) k >>= fun n => .ok (f n))
    (hg : ∀ s, build E s d = nat (get? s.params) k >>= fun n => .ok (g n))
    (h : ∀ n, ∃ o, (g n).run (nth (inputsOf d y)) = .ok o ∧ (f n).run (nth (inputsOf c x)) = .ok (F o)) (kw : Dict String PyVal) :
    call E c kw x = call E d kw y >>= fun o => .ok (F o) := by
  unfold call
  rw [resolve_alike E.talib d c hd hc h1 h2 kw]
  cases resolve E.talib c kw with
  | error e => rfl
  | ok s =>
    simp only [bind, Except.bind]
    rw [hf, hg]
    cases nat (get? s.params) k with
    | error e => rfl
    | ok n =>
      obtain ⟨o, e1, e2⟩ := h n
      simp only [bind, Except.bind]
      rw [e1, e2]
      rfl

/-- **C127**: `rocp` is `rocr - 1`, `roc` is `100 * rocp` and `rocr100` is `100 * rocr`, with the same keywords. -/
theorem C127_roc (E : Env V) (kw : Dict String PyVal) (x : List (Line V)) :
    call E .rocp kw x = Spec.each (fun r => r.subS (lit 1)) (call E .rocr kw x) ∧
    call E .roc kw x = Spec.each (fun r => Line.rmulS (lit 100) r) (call E .rocp kw x) ∧
    call E .rocr100 kw x = Spec.each (fun r => Line.rmulS (lit 100) r) (call E .rocr kw x) :=
  ⟨family1 E .rocp .rocr (by decide) (by decide) rfl rfl "period" .rocp .rocr _ x x (fun _ => rfl) (fun _ => rfl)
     (fun _ => ⟨_, rfl, rfl⟩) kw,
   family1 E .roc .rocp (by decide) (by decide) rfl rfl "period" .roc .rocp _ x x (fun _ => rfl) (fun _ => rfl)
     (fun _ => ⟨_, rfl, rfl⟩) kw,
   family1 E .rocr100 .rocr (by decide) (by decide) rfl rfl "period" .rocr100 .rocr _ x x (fun _ => rfl) (fun _ => rfl)
     (fun _ => ⟨_, rfl, rfl⟩) kw⟩

/-- **C127**: `midpoint` of a line is `midprice` with the line as high and low. -/
theorem C127_midpoint (E : Env V) (kw : Dict String PyVal) (x : Line V) :
    call E .midpoint kw [x] = call E .midprice kw [x, x] := by
  rw [family1 E .midpoint .midprice (by decide) (by decide) rfl rfl "period" .midpoint .midprice (fun o => o) [x] [x, x]
    (fun _ => rfl) (fun _ => rfl) (fun _ => ⟨_, rfl, rfl⟩) kw]
  cases call E .midprice kw [x, x] <;> rfl

/-- **C127**: `minmax` gives what `min` and `max` give with the same keywords. -/
theorem C127_minmax (E : Env V) (kw : Dict String PyVal) (x : List (Line V)) :
    call E .minmax kw x = Spec.both (call E .«min» kw x) (call E .«max» kw x) := by
  have e1 := resolve_alike E.talib .«min» .minmax (by decide) (by decide) rfl rfl kw
  have e2 := resolve_alike E.talib .«max» .minmax (by decide) (by decide) rfl rfl kw
  unfold call
  rw [e1, e2]
  cases resolve E.talib .minmax kw with
  | error e => rfl
  | ok s =>
    simp only [Spec.both, build, bind, Except.bind]
    cases nat (get? s.params) "period" with
    | error e => rfl
    | ok n => rfl

/-- **C127**: `minmaxindex` gives what `minindex` and `maxindex` give. -/
theorem C127_minmaxindex (E : Env V) (kw : Dict String PyVal) (hn : (keys kw).Nodup) (x o : List (Line V))
    (h : call E .minmaxindex kw x = .ok o) : Spec.both (call E .minindex kw x) (call E .maxindex kw x) = .ok o := by
  obtain ⟨s, r, hs, hr, h⟩ := call_parts h
  obtain ⟨i, hi, hr⟩ := ok_bind hr
  obtain ⟨b, hb, hr⟩ := ok_bind hr
  obtain ⟨n, hp, hr⟩ := ok_bind hr
  obtain rfl := ok_pure hr
  cases h
  have a1 := resolve_nodup hn hs
  have hD := nodup_keys_update a1.1 s.params
  have hknown : ∀ k v, get? kw k = some v → k = "_talib" ∨ (get? (Cls.minindex).defaults k).isSome = true := by
    intro k v hk
    by_contra hc
    rw [not_or] at hc
    have hnd : get? (Cls.minindex).defaults k = none := by simpa using hc.2
    have hrest : get? (update s.rest s.params) k = some v := by
      rw [get?_update, get?_reverse a1.2, resolve_params hn hs, resolve_rest hn hs]
      have hnd' : get? (Cls.minmaxindex).defaults k = none := hnd
      rw [hnd']
      simp [eff, hc.1, hk]
    have := resolve_unknown E.talib .minindex (by decide) (by decide) _ hD k v hrest hc.1 hnd (by simp [Spec.furtherKeywords])
    rw [hi] at this
    cases this
  obtain ⟨s1, h1⟩ := resolve_known E.talib .minindex (by decide) hn (by decide) hknown
  obtain ⟨s2, h2⟩ := resolve_known E.talib .maxindex (by decide) hn (by decide) hknown
  have hv : ∀ k, k ≠ "_talib" → (get? (Cls.minindex).defaults k).isSome = true →
      get? i.params k = get? s1.params k ∧ get? i.params k = get? s2.params k := by
    intro k hk hd
    have e0 : get? s.params k = Spec.value E.talib .minmaxindex kw k := params_value hn hs hk hd
    have e1 : get? s1.params k = Spec.value E.talib .minindex kw k := params_value hn h1 hk hd
    have e2 : get? s2.params k = Spec.value E.talib .maxindex kw k := params_value hn h2 hk hd
    have e3 : get? i.params k = get? s.params k := by
      rw [params_value hD hi hk hd]
      unfold Spec.value
      rw [get?_update, get?_reverse a1.2]
      cases hg : get? s.params k with
      | some v => rfl
      | none =>
        rw [e0] at hg
        unfold Spec.value at hg
        rw [Option.or_eq_none_iff] at hg
        have : get? (Cls.minindex).defaults k = none := hg.2
        rw [this] at hd
        cases hd
    rw [e3, e0, e1, e2]
    exact ⟨rfl, rfl⟩
  have p1 := hv "period" (by decide) (by decide)
  have p2 := hv "_absidx" (by decide) (by decide)
  unfold truth need at hb
  unfold nat need at hp
  rw [p2.1] at hb
  rw [p1.1] at hp
  have hb2 := hb
  have hp2 := hp
  rw [← p2.1, p2.2] at hb2
  rw [← p1.1, p1.2] at hp2
  unfold call Spec.both
  rw [h1, h2]
  simp only [build, bind, Except.bind, truth, need, nat] at hb hb2 hp hp2 ⊢
  simp only [hb, hb2, hp, hp2]
  cases b <;> rfl

/-- **C127**: `aroonosc` is up minus down of the result of `aroon` with the same keywords. -/
theorem C127_aroonosc (E : Env V) (kw : Dict String PyVal) (x : List (Line V)) :
    call E .aroonosc kw x = call E .aroon kw x >>= fun o => .ok (match o with | [dn, up] => [up - dn] | _ => []) :=
  family1 E .aroonosc .aroon (by decide) (by decide) rfl rfl "period" .aroonosc .aroon _ x x (fun _ => rfl) (fun _ => rfl)
     (fun _ => ⟨_, rfl, rfl⟩) kw

/-- **C127**: `linearreg_angle` is the angle (in degrees) of the result of `linearreg_slope` with the same keywords. -/
theorem C127_angle (E : Env V) (kw : Dict String PyVal) (x : List (Line V)) :
    call E .linearreg_angle kw x =
      Spec.each (fun m => (Line.mapOp (E.fn "arctan") m).mulS E.deg) (call E .linearreg_slope kw x) :=
  family1 E .linearreg_angle .linearreg_slope (by decide) (by decide) rfl rfl "period" (.linregAngle (E.fn "arctan") E.deg)
    .linregSlope _ x x (fun _ => rfl) (fun _ => rfl) (fun _ => ⟨_, rfl, rfl⟩) kw

/-! ### Indicators made of others -/

/-- The documented formulas of further indicators, with calls of the classes of the library and operators between lines only:
outputs `o` for the inputs `x`. -/
def _root_.Spec.ByParts (E : Env V) (c : Cls) (kw : Dict String PyVal) (x o : List (Line V)) : Prop :=
  let val := Spec.value E.talib c kw
  let avg := fun k p => Spec.Applied E (val k) (val p)
  match c, x, o with
  | .midprice, [h, l], [o] => ∃ (n : ℕ) (hh ll : Line V), val "period" = some (.int n) ∧
      call E .«max» [("period", .int n)] [h] = .ok [hh] ∧ call E .«min» [("period", .int n)] [l] = .ok [ll] ∧
      o = (hh + ll).divS (lit 2)
  | .williamsr, [h, l, c], [o] => ∃ (n : ℕ) (hh ll : Line V), val "period" = some (.int n) ∧
      call E .«max» [("period", .int n)] [h] = .ok [hh] ∧ call E .«min» [("period", .int n)] [l] = .ok [ll] ∧
      o = Line.rmulS (lit (-100)) (hh - c) / (hh - ll)
  | .trima, [x], [o] => ∃ (n n1 n2 : ℕ) (a : Line V), val "period" = some (.int n) ∧ n1 + n2 = n + 1 ∧
      (n1 = n2 ∨ n1 = n2 + 1) ∧ call E .sma [("period", .int n2)] [x] = .ok [a] ∧
      call E .sma [("period", .int n1)] [a] = .ok [o]
  | .gdema, [x], [o] => ∃ (v : PyVal) (f : V) (e1 e2 : Line V), val "vfactor" = some v ∧ asNum v = .ok f ∧
      avg "_ma" "period" x e1 ∧ avg "_ma" "period" e1 e2 ∧ o = Line.rmulS (lit 1 + f) e1 - Line.rmulS f e2
  | .t3, [x], [o] => ∃ (n : ℕ) (v w : PyVal), val "period" = some (.int n) ∧ val "vfactor" = some v ∧ val "_gd" = some w ∧
      (w.truthy = true → ∃ (m : PyVal) (g1 g2 : Line V), val "_ma" = some m ∧
        call E .gdema [("period", .int n), ("vfactor", v), ("_ma", m)] [x] = .ok [g1] ∧
        call E .gdema [("period", .int n), ("vfactor", v), ("_ma", m)] [g1] = .ok [g2] ∧
        call E .gdema [("period", .int n), ("vfactor", v), ("_ma", m)] [g2] = .ok [o]) ∧
      (w.truthy = false → ∃ (a : V) (e1 e2 e3 e4 e5 e6 : Line V), asNum v = .ok a ∧
        call E .ema [("period", .int n)] [x] = .ok [e1] ∧ call E .ema [("period", .int n)] [e1] = .ok [e2] ∧
        call E .ema [("period", .int n)] [e2] = .ok [e3] ∧ call E .ema [("period", .int n)] [e3] = .ok [e4] ∧
        call E .ema [("period", .int n)] [e4] = .ok [e5] ∧ call E .ema [("period", .int n)] [e5] = .ok [e6] ∧
        o = Line.rmulS (-(a * a * a)) e6 + Line.rmulS (lit 3 * (a * a) + lit 3 * (a * a * a)) e5 +
          Line.rmulS (lit (-6) * (a * a) - lit 3 * a - lit 3 * (a * a * a)) e4 +
          Line.rmulS (lit 1 + lit 3 * a + a * a * a + lit 3 * (a * a)) e3)
  | .ultimateoscillator, [h, l, c], [o] => ∃ (n1 n2 n3 : ℕ) (v1 v2 v3 : PyVal) (f1 f2 f3 : V)
      (tl tr b1 t1 b2 t2 b3 t3 : Line V), val "period1" = some (.int n1) ∧ val "period2" = some (.int n2) ∧
      val "period3" = some (.int n3) ∧ (val "factor1" = some v1 ∧ asNum v1 = .ok f1) ∧
      (val "factor2" = some v2 ∧ asNum v2 = .ok f2) ∧ (val "factor3" = some v3 ∧ asNum v3 = .ok f3) ∧
      call E .truelow [] [l, c] = .ok [tl] ∧ call E .truerange [] [h, l, c] = .ok [tr] ∧
      call E .«sum» [("period", .int n1)] [c - tl] = .ok [b1] ∧ call E .«sum» [("period", .int n1)] [tr] = .ok [t1] ∧
      call E .«sum» [("period", .int n2)] [c - tl] = .ok [b2] ∧ call E .«sum» [("period", .int n2)] [tr] = .ok [t2] ∧
      call E .«sum» [("period", .int n3)] [c - tl] = .ok [b3] ∧ call E .«sum» [("period", .int n3)] [tr] = .ok [t3] ∧
      o = Line.rmulS (f1 * (lit 100 / (f1 + f2 + f3))) (b1 / t1) + Line.rmulS (f2 * (lit 100 / (f1 + f2 + f3))) (b2 / t2) +
        Line.rmulS (f3 * (lit 100 / (f1 + f2 + f3))) (b3 / t3)
  | .mfi, [h, l, c, v], [o] => ∃ (n : ℕ) (tp up dn : Line V), val "period" = some (.int n) ∧
      call E .typprice [] [h, l, c] = .ok [tp] ∧
      call E .«sum» [("period", .int n)] [Line.mulB (tp * v) (Line.gtL tp (Line.ago (-1) tp))] = .ok [up] ∧
      call E .«sum» [("period", .int n)] [Line.mulB (tp * v) (Line.ltL tp (Line.ago (-1) tp))] = .ok [dn] ∧
      o = Line.rsubS (lit 100) (Line.rdivS (lit 100) (Line.raddS (lit 1) (up / dn)))
  | .adx, [h, l, c], [o] => ∃ d, call E .dx kw [h, l, c] = .ok [d] ∧ avg "_ma" "period" d o
  | .adxr, [h, l, c], [o] => ∃ (n : ℕ) (a : Line V),
      call E .adx (kw.filter (fun p => p.1 ≠ "_prating")) [h, l, c] = .ok [a] ∧
      Spec.orElse (val "_prating") (val "period") = some (.int n) ∧
      o = (a + Line.ago (-((n : ℤ) - if Spec.compat E.talib kw then 1 else 0)) a).divS (lit 2)
  | _, _, _ => False

/-- the classes of `Spec.ByParts` -/
def _root_.Spec.withParts : List Cls :=
  [.midprice, .williamsr, .trima, .gdema, .t3, .ultimateoscillator, .mfi, .adx, .adxr]

theorem call_sma (E : Env V) (n : ℕ) (x : Line V) : call E .sma [("period", .int n)] [x] = lift (oneE (Ind.sma n x)) := by
  obtain ⟨fn, radians, deg, ht, scipy, talib⟩ := E; cases talib <;> rfl
theorem call_ema (E : Env V) (n : ℕ) (x : Line V) : call E .ema [("period", .int n)] [x] = lift (oneE (Ind.ema n x)) := by
  obtain ⟨fn, radians, deg, ht, scipy, talib⟩ := E; cases talib <;> rfl
theorem call_sum (E : Env V) (n : ℕ) (x : Line V) : call E .«sum» [("period", .int n)] [x] = .ok [Ind.sumN n x] := by
  obtain ⟨fn, radians, deg, ht, scipy, talib⟩ := E; cases talib <;> rfl
theorem call_truelow (E : Env V) (l c : Line V) : call E .truelow [] [l, c] = .ok [Ind.truelow 1 l c] := by
  obtain ⟨fn, radians, deg, ht, scipy, talib⟩ := E; cases talib <;> rfl
theorem call_truerange1 (E : Env V) (h l c : Line V) : call E .truerange [] [h, l, c] = .ok [Ind.truerange 1 h l c] := by
  obtain ⟨fn, radians, deg, ht, scipy, talib⟩ := E; cases talib <;> rfl
theorem call_gdema (E : Env V) (n : ℕ) (v m : PyVal) (x : Line V) :
    call E .gdema [("period", .int n), ("vfactor", v), ("_ma", m)] [x] =
      ma E m >>= fun A => (asNum v : Out V) >>= fun f => lift (oneE (Ind.gdema A.run f n x)) := by
  have e : call E .gdema [("period", .int n), ("vfactor", v), ("_ma", m)] [x] =
      ((ma E m >>= fun A => (asNum v : Out V) >>= fun f => .ok (Avg.gdema A f)) >>= fun A =>
        .ok (Call.avg A n)) >>= fun r => lift (r.run (nth [x])) := by
    obtain ⟨fn, radians, deg, ht, scipy, talib⟩ := E; cases talib <;> rfl
  rw [e]
  cases ma E m with
  | error e => rfl
  | ok A =>
    simp only [bind, Except.bind]
    cases (asNum v : Out V) <;> rfl

omit [PyFloat V] in
theorem line2 {x : List (Line V)} (h : x.length = 2) : ∃ a b, x = [a, b] := by
  match x, h with
  | [a, b], _ => exact ⟨a, b, rfl⟩

theorem ok_truth {p : String → Option PyVal} {k : String} {b : Bool} (h : truth p k = .ok b) :
    ∃ v, p k = some v ∧ v.truthy = b := by
  unfold truth at h
  obtain ⟨v, hv, h⟩ := ok_bind h
  exact ⟨v, ok_need hv, ok_pure h⟩

/-- **C127**: what one of these indicators gives is its documented formula, in terms of what a user gets from calling the
indicators it is made of.  Any keywords, with or without ta-lib compatibility, any data, any arithmetic. -/
theorem C127_parts (E : Env V) (c : Cls) (hc : c ∈ Spec.withParts) (kw : Dict String PyVal) (hn : (keys kw).Nodup)
    (x o : List (Line V)) (hx : x.length = (Spec.inputs c).length) (h : call E c kw x = .ok o) : Spec.ByParts E c kw x o := by
  have hcall := h
  obtain ⟨s, r, hs, hr, h⟩ := call_parts h
  simp only [Spec.withParts, List.mem_cons, List.not_mem_nil, or_false] at hc
  rcases hc with rfl | rfl | rfl | rfl | rfl | rfl | rfl | rfl | rfl
  · -- midprice
    obtain ⟨x, y, rfl⟩ := line2 hx
    obtain ⟨n, hp, hr⟩ := ok_bind hr
    obtain rfl := ok_pure hr
    cases h
    exact ⟨n, _, _, nat_value hn hs (by decide) hp, call_max E n _, call_min E n _, rfl⟩
  · -- williamsr
    obtain ⟨x, y, z, rfl⟩ := line3 hx
    obtain ⟨n, hp, hr⟩ := ok_bind hr
    obtain rfl := ok_pure hr
    cases h
    exact ⟨n, _, _, nat_value hn hs (by decide) hp, call_max E n _, call_min E n _, rfl⟩
  · -- trima
    obtain ⟨x, rfl⟩ := line1 hx
    obtain ⟨A, hA, hr⟩ := ok_bind hr
    obtain ⟨n, hp, hr⟩ := ok_bind hr
    obtain rfl := ok_pure hr
    cases hA
    obtain ⟨e, he, h⟩ := ok_bindE h
    cases h
    have key : ∀ n1 n2 : ℕ, (Ind.sma n2 x >>= fun a => Ind.sma n1 a) = .ok e → ∃ a,
        call E .sma [("period", .int n2)] [x] = .ok [a] ∧ call E .sma [("period", .int n1)] [a] = .ok [e] := by
      intro n1 n2 hh
      obtain ⟨a, h1, h2⟩ := ok_bindE hh
      refine ⟨a, ?_, ?_⟩
      · rw [call_sma, h1]; rfl
      · rw [call_sma, h2]; rfl
    have he' : (if n % 2 = 1 then ((n + 1) / 2, (n + 1) / 2) else (n / 2 + 1, n / 2)) =
        ((if n % 2 = 1 then (n + 1) / 2 else n / 2 + 1), (if n % 2 = 1 then (n + 1) / 2 else n / 2)) := by
      split <;> rfl
    have he2 : Ind.trima n x = .ok e := he
    unfold Ind.trima at he2
    rw [he'] at he2
    obtain ⟨a, h1, h2⟩ := key _ _ he2
    refine ⟨n, _, _, a, nat_value hn hs (by decide) hp, ?_, ?_, h1, h2⟩
    · split <;> omega
    · split <;> omega
  · -- gdema
    obtain ⟨x, rfl⟩ := line1 hx
    obtain ⟨A, hA, hr⟩ := ok_bind hr
    obtain ⟨n, hp, hr⟩ := ok_bind hr
    obtain rfl := ok_pure hr
    unfold buildAvg at hA
    obtain ⟨v, hv, hA⟩ := ok_bind hA
    obtain ⟨B, hB, hA⟩ := ok_bind hA
    obtain ⟨f, hf, hA⟩ := ok_bind hA
    obtain rfl := ok_pure hA
    obtain ⟨e, he, h⟩ := ok_bindE h
    cases h
    obtain ⟨e1, h1, he⟩ := ok_bindE he
    obtain ⟨e2, h2, he⟩ := ok_bindE he
    cases he
    obtain ⟨w, hw, hw'⟩ := num_value hn hs (by decide) hf
    have hm : maOf E (get? s.params) "_ma" = .ok B := by unfold maOf; rw [hv]; exact hB
    exact ⟨w, f, e1, e2, hw, hw', avg_applied hn hs (by decide) (by decide) hm hp h1,
      avg_applied hn hs (by decide) (by decide) hm hp h2, rfl⟩
  · -- t3
    obtain ⟨x, rfl⟩ := line1 hx
    obtain ⟨A, hA, hr⟩ := ok_bind hr
    obtain ⟨n, hp, hr⟩ := ok_bind hr
    obtain rfl := ok_pure hr
    unfold buildAvg at hA
    obtain ⟨b, hb, hA⟩ := ok_bind hA
    obtain ⟨w, hw, hw'⟩ := ok_truth hb
    subst hw'
    obtain ⟨e, he, h⟩ := ok_bindE h
    cases h
    split at hA
    · rename_i ht
      obtain ⟨v, hv, hA⟩ := ok_bind hA
      obtain ⟨B, hB, hA⟩ := ok_bind hA
      obtain ⟨f, hf, hA⟩ := ok_bind hA
      obtain rfl := ok_pure hA
      obtain ⟨u, hu, hu'⟩ := num_value hn hs (by decide) hf
      obtain ⟨g1, h1, he⟩ := ok_bindE he
      obtain ⟨g2, h2, he⟩ := ok_bindE he
      refine ⟨n, u, w, nat_value hn hs (by decide) hp, hu, param_value hn hs (by decide) hw, fun _ => ?_, fun hf => ?_⟩
      · refine ⟨v, g1, g2, param_value hn hs (by decide) (ok_need hv), ?_, ?_, ?_⟩
        · have h1' : Ind.gdema B.run f n x = .ok g1 := h1
          rw [call_gdema, hB, hu']
          simp only [bind, Except.bind]
          rw [h1']; rfl
        · rw [call_gdema, hB, hu']
          simp only [bind, Except.bind]
          rw [h2]; rfl
        · rw [call_gdema, hB, hu']
          simp only [bind, Except.bind]
          rw [he]; rfl
      · rw [ht] at hf; cases hf
    · rename_i ht
      obtain ⟨f, hf, hA⟩ := ok_bind hA
      obtain rfl := ok_pure hA
      obtain ⟨u, hu, hu'⟩ := num_value hn hs (by decide) hf
      obtain ⟨e1, h1, he⟩ := ok_bindE he
      obtain ⟨e2, h2, he⟩ := ok_bindE he
      obtain ⟨e3, h3, he⟩ := ok_bindE he
      obtain ⟨e4, h4, he⟩ := ok_bindE he
      obtain ⟨e5, h5, he⟩ := ok_bindE he
      obtain ⟨e6, h6, he⟩ := ok_bindE he
      cases he
      refine ⟨n, u, w, nat_value hn hs (by decide) hp, hu, param_value hn hs (by decide) hw, fun ht' => absurd ht' ht, fun _ => ?_⟩
      refine ⟨f, e1, e2, e3, e4, e5, e6, hu', ?_, ?_, ?_, ?_, ?_, ?_, rfl⟩
      · have h1' : Ind.ema n x = .ok e1 := h1
        rw [call_ema, h1']; rfl
      · rw [call_ema, h2]; rfl
      · rw [call_ema, h3]; rfl
      · rw [call_ema, h4]; rfl
      · rw [call_ema, h5]; rfl
      · rw [call_ema, h6]; rfl
  · -- ultimateoscillator
    obtain ⟨x, y, z, rfl⟩ := line3 hx
    obtain ⟨n1, p1, hr⟩ := ok_bind hr
    obtain ⟨n2, p2, hr⟩ := ok_bind hr
    obtain ⟨n3, p3, hr⟩ := ok_bind hr
    obtain ⟨f1, q1, hr⟩ := ok_bind hr
    obtain ⟨f2, q2, hr⟩ := ok_bind hr
    obtain ⟨f3, q3, hr⟩ := ok_bind hr
    obtain rfl := ok_pure hr
    cases h
    obtain ⟨v1, w1⟩ := num_value hn hs (by decide) q1
    obtain ⟨v2, w2⟩ := num_value hn hs (by decide) q2
    obtain ⟨v3, w3⟩ := num_value hn hs (by decide) q3
    exact ⟨n1, n2, n3, v1, v2, v3, f1, f2, f3, _, _, _, _, _, _, _, _, nat_value hn hs (by decide) p1,
      nat_value hn hs (by decide) p2, nat_value hn hs (by decide) p3, w1, w2, w3, call_truelow E _ _, call_truerange1 E _ _ _,
      call_sum E _ _, call_sum E _ _, call_sum E _ _, call_sum E _ _, call_sum E _ _, call_sum E _ _, rfl⟩
  · -- mfi
    obtain ⟨x, y, z, v, rfl⟩ := line4 hx
    obtain ⟨n, hp, hr⟩ := ok_bind hr
    obtain rfl := ok_pure hr
    cases h
    exact ⟨n, _, _, _, nat_value hn hs (by decide) hp, call_typprice E _ _ _, call_sum E _ _, call_sum E _ _, rfl⟩
  · -- adx
    obtain ⟨x, y, z, rfl⟩ := line3 hx
    obtain ⟨A, hA, hr⟩ := ok_bind hr
    obtain ⟨B, hB, hr⟩ := ok_bind hr
    obtain ⟨n, hp, hr⟩ := ok_bind hr
    obtain ⟨q, hq, hr⟩ := ok_bind hr
    obtain ⟨n', hp', hr⟩ := ok_bind hr
    obtain rfl := ok_pure hr
    obtain ⟨e, he, h⟩ := ok_bindE h
    cases h
    obtain ⟨d, hd, he⟩ := ok_bindE he
    refine ⟨d, ?_, avg_applied hn hs (by decide) (by decide) hB hp' he⟩
    unfold call
    rw [resolve_alike E.talib .dx .adx (by decide) (by decide) rfl rfl kw, hs]
    simp only [build, bind, Except.bind, hA, hp, hq, pure, Except.pure]
    have hd' : Ind.dx (A.run n) q s.talib x y z = .ok d := hd
    show lift (oneE (Ind.dx (A.run n) q s.talib x y z)) = _
    rw [hd']
    rfl
  · -- adxr
    obtain ⟨x, y, z, rfl⟩ := line3 hx
    obtain ⟨A, hA, hr⟩ := ok_bind hr
    obtain ⟨B, hB, hr⟩ := ok_bind hr
    obtain ⟨n, hp, hr⟩ := ok_bind hr
    obtain ⟨q, hq, hr⟩ := ok_bind hr
    obtain ⟨n', hp', hr⟩ := ok_bind hr
    obtain ⟨w, hw, hr⟩ := ok_bind hr
    obtain ⟨k, hk, hr⟩ := ok_bind hr
    obtain rfl := ok_pure hr
    obtain ⟨e, he, h⟩ := ok_bindE h
    cases h
    obtain ⟨a, ha, he⟩ := ok_bindE he
    cases he
    have hn' : (keys (kw.filter (fun p => p.1 ≠ "_prating"))).Nodup := nodup_filter hn _
    have hget : ∀ k, get? (kw.filter (fun p => p.1 ≠ "_prating")) k = if k = "_prating" then none else get? kw k := by
      intro k
      rw [get?_filter_key kw (fun k => k ≠ "_prating")]
      by_cases hk : k = "_prating" <;> simp [hk]
    have hdef : ∀ k, k ≠ "_prating" → get? (Cls.adxr).defaults k = get? (Cls.adx).defaults k := by
      intro k hk
      simp [Cls.defaults, get?, Ne.symm hk]
    obtain ⟨s', hs'⟩ := resolve_known E.talib .adx (by decide) hn' (by decide) (by
      intro k v hk
      rw [hget] at hk
      split at hk
      · cases hk
      · rename_i hne
        by_cases ht : k = "_talib"
        · exact .inl ht
        · refine .inr ?_
          by_contra hd
          have := resolve_unknown E.talib .adxr (by decide) (by decide) kw hn k v hk ht (by
            rw [hdef k hne]
            simpa using hd) (by simp [Spec.furtherKeywords])
          rw [hs] at this
          cases this)
    have hcomp : Spec.compat E.talib (kw.filter (fun p => p.1 ≠ "_prating")) = Spec.compat E.talib kw := by
      unfold Spec.compat
      rw [hget, if_neg (by decide)]
    have hpar : ∀ k, k ≠ "_prating" → k ≠ "_talib" → (get? (Cls.adx).defaults k).isSome = true →
        get? s'.params k = get? s.params k := by
      intro k h1 h2 h3
      rw [params_value hn' hs' h2 h3, params_value hn hs h2 (by rw [hdef k h1]; exact h3)]
      unfold Spec.value
      rw [hget, if_neg h1, hcomp, hdef k h1]
      rfl
    have hA' : smoother E (get? s'.params) = .ok A := by
      rw [← hA]
      unfold smoother truth maOf need
      rw [hpar "_alt" (by decide) (by decide) (by decide), hpar "_ma" (by decide) (by decide) (by decide),
        hpar "_pearly" (by decide) (by decide) (by decide), hpar "_accum" (by decide) (by decide) (by decide)]
    have hB' : maOf E (get? s'.params) "_ma" = .ok B := by
      rw [← hB]
      unfold maOf need
      rw [hpar "_ma" (by decide) (by decide) (by decide)]
    have hp1 : nat (get? s'.params) "period" = .ok n := by
      rw [← hp]
      unfold nat need
      rw [hpar "period" (by decide) (by decide) (by decide)]
    have hp2 : nat (get? s'.params) "period" = .ok n' := by
      rw [← hp']
      unfold nat need
      rw [hpar "period" (by decide) (by decide) (by decide)]
    have hq' : nat (get? s'.params) "_period" = .ok q := by
      rw [← hq]
      unfold nat need
      rw [hpar "_period" (by decide) (by decide) (by decide)]
    obtain rfl : n = n' := by rw [hp1] at hp2; cases hp2; rfl
    refine ⟨k, a, ?_, ?_, ?_⟩
    · unfold call
      rw [hs']
      simp only [build, bind, Except.bind, hA', hB', hp1, hq', pure, Except.pure]
      have ha' : Ind.adx (A.run n) B.run q s.talib n x y z = .ok a := ha
      show lift (oneE (Ind.adx (A.run n) B.run q s'.talib n x y z)) = _
      rw [resolve_talib hs', hcomp, ← resolve_talib hs, ha']
      rfl
    · have hw' := either_parts hw
      rw [params_value hn hs (by decide) (by decide), params_value hn hs (by decide) (by decide)] at hw'
      rw [hw']
      cases w with
      | int i =>
        cases i with
        | ofNat m => cases hk; rfl
        | negSucc m => cases hk
      | _ => cases hk
    · rw [← resolve_talib hs]
      cases k with
      | succ m => rfl
      | zero =>
        have h0 : n = 0 := by
          unfold either at hw
          obtain ⟨u, hu, hw⟩ := ok_bind hw
          split at hw
          · rename_i ht
            obtain rfl := ok_pure hw
            cases u with
            | int i =>
              cases i with
              | ofNat m => cases hk; cases ht
              | negSucc m => cases hk
            | _ => cases hk
          · unfold nat at hp
            rw [hw] at hp
            have : (asNat w : Out ℕ) = .ok n := hp
            rw [hk] at this
            cases this
            rfl
        subst h0
        rfl

/-! ### Examples -/

/-- `C127_parts` for each class -/
example : [
    (Cls.midprice, [("period", .int 3)], 0), (.williamsr, [("period", .int 3)], 0), (.trima, [("period", .int 4)], 2),
    (.gdema, [("period", .int 3), ("_ma", .cls "sma")], 2), (.t3, [("period", .int 2)], 2),
    (.t3, [("period", .int 2), ("_gd", .bool true), ("_ma", .cls "wma")], 2),
    (.ultimateoscillator, [("period1", .int 2), ("period2", .int 3), ("period3", .int 4)], 0), (.mfi, [("period", .int 3)], 0),
    (.adx, [("period", .int 2), ("_talib", .bool true)], 0),
    (.adxr, [("period", .int 2), ("_prating", .int 3), ("_alt", .bool true)], (0 : ℕ))].all (fun t =>
      gives (call E0 t.1 t.2.1 ((bars.drop t.2.2).take (Spec.inputs t.1).length))) = true := by
  decide +kernel

/-- the equations between calls, where there is a result -/
example : [(Cls.dm, [("period", .int 2)]), (.di, [("period", .int 2)]), (.dx, [("period", .int 2), ("_alt", .bool true)]),
    (.natr, [("period", .int 2)]), (.aroonosc, [("period", .int 2)]), (.minmaxindex, [("period", .int 2), ("_talib", .bool true)])].all
      (fun t => gives (call E0 t.1 t.2 (bars.take (Spec.inputs t.1).length))) = true := by
  decide +kernel

/-- and where there is none: an unknown keyword -/
example : call E0 .dx [("periods", .int 2)] bars = .error (.py .typeError) ∧
    call E0 .plus_di [("periods", .int 2)] bars = .error (.py .typeError) := by
  constructor <;> rfl

end Bta.Api
