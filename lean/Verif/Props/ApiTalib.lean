import Verif.Props.Api

/-!
# C119: ta-lib compatibility changes the documented defaults, and nothing else
-/

set_option linter.unusedSectionVars false
set_option linter.unusedVariables false

namespace Bta.Api

open Meta Py
open Line (Seed)

variable {V : Type} [PyFloat V]

/-- The defaults which ta-lib compatibility changes (or adds), written by hand from the documentation of the `_talib` methods. -/
def _root_.Spec.talibDefaults : Cls → Dict String PyVal
  | .maxindex | .minindex | .minmaxindex => [("_absidx", .bool true)]
  | .kama => [("_seed", .int 1)]
  | .stddev | .stddev_s | .bbands | .stochf | .stochastic => [("period", .int 5)]
  | .cci => [("period", .int 14)]
  | .cmo => [("_sum", .cls "smma")]
  | .smacc | ._dm | .plus_dm | .minus_dm | .dm | ._di | .plus_di | .minus_di | .di | .dx | .adx | .adxr =>
    [("_pearly", .bool true)]
  | ._posc | .apo | .ppo | .ppofast => [("_ma", .cls "sma")]
  | ._rocbase | .roc | .rocp | .rocr | .rocr100 => [("period", .int 10)]
  | .stochrsi => [("_philo", .int 5), ("_scale", .num 100), ("_pfast", .int 3), ("_ma", .cls "sma")]
  | .adosc => [("_ma", .cls "ewma")]
  | _ => []

/-- The classes whose calculation itself is another one. -/
def _root_.Spec.talibOwn : List Cls :=
  [.linearreg_intercept, .plus_di, .minus_di, .di, .dx, .adx, .adxr, .macd, .stochrsi, .obv]

/-- keywords with the defaults of ta-lib for those which are not given -/
def _root_.Spec.withTalib (c : Cls) (kw : Dict String PyVal) : Dict String PyVal :=
  kw ++ (Spec.talibDefaults c).filter (fun p => (get? kw p.1).isNone)

theorem hooks_flatten (c : Cls) (k : String) (hk : c = .minmaxindex → k ≠ "_talib") :
    get? c.hooks.flatten k = get? (Spec.talibDefaults c) k := by
  by_cases hc : c = .minmaxindex
  · subst hc
    have := hk rfl
    show get? [("_absidx", PyVal.bool true), ("_talib", PyVal.bool true)] k = get? [("_absidx", PyVal.bool true)] k
    simp only [get?]
    split
    · rfl
    · rw [if_neg (fun h => this h.symm)]
  · revert hc
    cases c <;> intro hc <;> first | rfl | exact absurd rfl hc

theorem talibDefaults_off : ∀ c ∈ Cls.all, (keys (Spec.talibDefaults c)).Nodup ∧ "_talib" ∉ keys (Spec.talibDefaults c) := by
  decide +kernel

theorem withTalib_get? (c : Cls) (kw : Dict String PyVal) (k : String) :
    get? (Spec.withTalib c kw) k = (get? kw k).or (get? (Spec.talibDefaults c) k) := by
  unfold Spec.withTalib
  rw [get?_append, get?_filter_key _ (fun a => (get? kw a).isNone)]
  cases get? kw k <;> simp

theorem withTalib_nodup (c : Cls) {kw : Dict String PyVal} (hn : (keys kw).Nodup) : (keys (Spec.withTalib c kw)).Nodup := by
  unfold Spec.withTalib keys
  rw [List.map_append, List.nodup_append]
  refine ⟨hn, nodup_filter (talibDefaults_off c (all_mem c)).1 _, ?_⟩
  intro a ha b hb hab
  subst hab
  obtain ⟨p, hp, rfl⟩ := List.mem_map.1 hb
  have := (List.mem_filter.1 hp).2
  simp only [Option.isNone_iff_eq_none] at this
  exact (get?_eq_none_iff.1 this) ha

/-- If the same keywords arrive (after the hooks) then the views agree, but for the flag. -/
theorem resolve_eff (g g' : Bool) (c : Cls) {kw kw' : Dict String PyVal} (hn : (keys kw).Nodup) (hn' : (keys kw').Nodup)
    (he : ∀ k, eff g c.hooks kw k = eff g' c.hooks kw' k) :
    (∃ e, resolve g c kw = .error e ∧ resolve g' c kw' = .error e) ∨
      ∃ s s', resolve g c kw = .ok s ∧ resolve g' c kw' = .ok s' ∧ s.talib = (talibFlag g kw).1 ∧
        s'.talib = (talibFlag g' kw').1 ∧ Same ⟨s'.talib, s.params, s.rest⟩ s' := by
  have hr : ∀ k, get? (fromKwargs ⟨c.defaults, []⟩ (talibKwargs g c.hooks kw)).2 k =
      get? (fromKwargs ⟨c.defaults, []⟩ (talibKwargs g' c.hooks kw')).2 k := by
    intro k
    rw [(get?_fromKwargs _ (defaults_nodup c) _ (nodup_talibKwargs g c.hooks hn) k).2,
      (get?_fromKwargs _ (defaults_nodup c) _ (nodup_talibKwargs g' c.hooks hn') k).2, get?_talibKwargs g c.hooks hn,
      get?_talibKwargs g' c.hooks hn', he]
  have hi := initCheck_congr c.rows (keys_congr hr)
  cases hc : initCheck c.rows 0 (keys (fromKwargs ⟨c.defaults, []⟩ (talibKwargs g' c.hooks kw')).2) with
  | error e =>
    refine Or.inl ⟨.py e, ?_, ?_⟩
    · unfold resolve; dsimp only; rw [hi, hc]; rfl
    · unfold resolve; dsimp only; rw [hc]; rfl
  | ok u =>
    have r1 : ∃ s, resolve g c kw = .ok s ∧ s.talib = (talibFlag g kw).1 := by
      unfold resolve; dsimp only; rw [hi, hc]; exact ⟨_, rfl, rfl⟩
    have r2 : ∃ s, resolve g' c kw' = .ok s ∧ s.talib = (talibFlag g' kw').1 := by
      unfold resolve; dsimp only; rw [hc]; exact ⟨_, rfl, rfl⟩
    obtain ⟨s, r1, hs⟩ := r1
    obtain ⟨s', r2, hs'⟩ := r2
    refine Or.inr ⟨s, s', r1, r2, hs, hs', rfl, funext fun k => ?_, funext fun k => ?_, ?_⟩
    · show get? s.params k = _
      rw [resolve_params hn r1, resolve_params hn' r2, he]
    · show get? s.rest k = _
      rw [resolve_rest hn r1, resolve_rest hn' r2, he]
    · have a := resolve_nodup hn r1
      have b := resolve_nodup hn' r2
      exact ⟨a.1, b.1, a.2, b.2⟩

theorem build_unflagged (E : Env V) {p r : Dict String PyVal} (b b' : Bool) (c : Cls) (hc : c ∉ Spec.talibOwn) :
    build E ⟨b, p, r⟩ c = build E ⟨b', p, r⟩ c := by
  revert hc
  cases c <;> intro hc <;> first | rfl | exact absurd (by decide) hc

/-- the keywords which arrive with `_talib=True`, and with the changed defaults -/
theorem eff_talib (c : Cls) (kw : Dict String PyVal) (h0 : get? kw "_talib" = none) (k : String)
    (hk : c = .minmaxindex → k ≠ "_talib") :
    eff false c.hooks (("_talib", PyVal.bool true) :: kw) k = eff false c.hooks (Spec.withTalib c kw) k := by
  have ht : get? (Spec.withTalib c kw) "_talib" = none := by
    rw [withTalib_get?, h0, get?_eq_none_iff.2 (talibDefaults_off c (all_mem c)).2]
    rfl
  have f1 : (talibFlag false (("_talib", PyVal.bool true) :: kw)).1 = true := rfl
  have f2 : (talibFlag false (Spec.withTalib c kw)).1 = false := by
    simp [talibFlag, ht, PyVal.truthy]
  unfold eff
  rw [f1, f2, withTalib_get?, hooks_flatten c k hk]
  by_cases hk : k = "_talib"
  · subst hk
    simp [get?_eq_none_iff.2 (talibDefaults_off c (all_mem c)).2]
  · have : get? (("_talib", PyVal.bool true) :: kw) k = get? kw k := by
      show (if "_talib" = k then _ else _) = _
      rw [if_neg (fun h => hk h.symm)]
    simp [hk, this]

theorem nodup_talib {kw : Dict String PyVal} (hn : (keys kw).Nodup) (h0 : get? kw "_talib" = none) (v : PyVal) :
    (keys (("_talib", v) :: kw)).Nodup := List.nodup_cons.2 ⟨get?_eq_none_iff.1 h0, hn⟩

/-- `minmaxindex` hands over all parameters, so that it does not matter whether compatibility is asked for again. -/
theorem minmaxindex_talib (kw : Dict String PyVal) (hn : (keys kw).Nodup) (h0 : get? kw "_talib" = none) (E : Env V)
    (hE : E.talib = false) (x : List (Line V)) :
    call E .minmaxindex (("_talib", .bool true) :: kw) x = call E .minmaxindex (Spec.withTalib .minmaxindex kw) x := by
  have hini : ∀ l, initCheck Cls.minmaxindex.rows 0 l = .ok () := by
    intro l
    have h1 : ∀ r ∈ Cls.minmaxindex.rows, r.init = true → r.name = "Indicator" ∨ (r.kws = [] ∧ r.anykw = true) := by
      decide +kernel
    unfold initCheck
    rw [if_pos]
    rw [List.all_eq_true]
    intro r hr
    simp only [List.mem_filter, List.mem_reverse] at hr
    rcases h1 r hr.1 hr.2 with h | ⟨h, h'⟩
    · simp [takes, h]
    · simp [takes, h, h']
  have hok : ∀ kw, ∃ s, resolve false .minmaxindex kw = .ok s := by
    intro kw
    unfold resolve; dsimp only; rw [hini]; exact ⟨_, rfl⟩
  have hn1 := nodup_talib hn h0 (.bool true)
  have hn2 := withTalib_nodup .minmaxindex hn
  obtain ⟨s, h1⟩ := hok (("_talib", .bool true) :: kw)
  obtain ⟨s', h2⟩ := hok (Spec.withTalib .minmaxindex kw)
  have a1 := resolve_nodup hn1 h1
  have a2 := resolve_nodup hn2 h2
  have hp : get? s.params = get? s'.params := by
    funext k
    rw [resolve_params hn1 h1, resolve_params hn2 h2]
    by_cases hk : k = "_talib"
    · subst hk; rfl
    · rw [eff_talib .minmaxindex kw h0 k (fun _ => hk)]
  have hr : ∀ k, k ≠ "_talib" → get? s.rest k = get? s'.rest k := by
    intro k hk
    rw [resolve_rest hn1 h1, resolve_rest hn2 h2, eff_talib .minmaxindex kw h0 k (fun _ => hk)]
  have habs : ∃ v, get? s.params "_absidx" = some v := by
    rw [resolve_params hn1 h1]
    show ∃ v, (eff false Cls.minmaxindex.hooks (("_talib", PyVal.bool true) :: kw) "_absidx").or (some (.bool false)) = some v
    cases eff false Cls.minmaxindex.hooks (("_talib", PyVal.bool true) :: kw) "_absidx" with
    | none => exact ⟨_, rfl⟩
    | some v => exact ⟨v, rfl⟩
  obtain ⟨v, habs⟩ := habs
  have hd : ∀ k, k ≠ "_talib" → get? (update s.rest s.params) k = get? (update s'.rest s'.params) k := by
    intro k hk
    rw [get?_update, get?_update, get?_reverse a1.2, get?_reverse a2.2, hp, hr k hk]
  have he : ∀ k, eff false Cls.minindex.hooks (update s.rest s.params) k =
      eff false Cls.minindex.hooks (update s'.rest s'.params) k := by
    intro k
    have hh : get? Cls.minindex.hooks.flatten k = if "_absidx" = k then some (.bool true) else none := rfl
    unfold eff
    rw [hh]
    by_cases hk : k = "_talib"
    · subst hk; simp
    · rw [if_neg hk, if_neg hk, hd k hk]
      by_cases h : "_absidx" = k
      · subst h
        have : get? (update s'.rest s'.params) "_absidx" = some v := by
          rw [get?_update, get?_reverse a2.2, ← hp, habs]; rfl
        rw [this]
        rfl
      · simp [h]
  unfold call
  rw [hE, h1, h2]
  simp only [bind, Except.bind, build, hE]
  rcases resolve_eff false false .minindex (nodup_keys_update a1.1 _) (nodup_keys_update a2.1 _) he with
    ⟨e, h3, h4⟩ | ⟨t, t', h3, h4, -, -, ht⟩
  · rw [h3, h4]
  · rw [h3, h4]
    have := ht.params
    dsimp only at this
    simp only [this]

/-- **C119** Except for the classes with a calculation of their own, a call with `_talib=True` is the call without it in which
the documented defaults of ta-lib are given for what the user did not give. -/
theorem C119_defaults (E : Env V) (hE : E.talib = false) (c : Cls) (hc : c ∉ Spec.talibOwn)
    (kw : Dict String PyVal) (hn : (keys kw).Nodup) (h0 : get? kw "_talib" = none) (x : List (Line V)) :
    call E c (("_talib", .bool true) :: kw) x = call E c (Spec.withTalib c kw) x := by
  by_cases hm : c = .minmaxindex
  · subst hm
    exact minmaxindex_talib kw hn h0 E hE x
  unfold call
  rw [hE]
  rcases resolve_eff false false c (nodup_talib hn h0 _) (withTalib_nodup c hn)
    (fun k => eff_talib c kw h0 k (fun h => absurd h hm)) with ⟨e, h1, h2⟩ | ⟨s, s', h1, h2, -, -, hss⟩
  · rw [h1, h2]
  · rw [h1, h2]
    have : build E s c = build E s' c := by
      rw [← build_congr E hss c]
      exact build_unflagged E s.talib s'.talib c hc
    simp only [bind, Except.bind, this]

example (x : List (Line Q)) : call E0 .bbands [("_talib", .bool true), ("devs", .num 1)] x =
    call E0 .bbands [("devs", .num 1), ("period", .int 5)] x :=
  C119_defaults E0 rfl .bbands (by decide) [("devs", .num 1)] (by decide) rfl x

/-- ... and this is not the call without compatibility. -/
example : differs (.roc, [], "_talib", .bool true, .bool false, [mk [1, 2, 3, 4, 5, 6, 7, 8, 9, 10, 11, 12, 13]]) = true := by
  decide +kernel

/-- **C119** The classes without documented changes are not changed: `_talib=True` has no effect. -/
theorem C119_unchanged (E : Env V) (hE : E.talib = false) (c : Cls) (hc : c ∉ Spec.talibOwn) (hd : Spec.talibDefaults c = [])
    (kw : Dict String PyVal) (hn : (keys kw).Nodup) (h0 : get? kw "_talib" = none) (x : List (Line V)) :
    call E c (("_talib", .bool true) :: kw) x = call E c kw x := by
  rw [C119_defaults E hE c hc kw hn h0 x]
  simp [Spec.withTalib, hd]

example (x : List (Line Q)) : call E0 .rsi [("_talib", .bool true), ("period", .int 3)] x = call E0 .rsi [("period", .int 3)] x :=
  C119_unchanged E0 rfl .rsi (by decide) rfl _ (by decide) rfl x

/-- **C119** Nor has it an effect if the user gives all which would be changed. -/
theorem C119_given (E : Env V) (hE : E.talib = false) (c : Cls) (hc : c ∉ Spec.talibOwn)
    (kw : Dict String PyVal) (hn : (keys kw).Nodup) (h0 : get? kw "_talib" = none)
    (hg : ∀ k ∈ keys (Spec.talibDefaults c), (get? kw k).isSome = true) (x : List (Line V)) :
    call E c (("_talib", .bool true) :: kw) x = call E c kw x := by
  rw [C119_defaults E hE c hc kw hn h0 x]
  have : (Spec.talibDefaults c).filter (fun p => (get? kw p.1).isNone) = [] := by
    rw [List.filter_eq_nil_iff]
    intro p hp
    have := hg p.1 (List.mem_map.2 ⟨p, hp, rfl⟩)
    cases h : get? kw p.1 <;> simp_all
  simp [Spec.withTalib, this]

example (x : List (Line Q)) : call E0 .roc [("_talib", .bool true), ("period", .int 3)] x = call E0 .roc [("period", .int 3)] x :=
  C119_given E0 rfl .roc (by decide) _ (by decide) rfl (by decide) x

/-- `_talib=False` is the same as nothing. -/
theorem C119_false (E : Env V) (c : Cls) (kw : Dict String PyVal) (hn : (keys kw).Nodup) (h0 : get? kw "_talib" = none)
    (x : List (Line V)) : call E c (("_talib", .bool false) :: kw) x = call E c kw x := by
  have f1 : (talibFlag E.talib (("_talib", PyVal.bool false) :: kw)).1 = (talibFlag E.talib kw).1 := by
    simp [talibFlag, h0, get?]
  have he : ∀ k, eff E.talib c.hooks (("_talib", PyVal.bool false) :: kw) k = eff E.talib c.hooks kw k := by
    intro k
    unfold eff
    rw [f1]
    by_cases hk : k = "_talib"
    · simp [hk]
    · have : get? (("_talib", PyVal.bool false) :: kw) k = get? kw k := by
        show (if "_talib" = k then _ else _) = _
        rw [if_neg (fun h => hk h.symm)]
      simp [hk, this]
  unfold call
  rcases resolve_eff E.talib E.talib c (nodup_talib hn h0 _) hn he with ⟨e, h1, h2⟩ | ⟨s, s', h1, h2, g1, g2, hss⟩
  · rw [h1, h2]
  · rw [h1, h2]
    have : s = ⟨s'.talib, s.params, s.rest⟩ := by rw [g2, ← f1, ← g1]
    rw [← this] at hss
    simp only [bind, Except.bind, build_congr E hss c]

/-- The calculations with ta-lib compatibility and no other keywords, where they are not those without. -/
def _root_.Spec.documentedTalib (E : Env V) : Cls → Option (Bta.Call V)
  | .maxindex => some (.maxindexAbs 30)
  | .minindex => some (.minindexAbs 30)
  | .minmaxindex => some (.minmaxindex true 30)
  | .kama => some (.avg (.kama (lit 2) (lit 30) 1 .last) 30)
  | .linearreg_intercept => some (.linregIntercept true 14)
  | .stddev => some (.stddev (E.fn "sqrt") 0 5)
  | .stddev_s => some (.stddev (E.fn "sqrt") 1 5)
  | .bbands => some (.bbands (E.fn "sqrt") .sma (lit 2) 5)
  | .cci => some (.cci .sma (lit (3 / 200)) 14)
  | .cmo => some (.cmo (.smma .avg) 14)
  | .smacc => some (.avg (.smacc E.scipy true .sum) 14)
  | .plus_dm => some (.plusDm (.smacc E.scipy true .sum) 14 1)
  | .minus_dm => some (.minusDm (.smacc E.scipy true .sum) 14 1)
  | .dm => some (.dm (.smacc E.scipy true .sum) 14 1)
  | .plus_di => some (.plusDi (.smacc E.scipy true .sum) 14 1 true)
  | .minus_di => some (.minusDi (.smacc E.scipy true .sum) 14 1 true)
  | .di => some (.di (.smacc E.scipy true .sum) 14 1 true)
  | .dx => some (.dx (.smacc E.scipy true .sum) 14 1 true)
  | .adx => some (.adx (.smacc E.scipy true .sum) (.smma .avg) 14 1 true 14)
  | .adxr => some (.adxr (.smacc E.scipy true .sum) (.smma .avg) 14 1 true 14 (some 14))
  | .macd => some (.macd (.ema .avg 26) (.ema .avg 0) (.ema .avg 0) 12 26 9)
  | .apo => some (.apo .sma 12 26)
  | .ppo => some (.ppo false .sma .sma 12 26 9)
  | .ppofast => some (.ppo true .sma .sma 12 26 9)
  | .roc => some (.roc 10)
  | .rocp => some (.rocp 10)
  | .rocr => some (.rocr 10)
  | .rocr100 => some (.rocr100 10)
  | .stochf => some (.stochf .sma 5 3)
  | .stochastic => some (.stochastic .sma .sma 5 3 3)
  | .stochrsi => some (.stochrsiD .sma 14 5 3 (lit 100))
  | .adosc => some (.adosc (.ewma false) 3 10)
  | .obv => some (.obv true 1)
  | c => Spec.documented E c

/-- **C119** A call with `_talib=True` and no other keyword is the documented calculation, for all data. -/
theorem C119_documented (E : Env V) (hE : E.talib = false) (c : Cls) (r : Bta.Call V) (hr : Spec.documentedTalib E c = some r)
    (x : List (Line V)) : call E c [("_talib", .bool true)] x = lift (r.run (nth (inputsOf c x))) := by
  obtain ⟨fn, radians, deg, ht, scipy, talib⟩ := E
  subst hE
  cases c <;> cases hr <;> rfl

example (x : List (Line Q)) : call E0 .obv [("_talib", .bool true)] x = lift ((Bta.Call.obv true 1).run (nth x)) :=
  C119_documented E0 rfl .obv _ rfl x

/-- The calculations of their own are others: these differ from those without compatibility on some data. -/
example : differs (.obv, [], "_talib", .bool true, .bool false, [mk [1, 2, 3], mk [1, 2, 3]]) = true := by decide +kernel

example : differs (.linearreg_intercept, [("period", .int 3)], "_talib", .bool true, .bool false, [mk [1, 2, 4, 8]]) = true := by
  decide +kernel

/-- **C119** So is a call without keywords if the library was set to compatibility. -/
theorem C119_setting (E : Env V) (hE : E.talib = true) (c : Cls) (r : Bta.Call V) (hr : Spec.documentedTalib E c = some r)
    (x : List (Line V)) : call E c [] x = lift (r.run (nth (inputsOf c x))) := by
  obtain ⟨fn, radians, deg, ht, scipy, talib⟩ := E
  subst hE
  cases c <;> cases hr <;> rfl

theorem poffset_refused (a : Cls) (h1 : a ≠ .ema) (h2 : a ≠ .minmaxindex) (E : Env V) (v : PyVal) :
    maWith E [("poffset", v)] (.cls a.row.name) = .error (.py .typeError) := by
  have hn : (keys [("period", PyVal.int 1), ("poffset", v)]).Nodup := by
    show ["period", "poffset"].Nodup
    decide
  have hc : asCls (.cls a.row.name) = .ok a := by simp [asCls, ofName_eq]
  unfold maWith avgOf
  rw [hc]
  by_cases h3 : a = .ewma
  · subst h3
    obtain ⟨fn, radians, deg, ht, scipy, talib⟩ := E
    cases talib <;> rfl
  have hd : get? a.defaults "poffset" = none := by cases a <;> rfl
  have hf : "poffset" ∉ Spec.furtherKeywords a := by
    revert h1 h3
    cases a <;> intro h1 h3 <;> first | exact absurd rfl h1 | exact absurd rfl h3 | decide
  have := resolve_unknown E.talib a h3 h2 [("period", PyVal.int 1), ("poffset", v)] hn "poffset" v rfl (by decide) hd hf
  simp only [bind, Except.bind, this]

/-- **C119 is violated**: `macd` with ta-lib compatibility takes no average but `ema`: every other one is called with a keyword
(`poffset`) which it does not know. -/
theorem C119_macd (E : Env V) (kw : Dict String PyVal) (hn : (keys kw).Nodup) (hf : (talibFlag E.talib kw).1 = true)
    (a : Cls) (h1 : a ≠ .ema) (h2 : a ≠ .minmaxindex) (hk : get? kw "_ma" = some (.cls a.row.name)) (x : List (Line V)) :
    call E .macd kw x = .error (.py .typeError) := by
  unfold call
  cases hres : resolve E.talib .macd kw with
  | error e =>
    have : e = .py .typeError := by
      unfold resolve initCheck at hres
      dsimp only at hres
      split at hres
      · cases hres
      · cases hres; rfl
    subst this
    rfl
  | ok s =>
    have ht : s.talib = true := by
      unfold resolve at hres
      dsimp only at hres
      cases hc : initCheck Cls.macd.rows 0 (keys (fromKwargs ⟨Cls.macd.defaults, []⟩
          (talibKwargs E.talib Cls.macd.hooks kw)).2) with
      | error e => rw [hc] at hres; cases hres
      | ok u => rw [hc] at hres; cases hres; exact hf
    have e1 : get? s.params "_ma" = some (.cls a.row.name) := by
      rw [resolve_params hn hres]
      simp [eff, hk, Cls.defaults, get?]
    have e2 : ∃ w, get? s.params "pslow" = some w := by
      rw [resolve_params hn hres]
      show ∃ w, (eff E.talib Cls.macd.hooks kw "pslow").or (some (.int 26)) = some w
      cases eff E.talib Cls.macd.hooks kw "pslow" with
      | none => exact ⟨_, rfl⟩
      | some v => exact ⟨v, rfl⟩
    obtain ⟨w, e2⟩ := e2
    have := poffset_refused a h1 h2 E w
    simp only [bind, Except.bind, build, need, e1, e2, ht, if_true, this]

example (x : List (Line Q)) : call E0 .macd [("_talib", .bool true), ("_ma", .cls "sma")] x = .error (.py .typeError) :=
  C119_macd E0 _ (by decide) rfl .sma (by decide) (by decide) rfl x

/-- Without compatibility it gives a result. -/
example : (match call E0 .macd [("pfast", .int 2), ("pslow", .int 3), ("psignal", .int 2), ("_ma", .cls "sma")]
    [mk [1, 2, 3, 4, 5, 6]] with | .ok _ => true | _ => false) = true := by decide +kernel

/-! ### The setting and the keyword -/

/-- the library set to compatibility -/
def Env.on (E : Env V) : Env V := { E with talib := true }

/-- the two calls of a class as an average -/
theorem avgOf_succ (E : Env V) (n : Nat) (kw : Dict String PyVal) (c : Cls) :
    avgOf E (n + 1) kw (.cls c.row.name) =
      (resolve E.talib c (("period", .int 1) :: kw)).bind (fun s => buildAvg E (avgOf E n []) s c) := by
  have : asCls (.cls c.row.name) = .ok c := by simp [asCls, ofName_eq]
  rw [avgOf, this]
  rfl

theorem ema_on (E : Env V) (n : Nat) : avgOf E (n + 1) [] (.cls "ema") = .ok (.ema .avg 0) := by
  rw [show (PyVal.cls "ema") = .cls Cls.ema.row.name from rfl, avgOf_succ]
  obtain ⟨fn, radians, deg, ht, scipy, talib⟩ := E
  cases talib <;> rfl

theorem buildAvg_on (E : Env V) (m : PyVal → Out (Avg V)) (s : Seen) (c : Cls) :
   buildAvg E.on m s c = buildAvg E m s c := by cases c <;> rfl


theorem step_on (E : Env V) (m m' : PyVal → Out (Avg V)) (hm : m (.cls "ema") = m' (.cls "ema")) (kw : Dict String PyVal)
    (hkw : kw = [] ∨ (∃ v, kw = [("poffset", v)]) ∨ ∃ v, kw = [("_pearly", v)]) (c : Cls) (h1 : c ≠ .kama)
    (h2 : c = .smacc → ∃ v, kw = [("_pearly", v)]) :
    (resolve true c (("period", .int 1) :: kw)).bind (fun s => buildAvg E m s c) =
      (resolve false c (("period", .int 1) :: kw)).bind (fun s => buildAvg E m' s c) := by
  have d1 : c = .dema ∨ c = .tema ∨ c = .trix ∨ c = .gdema ∨ c = .t3 ∨ c ∉ [Cls.dema, .tema, .trix, .gdema, .t3] := by
    cases c <;> simp
  have key : ∀ c ∈ [Cls.dema, .tema, .trix, .gdema], ∀ kw : Dict String PyVal,
     (kw = [] ∨ (∃ v, kw = [("poffset", v)]) ∨ ∃ v, kw = [("_pearly", v)]) → 
    (resolve true c (("period", .int 1) :: kw)).bind (fun s => buildAvg E m s c) =
      (resolve false c (("period", .int 1) :: kw)).bind (fun s => buildAvg E m' s c) := by
    intro c hc kw hkw
    simp only [List.mem_cons, List.not_mem_nil, or_false] at hc
    rcases hc with rfl | rfl | rfl | rfl <;> rcases hkw with rfl | ⟨v, rfl⟩ | ⟨v, rfl⟩ <;> first
      | rfl
      | (show (m (.cls "ema")).bind _ = (m' (.cls "ema")).bind _
         rw [hm]
         try rfl)
  rcases d1 with rfl | rfl | rfl | rfl | rfl | hc
  · exact key _ (by simp) kw hkw
  · exact key _ (by simp) kw hkw
  · exact key _ (by simp) kw hkw
  · exact key _ (by simp) kw hkw
  · rcases hkw with rfl | ⟨v, rfl⟩ | ⟨v, rfl⟩ <;> rfl
  · by_cases hs : c = .smacc
    · obtain ⟨v, rfl⟩ := h2 hs
      subst hs
      rfl
    · rcases hkw with rfl | ⟨v, rfl⟩ | ⟨v, rfl⟩ <;> clear h2 key <;> revert h1 hs hc <;> cases c <;> intro h1 hc hs <;> first
        | rfl
        | exact absurd rfl h1
        | exact absurd rfl hs
        | exact absurd (by simp) hc

theorem avg_on (E : Env V) (hE : E.talib = false) (c : Cls) (n : Nat)  (kw : Dict String PyVal)
    (hkw : kw = [] ∨ (∃ v, kw = [("poffset", v)]) ∨ ∃ v, kw = [("_pearly", v)]) (h1 : c ≠ .kama)
    (h2 : c = .smacc → ∃ v, kw = [("_pearly", v)]) :
    avgOf E.on (n + 2) kw (.cls c.row.name) = avgOf E (n + 2) kw (.cls c.row.name) := by
  rw [avgOf_succ, avgOf_succ, hE]
  show (resolve true _ _).bind _ = _
  simp only [buildAvg_on]
  exact step_on E _ _ (by rw [ema_on, ema_on]) kw hkw c h1 h2

theorem asCls_ok {v : PyVal} {c : Cls} (h : asCls v = .ok c) : v = .cls c.row.name := by
  unfold asCls at h
  split at h
  · rename_i n
    split at h
    · rename_i c' hc
      cases h
      have := List.find?_some hc
      rw [eq_of_beq this]
    · cases h
  · cases h

theorem avgOf_on (E : Env V) (hE : E.talib = false) (n : Nat) (v : PyVal) (kw : Dict String PyVal)
    (hkw : kw = [] ∨ (∃ v, kw = [("poffset", v)]) ∨ ∃ v, kw = [("_pearly", v)]) (h1 : v ≠ .cls "kama")
    (h2 : v = .cls "smacc" → ∃ v, kw = [("_pearly", v)]) :
    avgOf E.on (n + 2) kw v = avgOf E (n + 2) kw v := by
  cases h : asCls v with
  | error e => rw [avgOf, avgOf, h]; rfl
  | ok c =>
    have := asCls_ok h
    subst this
    refine avg_on E hE c n kw hkw ?_ ?_
    · rintro rfl; exact h1 rfl
    · rintro rfl; exact h2 rfl

theorem need_congr {α : Type} (p : String → Option PyVal) (k : String) (f g : PyVal → Out α)
    (h : ∀ v, p k = some v → f v = g v) : (need p k >>= f) = (need p k >>= g) := by
  unfold need
  cases hk : p k with
  | none => rfl
  | some v => exact h v hk

theorem either_congr {α : Type} (p : String → Option PyVal) (k j : String) (f g : PyVal → Out α)
    (h : ∀ v, p k = some v ∨ p j = some v → f v = g v) : (either p k j >>= f) = (either p k j >>= g) := by
  unfold either need
  cases hk : p k with
  | none => rfl
  | some v =>
    cases ht : v.truthy with
    | true =>
      have := h v (Or.inl hk)
      simpa [bind, Except.bind, ht, pure, Except.pure] using this
    | false =>
      cases hj : p j with
      | none => simp [bind, Except.bind, ht]
      | some w =>
        have := h w (Or.inr hj)
        simpa [bind, Except.bind, ht] using this

/-- no value is `kama`, and `smacc` at most as `_accum` -/
def Calm (p : String → Option PyVal) : Prop :=
  ∀ k v, p k = some v → v ≠ .cls "kama" ∧ (k ≠ "_accum" → v ≠ .cls "smacc")

theorem ma_on (E : Env V) (hE : E.talib = false) {p : String → Option PyVal} (hp : Calm p) {k : String} {v : PyVal}
    (hv : p k = some v) (hk : k ≠ "_accum") : ma E.on v = ma E v :=
  avgOf_on E hE 1 v [] (Or.inl rfl) (hp k v hv).1 (fun h => absurd h ((hp k v hv).2 hk))

theorem maOf_on (E : Env V) (hE : E.talib = false) {p : String → Option PyVal} (hp : Calm p) (k : String)
    (hk : k ≠ "_accum") : maOf E.on p k = maOf E p k :=
  need_congr p k _ _ (fun v hv => ma_on E hE hp hv hk)

theorem smoother_on (E : Env V) (hE : E.talib = false) {p : String → Option PyVal} (hp : Calm p) :
    smoother E.on p = smoother E p := by
  unfold smoother
  rw [maOf_on E hE hp "_ma" (by decide)]
  congr 1
  funext b
  split
  · rfl
  · refine need_congr p "_pearly" _ _ (fun w _ => ?_)
    refine need_congr p "_accum" _ _ (fun v hv => ?_)
    exact avgOf_on E hE 1 v _ (Or.inr (Or.inr ⟨w, rfl⟩)) (hp _ v hv).1 (fun _ => ⟨w, rfl⟩)

section


attribute [local irreducible] avgOf ma maWith maOf smoother

theorem buildAvg_m (E : Env V) (s : Seen) (m m' : PyVal → Out (Avg V))
    (h : ∀ {α : Type} (f : Avg V → Out α),
      (need (get? s.params) "_ma" >>= fun v => m v >>= f) = (need (get? s.params) "_ma" >>= fun v => m' v >>= f)) (c : Cls) :
    buildAvg E m s c = buildAvg E m' s c := by
  cases c
  case dema => simp only [buildAvg, h]
  case tema => simp only [buildAvg, h]
  case trix => simp only [buildAvg, h]
  case gdema => simp only [buildAvg, h]
  case t3 => simp only [buildAvg, h]
  all_goals rfl

theorem buildAvg_ma (E : Env V) (hE : E.talib = false) (s : Seen) (hp : Calm (get? s.params)) (c : Cls) :
    buildAvg E.on (ma E.on) s c = buildAvg E (ma E) s c := by
  rw [buildAvg_on]
  exact buildAvg_m E s _ _
    (fun f => need_congr _ _ _ _ (fun v hv => by rw [ma_on E hE hp hv (by decide)])) c

theorem build_on (E : Env V) (hE : E.talib = false) (s : Seen) (hp : Calm (get? s.params)) (hr : Calm (get? s.rest))
    (c : Cls) (hm : c = .minmaxindex → get? s.rest "_talib" = some (.bool true) ∧ get? s.params "_talib" = none ∧ 
      (keys s.params).Nodup) :
    build E.on s c = build E s c := by
  have h1 := fun k hk => maOf_on E hE hp k hk
  have h2 := smoother_on E hE hp
  have h3 := fun c => buildAvg_ma E hE s hp c
  have h4 : ∀ {α : Type} (k j : String) (hk : k ≠ "_accum") (hj : j ≠ "_accum") (f : Avg V → Out α),
      (either (get? s.params) k j >>= fun v => ma E.on v >>= f) = (either (get? s.params) k j >>= fun v => ma E v >>= f) :=
    fun k j hk hj f => either_congr _ _ _ _ _ (fun v hv => by
      rcases hv with hv | hv
      · rw [ma_on E hE hp hv hk]
      · rw [ma_on E hE hp hv hj])
  have h5 : ∀ {α : Type} (f : Avg V → Out α),
      (need (get? s.rest) "_ma" >>= fun v => ma E.on v >>= f) = (need (get? s.rest) "_ma" >>= fun v => ma E v >>= f) :=
    fun f => need_congr _ _ _ _ (fun v hv => by rw [ma_on E hE hr hv (by decide)])
  have h6 : ∀ {α : Type} (w : PyVal) (f : Avg V → Out α),
      (need (get? s.params) "_ma" >>= fun v => maWith E.on (if s.talib then [("poffset", w)] else []) v >>= f) =
        (need (get? s.params) "_ma" >>= fun v => maWith E (if s.talib then [("poffset", w)] else []) v >>= f) :=
    fun w f => need_congr _ _ _ _ (fun v hv => by
      have : maWith E.on (if s.talib then [("poffset", w)] else []) v = maWith E (if s.talib then [("poffset", w)] else []) v := by
        rw [maWith, maWith]
        refine avgOf_on E hE 1 v _ ?_ (hp _ v hv).1 (fun h => absurd h ((hp _ v hv).2 (by decide)))
        cases s.talib
        · exact Or.inl rfl
        · exact Or.inr (Or.inl ⟨w, rfl⟩)
      rw [this])
  by_cases hc : c = .minmaxindex
  · obtain ⟨ha, hb, hn⟩ := hm hc
    subst hc
    have hf : get? (update s.rest s.params) "_talib" = some (.bool true) := by
      rw [get?_update, get?_reverse hn, hb, ha]; rfl
    have : ∀ g, resolve g .minindex (update s.rest s.params) = resolve false .minindex (update s.rest s.params) := by
      intro g
      have : talibFlag g (update s.rest s.params) = talibFlag false (update s.rest s.params) := by
        simp [talibFlag, hf, PyVal.truthy]
      simp only [resolve, talibKwargs, this]
    simp only [build, this]
  · clear hm
    revert hc
    cases c
    case minmaxindex => exact fun h => absurd rfl h
    case bbands => intro hc; simp only [build, h1 _ (show "_ma" ≠ "_accum" by decide)]; rfl
    case atr => intro hc; simp only [build, h1 _ (show "_ma" ≠ "_accum" by decide)]
    case natr => intro hc; simp only [build, h1 _ (show "_ma" ≠ "_accum" by decide)]
    case cci => intro hc; simp only [build, h1 _ (show "_ma" ≠ "_accum" by decide)]
    case rsi => intro hc; simp only [build, h1 _ (show "_ma" ≠ "_accum" by decide)]
    case apo => intro hc; simp only [build, h1 _ (show "_ma" ≠ "_accum" by decide)]
    case stochf => intro hc; simp only [build, h1 _ (show "_ma" ≠ "_accum" by decide)]
    case adosc => intro hc; simp only [build, h1 _ (show "_ma" ≠ "_accum" by decide)]
    case cmo => intro hc; simp only [build, h1 _ (show "_sum" ≠ "_accum" by decide)]
    case plus_dm => intro hc; simp only [build, h2]
    case minus_dm => intro hc; simp only [build, h2]
    case dm => intro hc; simp only [build, h2]
    case plus_di => intro hc; simp only [build, h2]
    case minus_di => intro hc; simp only [build, h2]
    case di => intro hc; simp only [build, h2]
    case dx => intro hc; simp only [build, h2]
    case adx => intro hc; simp only [build, h1 _ (show "_ma" ≠ "_accum" by decide), h2]
    case adxr => intro hc; simp only [build, h1 _ (show "_ma" ≠ "_accum" by decide), h2]
    case ppo => intro hc; simp only [build, h1 _ (show "_ma" ≠ "_accum" by decide), h4 _ _ (show "_masig" ≠ "_accum" by decide) (show "_ma" ≠ "_accum" by decide)]
    case ppofast => intro hc; simp only [build, h1 _ (show "_ma" ≠ "_accum" by decide), h4 _ _ (show "_masig" ≠ "_accum" by decide) (show "_ma" ≠ "_accum" by decide)]
    case macd => intro hc; simp only [build, h1 _ (show "_ma" ≠ "_accum" by decide), h6, h4 _ _ (show "_masig" ≠ "_accum" by decide) (show "_ma" ≠ "_accum" by decide)]
    case stochastic => intro hc; simp only [build, h1 _ (show "_ma" ≠ "_accum" by decide), h4 _ _ (show "_maslow" ≠ "_accum" by decide) (show "_ma" ≠ "_accum" by decide)]
    case stochrsi => intro hc; simp only [build, h5]
    case «sum» => intro hc; simp only [build, h3]
    case ewma => intro hc; simp only [build, h3]
    case sma => intro hc; simp only [build, h3]
    case ema => intro hc; simp only [build, h3]
    case smma => intro hc; simp only [build, h3]
    case wma => intro hc; simp only [build, h3]
    case dema => intro hc; simp only [build, h3]
    case kama => intro hc; simp only [build, h3]
    case tema => intro hc; simp only [build, h3]
    case trima => intro hc; simp only [build, h3]
    case trix => intro hc; simp only [build, h3]
    case gdema => intro hc; simp only [build, h3]
    case t3 => intro hc; simp only [build, h3]
    case smacc => intro hc; simp only [build, h3]
    all_goals (intro hc; rfl)

end

/-- the values of keywords, hooks and defaults: none is `kama`, and `smacc` is the default of `_accum` only -/
theorem given_calm : ∀ c ∈ Cls.all, ∀ p ∈ c.defaults ++ c.hooks.flatten,
    (match p.2 with | .cls n => decide (n ≠ "kama" ∧ (p.1 ≠ "_accum" → n ≠ "smacc")) | _ => true) = true := by decide +kernel

theorem calm_of_mem {c : Cls} {k : String} {v : PyVal} (h : (k, v) ∈ c.defaults ++ c.hooks.flatten) :
    v ≠ .cls "kama" ∧ (k ≠ "_accum" → v ≠ .cls "smacc") := by
  have := given_calm c (all_mem c) (k, v) h
  constructor
  · rintro rfl
    exact (of_decide_eq_true this).1 rfl
  · rintro hk rfl
    exact (of_decide_eq_true this).2 hk rfl

/-- **C119** To set the library to compatibility is the same as to give `_talib=True` in every call, for every class, keywords
and data, unless one of the averages `kama` and `smacc` is given. -/
theorem C119_global_partial (E : Env V) (hE : E.talib = false) (c : Cls) (kw : Dict String PyVal) (hn : (keys kw).Nodup)
    (h0 : get? kw "_talib" = none) (hs : ∀ k v, get? kw k = some v → v ≠ .cls "kama" ∧ v ≠ .cls "smacc")
    (x : List (Line V)) :
    call { E with talib := true } c kw x = call E c (("_talib", .bool true) :: kw) x := by
  have hn1 := nodup_talib hn h0 (.bool true)
  have f1 : (talibFlag true kw).1 = true := by simp [talibFlag]
  have f2 : (talibFlag false (("_talib", PyVal.bool true) :: kw)).1 = true := rfl
  have hg : ∀ k, k ≠ "_talib" → get? (("_talib", PyVal.bool true) :: kw) k = get? kw k := by
    intro k hk
    show (if "_talib" = k then _ else _) = _
    rw [if_neg (fun h => hk h.symm)]
  have he : ∀ k, eff true c.hooks kw k = eff false c.hooks (("_talib", PyVal.bool true) :: kw) k := by
    intro k
    unfold eff
    rw [f1, f2]
    by_cases hk : k = "_talib"
    · simp [hk]
    · simp [hk, hg k hk]
  show call E.on c kw x = _
  unfold call
  rw [hE]
  show (resolve true c kw >>= _) = _
  rcases resolve_eff true false c hn hn1 he with ⟨e, h1, h2⟩ | ⟨s, s', h1, h2, g1, g2, hss⟩
  · rw [h1, h2]; rfl
  · rw [h1, h2]
    have hst : s = ⟨s'.talib, s.params, s.rest⟩ := by
      have : s.talib = s'.talib := by rw [g1, g2, f1, f2]
      rw [← this]
    have hss' : Same s s' := by rw [← hst] at hss; exact hss
    have calmEff : ∀ k v, eff false c.hooks (("_talib", PyVal.bool true) :: kw) k = some v →
        v ≠ .cls "kama" ∧ (k ≠ "_accum" → v ≠ .cls "smacc") := by
      intro k v hv
      rw [← he k] at hv
      unfold eff at hv
      rw [f1] at hv
      simp only [if_true, Option.or_eq_some_iff] at hv
      rcases hv with hv | ⟨-, hv⟩
      · by_cases hk : k = "_talib"
        · simp [hk] at hv
        · rw [if_neg hk] at hv
          exact ⟨(hs k v hv).1, fun _ => (hs k v hv).2⟩
      · exact calm_of_mem (List.mem_append_right _ (get?_eq_some_mem hv))
    have hp : Calm (get? s'.params) := by
      intro k v hv
      rw [resolve_params hn1 h2] at hv
      simp only [Option.or_eq_some_iff] at hv
      rcases hv with hv | ⟨-, hv⟩
      · split at hv
        · exact calmEff k v hv
        · cases hv
      · exact calm_of_mem (List.mem_append_left _ (get?_eq_some_mem hv))
    have hr : Calm (get? s'.rest) := by
      intro k v hv
      rw [resolve_rest hn1 h2] at hv
      split at hv
      · cases hv
      · exact calmEff k v hv
    have hm : c = .minmaxindex → get? s'.rest "_talib" = some (.bool true) ∧ get? s'.params "_talib" = none ∧
        (keys s'.params).Nodup := by
      rintro rfl
      refine ⟨?_, ?_, hss.nodup.2.2.2⟩
      · rw [resolve_rest hn1 h2]
        unfold eff
        rw [f2]
        rfl
      · rw [resolve_params hn1 h2]
        rfl
    have hb : build E.on s c = build E s' c := by
      rw [build_congr E.on hss' c, build_on E hE s' hp hr c hm]
    show (build E.on s c >>= _) = (build E s' c >>= _)
    rw [hb]

example (x : List (Line Q)) : call { E0 with talib := true } .adx [("period", .int 3), ("_alt", .bool true), ("_ma", .cls "ema")] x =
    call E0 .adx [("_talib", .bool true), ("period", .int 3), ("_alt", .bool true), ("_ma", .cls "ema")] x := by
  refine C119_global_partial E0 rfl .adx _ (by decide) rfl ?_ x
  intro k v h
  have := get?_eq_some_mem h
  simp only [List.mem_cons, Prod.mk.injEq, List.not_mem_nil, or_false] at this
  rcases this with ⟨-, rfl⟩ | ⟨-, rfl⟩ | ⟨-, rfl⟩ <;> exact ⟨by simp, by simp⟩

/-- **C119 is violated** without this condition: with the keyword, `kama` as the average of another indicator is seeded as
without compatibility; with the setting it is seeded as in ta-lib. -/
theorem C119_global_kama :
    ∃ a b : List (Line Q), call { E0 with talib := true } .apo [("pfast", .int 2), ("pslow", .int 3), ("_ma", .cls "kama")] bars = .ok a ∧
      call E0 .apo [("_talib", .bool true), ("pfast", .int 2), ("pslow", .int 3), ("_ma", .cls "kama")] bars = .ok b ∧ a ≠ b := by
  have h : (match call { E0 with talib := true } .apo [("pfast", .int 2), ("pslow", .int 3), ("_ma", .cls "kama")] bars,
      call E0 .apo [("_talib", .bool true), ("pfast", .int 2), ("pslow", .int 3), ("_ma", .cls "kama")] bars with
    | .ok a, .ok b => decide (a ≠ b)
    | _, _ => false) = true := by decide +kernel
  split at h
  · rename_i a b h1 h2
    exact ⟨a, b, h1, h2, by simpa using h⟩
  · cases h

end Bta.Api
