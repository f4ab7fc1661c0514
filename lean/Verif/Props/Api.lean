import Verif.Lemmas.Api

/-!
# C117, C118, C119: keywords, defaults, parameters without effect, and what ta-lib compatibility changes
-/

set_option linter.unusedSectionVars false
set_option linter.unusedVariables false

namespace Bta.Api

open Meta Py
open Line (Seed)

variable {V : Type} [PyFloat V]

/-! ## The model is the one of the other chapters -/

theorem all_mem (c : Cls) : c ∈ Cls.all := by cases c <;> decide

/-- The classes are those of the table of class statements, in the same order. -/
theorem library_eq : library = Cls.all.map Cls.row := rfl

theorem rows_table : ∀ c ∈ Cls.all, c.rows = libChain c.row.name := by decide +kernel

/-- The initialisers of a class are those found along its bases. -/
theorem rows_eq (c : Cls) : c.rows = libChain c.row.name := rows_table c (all_mem c)

/-- The defaults are what the metaclass for parameters makes of the declarations along the bases. -/
theorem defaults_eq (c : Cls) :
    ∃ i, genChain (c.chain.reverse.map (fun d => PDecl.seq d.own)) = .ok ⟨c.defaults, i⟩ := by
  cases c <;> exact ⟨_, rfl⟩

theorem ofName_table : ∀ c ∈ Cls.all, Cls.ofName c.row.name = some c := by decide +kernel

/-- A class is found by its name. -/
theorem ofName_eq (c : Cls) : Cls.ofName c.row.name = some c := ofName_table c (all_mem c)

/-! ## C117: defaults and keywords -/

/-- values for examples -/
abbrev Q := Ext ℚ

/-- Stand-ins for the functions of numpy: the root is right for the squares which are used, the other functions are the
identity and `np.radians` is halving; only the effect of `degrees` on the functions of math.py depends on them. -/
def fn0 (n : String) (x : Q) : Q :=
  if n = "sqrt" then
    match x with
    | .fin q => if q = 4 then .fin 2 else if q = 1 then .fin 1 else .fin (q / 2)
    | y => y
  else x

def E0 : Env Q where
  fn := fn0
  radians := fun x => x / lit 2
  deg := lit 57
  ht := ⟨fun x => x, fun x => x, fun x => x, fun _ => .ok 0, lit 57⟩
  scipy := false
  talib := false

def mk (l : List ℚ) : Line Q := ⟨l.map Ext.fin, 1⟩

def bars : List (Line Q) :=
  [mk [5, 7, 9, 6, 8, 12, 10, 11, 15, 13, 14, 10, 9, 12, 13], mk [3, 4, 5, 5, 6, 8, 9, 7, 10, 9, 11, 8, 7, 9, 10],
   mk [4, 6, 5, 6, 7, 9, 10, 9, 12, 10, 13, 9, 8, 11, 12], mk [2, 1, 3, 2, 5, 1, 4, 2, 3, 6, 2, 1, 3, 2, 4]]
def touch : List (Line Q) := [mk [1, 2, 3, 2, 1], mk [2, 2, 2, 2, 2]]
def flat : List (Line Q) := [mk (List.replicate 34 8)]
def swing : List (Line Q) :=
  [mk [5, 7, 9, 12, 10, 8, 5, 4, 3, 4, 7, 10, 12], mk [3, 4, 6, 9, 7, 5, 3, 2, 1, 2, 4, 7, 9]]


/-- The calculation a call without keywords stands for, as documented: the parameters of each class with their documented
defaults. -/
def _root_.Spec.documented (E : Env V) : Cls → Option (Bta.Call V)
  | .avgprice => some (.avgprice (lit 4))
  | .typprice => some (.typprice (lit 3))
  | .wclprice => some (.wclprice (lit 2) (lit 4))
  | .medprice => some (.medprice (lit 2))
  | .add => some .add
  | .«div» => some .div
  | .mult => some .mult
  | .sub => some .sub
  | .«max» => some (.max 30)
  | .«min» => some (.min 30)
  | .minmax => some (.minmax 30)
  | .maxindex => some (.maxindex 30)
  | .minindex => some (.minindex 30)
  | .minmaxindex => some (.minmaxindex false 30)
  | .«sum» => some (.avg .sumN 30)
  | .sin => some (.mathFn (E.fn "sin"))
  | .cos => some (.mathFn (E.fn "cos"))
  | .tan => some (.mathFn (E.fn "tan"))
  | .sinh => some (.mathFn (E.fn "sinh"))
  | .cosh => some (.mathFn (E.fn "cosh"))
  | .tanh => some (.mathFn (E.fn "tanh"))
  | .asin => some (.mathFn (E.fn "arcsin"))
  | .acos => some (.mathFn (E.fn "arccos"))
  | .atan => some (.mathFn (E.fn "arctan"))
  | .ceil => some (.mathFn (E.fn "ceil"))
  | .exp => some (.mathFn (E.fn "exp"))
  | .floor => some (.mathFn (E.fn "floor"))
  | .ln => some (.mathFn (E.fn "log"))
  | .log10 => some (.mathFn (E.fn "log10"))
  | .sqrt => some (.mathFn (E.fn "sqrt"))
  | .crossup => some (.crossup false)
  | .crossdown => some (.crossdown false)
  | .crossover => some (.crossover false)
  | .ewma => some (.avg (.ewma false) 30)
  | .sma => some (.avg .sma 30)
  | .ema => some (.avg (.ema .avg 0) 30)
  | .smma => some (.avg (.smma .avg) 30)
  | .wma => some (.avg .wma 30)
  | .dema => some (.avg (.dema (.ema .avg 0)) 30)
  | .kama => some (.avg (.kama (lit 2) (lit 30) 1 .avg) 30)
  | .tema => some (.avg (.tema (.ema .avg 0)) 30)
  | .trima => some (.avg .trima 30)
  | .trix => some (.avg (.trix (.ema .avg 0)) 30)
  | .gdema => some (.avg (.gdema (.ema .avg 0) (lit (7 / 10))) 5)
  | .t3 => some (.avg (.t3 (lit (7 / 10))) 5)
  | .mama => some (.mama E.ht (E.fn "arctan") (lit (1 / 2)) (lit (1 / 20)))
  | .ht_trendline => some (.htTrendline E.ht)
  | .ht_dcperiod => some (.htDcperiod E.ht)
  | .ht_dcphase => some (.htDcphase E.ht)
  | .ht_phasor => some (.htPhasor E.ht)
  | .ht_sine => some (.htSine E.ht)
  | .ht_trendmode => some (.htTrendmode E.ht)
  | .midprice => some (.midprice 14)
  | .midpoint => some (.midpoint 14)
  | .beta => some (.beta true 1 5)
  | .correl => some (.correl (E.fn "sqrt") 30)
  | .linearreg_slope => some (.linregSlope 14)
  | .linearreg_angle => some (.linregAngle (E.fn "arctan") E.deg 14)
  | .linearreg_intercept => some (.linregIntercept false 14)
  | .linearreg => some (.linreg 14)
  | .tsf => some (.tsf 14)
  | .mad => some (.mad 20)
  | .stddev => some (.stddev (E.fn "sqrt") 0 20)
  | .stddev_s => some (.stddev (E.fn "sqrt") 1 20)
  | .var => some (.var 0 5)
  | .var_s => some (.var 1 5)
  | .bbands => some (.bbands (E.fn "sqrt") .sma (lit 2) 20)
  | .truelow => some (.truelow 1)
  | .truerange => some (.truerange 1)
  | .atr => some (.atr (.smma .avg) 1 14)
  | .natr => some (.natr (.smma .avg) 1 14)
  | .aroon => some (.aroon 14)
  | .aroonosc => some (.aroonosc 14)
  | .bop => some .bop
  | .cci => some (.cci .sma (lit (3 / 200)) 20)
  | .cmo => some (.cmo .sumN 14)
  | .smacc => some (.avg (.smacc E.scipy false .sum) 14)
  | .plus_dm => some (.plusDm (.smacc E.scipy false .sum) 14 1)
  | .minus_dm => some (.minusDm (.smacc E.scipy false .sum) 14 1)
  | .dm => some (.dm (.smacc E.scipy false .sum) 14 1)
  | .plus_di => some (.plusDi (.smacc E.scipy false .sum) 14 1 false)
  | .minus_di => some (.minusDi (.smacc E.scipy false .sum) 14 1 false)
  | .di => some (.di (.smacc E.scipy false .sum) 14 1 false)
  | .dx => some (.dx (.smacc E.scipy false .sum) 14 1 false)
  | .adx => some (.adx (.smacc E.scipy false .sum) (.smma .avg) 14 1 false 14)
  | .adxr => some (.adxr (.smacc E.scipy false .sum) (.smma .avg) 14 1 false 14 (some 14))
  | .macd => some (.macd (.ema .avg 0) (.ema .avg 0) (.ema .avg 0) 12 26 9)
  | .mfi => some (.mfi 14)
  | .mom => some (.mom 10)
  | .apo => some (.apo (.ema .avg 0) 12 26)
  | .ppo => some (.ppo false (.ema .avg 0) (.ema .avg 0) 12 26 9)
  | .ppofast => some (.ppo true (.ema .avg 0) (.ema .avg 0) 12 26 9)
  | .roc => some (.roc 12)
  | .rocp => some (.rocp 12)
  | .rocr => some (.rocr 12)
  | .rocr100 => some (.rocr100 12)
  | .rsi => some (.rsi (.smma .avg) 1 14)
  | .sar => some (.sar (lit (1 / 50)) (lit (1 / 5)))
  | .sarext => some (.sarext ⟨lit 0, lit (1 / 50), lit (1 / 5), lit (1 / 50), lit (1 / 5), lit 0⟩)
  | .stochf => some (.stochf .sma 14 3)
  | .stochastic => some (.stochastic .sma .sma 14 3 3)
  | .stochrsi => some (.stochrsi 14 14 (lit 1))
  | .williamsr => some (.williamsr 14)
  | .ultimateoscillator => some (.ultosc 7 14 28 (lit 4) (lit 2) (lit 1))
  | .ad => some .ad
  | .adosc => some (.adosc (.ema .avg 0) 3 10)
  | .obv => some (.obv false 1)
  | _ => none

/-- **C117** A call without keywords is the documented calculation with the documented defaults, for all data. -/
theorem C117_defaults (E : Env V) (hE : E.talib = false) (c : Cls) (r : Bta.Call V) (hr : Spec.documented E c = some r)
    (x : List (Line V)) : call E c [] x = lift (r.run (nth (inputsOf c x))) := by
  obtain ⟨fn, radians, deg, ht, scipy, talib⟩ := E
  subst hE
  cases c <;> cases hr <;> rfl

example : Spec.documented E0 .rsi = some (.rsi (.smma .avg) 1 14) := rfl

example : call E0 .sma [("period", .int 3)] [mk [1, 2, 3, 7]] = .ok [⟨[nan, nan, .fin 2, .fin 4], 3⟩] := by decide +kernel

example (x : List (Line Q)) : call E0 .sma [] x = lift ((Bta.Call.avg .sma 30).run (nth x)) := C117_defaults E0 rfl .sma _ rfl x

/-- All public classes are covered, except `mavp` (C42) and `truehigh` (which raises, C62). -/
theorem C117_covered (E : Env V) (c : Cls) (hp : isPrivate c.row.name = false) (h1 : c ≠ .mavp) (h2 : c ≠ .truehigh) :
    (Spec.documented E c).isSome = true := by
  cases c <;> first
    | rfl
    | exact absurd rfl h1
    | exact absurd rfl h2
    | exact absurd hp (by decide)

/-- **C117** Keywords are given in any order. -/
theorem C117_order (E : Env V) (c : Cls) (kw kw' : Dict String PyVal) (hn : (keys kw).Nodup) (hp : kw.Perm kw')
    (x : List (Line V)) : call E c kw x = call E c kw' x := by
  have hn' : (keys kw').Nodup := (hp.map _).nodup_iff.1 hn
  refine call_congr E c hn hn' (fun k => ?_) x
  cases h : get? kw k with
  | some v => exact (mem_get?_of_nodup hn' (hp.mem_iff.1 (get?_eq_some_mem h))).symm
  | none =>
    rw [get?_eq_none_iff] at h
    symm
    rw [get?_eq_none_iff]
    exact fun hk => h ((hp.map _).mem_iff.2 hk)

example (x : List (Line Q)) : call E0 .macd [("pfast", .int 3), ("pslow", .int 5)] x =
    call E0 .macd [("pslow", .int 5), ("pfast", .int 3)] x :=
  C117_order E0 .macd _ _ (by decide) (List.Perm.swap _ _ _) x

/-- the views of a call and of the same call with a default given explicitly -/
theorem resolve_default (g : Bool) (c : Cls) (kw : Dict String PyVal) (hn : (keys kw).Nodup) (k : String) (v : PyVal)
    (hk : get? c.defaults k = some v) (h0 : get? kw k = none) (ht : k ≠ "_talib")
    (hh : (talibFlag g kw).1 = false ∨ get? c.hooks.flatten k = none) :
    (∃ e, resolve g c (set kw k v) = .error e ∧ resolve g c kw = .error e) ∨
      ∃ s s', resolve g c (set kw k v) = .ok s ∧ resolve g c kw = .ok s' ∧ Same s s' := by
  have hn2 : (keys (set kw k v)).Nodup := nodup_keys_set hn k v
  have hoff : ∀ j, ¬ j = k → get? (set kw k v) j = get? kw j := fun j hj => by
    rw [get?_set, if_neg (fun e => hj e.symm)]
  have hfl : get? (set kw k v) "_talib" = get? kw "_talib" := hoff _ (fun e => ht e.symm)
  rcases resolve_rel (· = k) g c (fun j hj => by subst hj; exact ⟨by rw [hk]; rfl, ht⟩) hn2 hn hoff with
    h | ⟨s, s', h1, h2, hr⟩
  · exact Or.inl h
  refine Or.inr ⟨s, s', h1, h2, hr.talib, funext fun j => ?_, funext hr.rest, ?_⟩
  · by_cases hj : j = k
    · subst hj
      rw [resolve_params hn2 h1, resolve_params hn h2]
      have e1 : eff g c.hooks (set kw j v) j = some v := by
        simp [eff, ht, get?_set]
      have e2 : eff g c.hooks kw j = none := by
        rcases hh with hh | hh
        · simp [eff, h0, hh]
        · simp [eff, h0, hh]
      rw [e1, e2, hk]
      rfl
    · exact hr.params j hj
  · have a := resolve_nodup hn2 h1
    have b := resolve_nodup hn h2
    exact ⟨a.1, b.1, a.2, b.2⟩

/-- **C117** To give a parameter its default is the same as not to give it (unless ta-lib compatibility changes it). -/
theorem C117_explicit (E : Env V) (c : Cls) (kw : Dict String PyVal) (hn : (keys kw).Nodup) (k : String) (v : PyVal)
    (hk : get? c.defaults k = some v) (h0 : get? kw k = none)
    (hh : (talibFlag E.talib kw).1 = false ∨ get? c.hooks.flatten k = none) (x : List (Line V)) :
    call E c (set kw k v) x = call E c kw x := by
  have ht : k ≠ "_talib" := by
    rintro rfl
    have : get? c.defaults "_talib" = none := by cases c <;> rfl
    rw [hk] at this
    cases this
  unfold call
  rcases resolve_default E.talib c kw hn k v hk h0 ht hh with ⟨e, h1, h2⟩ | ⟨s, s', h1, h2, hs⟩
  · rw [h1, h2]
  · rw [h1, h2]
    simp only [bind, Except.bind, build_congr E hs c]

example (x : List (Line Q)) : call E0 .macd [("pfast", .int 3), ("pslow", .int 26)] x = call E0 .macd [("pfast", .int 3)] x :=
  C117_explicit E0 .macd [("pfast", .int 3)] (by decide) "pslow" (.int 26) rfl rfl (Or.inl rfl) x

/-- The keywords the initialisers of a class take besides its parameters (the others are bases, which take any).  `ewma` hands
them over to pandas. -/
def _root_.Spec.furtherKeywords : Cls → List String
  | .ema => ["poffset"]
  | .gdema => ["_gd"]
  | .mad => ["mean"]
  | .stochrsi => ["_pfast", "_ma"]
  | .ewma => pandasEwm
  | _ => []

theorem takes_rows : ∀ c ∈ Cls.all, c ≠ .ewma → c ≠ .minmaxindex →
    ∃ r ∈ c.rows, r.init = true ∧ r.name ≠ "Indicator" ∧ r.anykw = false ∧ ∀ k ∈ r.kws, k ∈ Spec.furtherKeywords c := by
  decide +kernel

theorem resolve_unknown (g : Bool) (c : Cls) (h1 : c ≠ .ewma) (h2 : c ≠ .minmaxindex) (kw : Dict String PyVal)
    (hn : (keys kw).Nodup) (k : String) (v : PyVal) (hk : get? kw k = some v) (ht : k ≠ "_talib")
    (hd : get? c.defaults k = none) (hf : k ∉ Spec.furtherKeywords c) :
    resolve g c kw = .error (.py .typeError) := by
  have hrest : k ∈ keys (fromKwargs ⟨c.defaults, []⟩ (talibKwargs g c.hooks kw)).2 := by
    rw [mem_keys_iff, (get?_fromKwargs _ (defaults_nodup c) _ (nodup_talibKwargs g c.hooks hn) k).2, hd,
      get?_talibKwargs g c.hooks hn]
    simp [eff, ht, hk]
  obtain ⟨r, hr, hi, hname, hany, hkws⟩ := takes_rows c (all_mem c) h1 h2
  have htk : takes r 0 (keys (fromKwargs ⟨c.defaults, []⟩ (talibKwargs g c.hooks kw)).2) = false := by
    unfold takes
    rw [if_neg hname]
    simp only [Nat.zero_le, decide_true, Bool.true_and, List.drop_zero, hany, Bool.false_and, Bool.or_false]
    rw [List.all_eq_false]
    exact ⟨k, hrest, by simpa using fun h => hf (hkws k h)⟩
  have hc : initCheck c.rows 0 (keys (fromKwargs ⟨c.defaults, []⟩ (talibKwargs g c.hooks kw)).2) = .error .typeError := by
    unfold initCheck
    rw [if_neg]
    rw [List.all_eq_true]
    intro h
    have := h r (by simp [List.mem_filter, hr, hi])
    rw [htk] at this
    cases this
  unfold resolve
  dsimp only
  rw [hc]
  rfl

/-- **C117** A keyword which is neither a parameter nor taken by an initialiser is refused, whatever else is given. -/
theorem C117_unknown (E : Env V) (c : Cls) (kw : Dict String PyVal) (hn : (keys kw).Nodup) (k : String) (v : PyVal)
    (hk : get? kw k = some v) (ht : k ≠ "_talib") (hd : get? c.defaults k = none) (hf : k ∉ Spec.furtherKeywords c)
    (x : List (Line V)) : call E c kw x = .error (.py .typeError) := by
  unfold call
  by_cases h1 : c = .ewma
  · subst h1
    cases hres : resolve E.talib .ewma kw with
    | error e =>
      unfold resolve at hres
      dsimp only at hres
      have : initCheck Cls.ewma.rows 0 (keys (fromKwargs ⟨Cls.ewma.defaults, []⟩
          (talibKwargs E.talib Cls.ewma.hooks kw)).2) = .ok () ∨ initCheck Cls.ewma.rows 0 (keys (fromKwargs
          ⟨Cls.ewma.defaults, []⟩ (talibKwargs E.talib Cls.ewma.hooks kw)).2) = .error .typeError := by
        unfold initCheck
        split <;> simp
      rcases this with h | h
      · rw [h] at hres; cases hres
      · rw [h] at hres
        cases hres
        rfl
    | ok s =>
      have hmem : k ∈ keys s.rest := by
        rw [mem_keys_iff, resolve_rest hn hres, hd]
        simp [eff, ht, hk]
      have hany : ((keys s.rest).any fun k => !pandasEwm.contains k) = true := by
        rw [List.any_eq_true]
        exact ⟨k, hmem, by simpa [Spec.furtherKeywords] using hf⟩
      show (build E s .ewma).bind _ = _
      simp only [build, buildAvg, hany, if_true]
      rfl
  by_cases h2 : c = .minmaxindex
  · subst h2
    cases hres : resolve E.talib .minmaxindex kw with
    | error e =>
      unfold resolve at hres
      dsimp only at hres
      have : ∀ l, initCheck Cls.minmaxindex.rows 0 l = .ok () ∨ initCheck Cls.minmaxindex.rows 0 l = .error .typeError := by
        intro l
        unfold initCheck
        split <;> simp
      rcases this (keys (fromKwargs ⟨Cls.minmaxindex.defaults, []⟩
          (talibKwargs E.talib Cls.minmaxindex.hooks kw)).2) with h | h
      · rw [h] at hres; cases hres
      · rw [h] at hres
        cases hres
        rfl
    | ok s =>
      have hmem : get? s.rest k = some v := by
        rw [resolve_rest hn hres, hd]
        simp [eff, ht, hk]
      have hp : get? s.params k = none := by
        rw [resolve_params hn hres, hd]
        rfl
      have hnd := resolve_nodup hn hres
      show (build E s .minmaxindex).bind _ = _
      have : resolve E.talib .minindex (update s.rest s.params) = .error (.py .typeError) := by
        refine resolve_unknown E.talib .minindex (by decide) (by decide) _ (nodup_keys_update hnd.1 _) k v ?_ ht hd hf
        rw [get?_update, get?_reverse hnd.2, hp, hmem]
        rfl
      simp only [build, this]
      rfl
  · rw [resolve_unknown E.talib c h1 h2 kw hn k v hk ht hd hf]
    rfl

example (x : List (Line Q)) : call E0 .macd [("fast", .int 3)] x = .error (.py .typeError) :=
  C117_unknown E0 .macd [("fast", .int 3)] (by decide) "fast" (.int 3) rfl (by decide) rfl (by decide) x

/-! ## C118: parameters without effect -/

/-- Declared parameters which the initialisers never look at: `bbands` always takes `stddev`, `cci` always `mad`, ... -/
def _root_.Spec.unread : List (Cls × String) :=
  [(.bbands, "_stdev"), (.cci, "_dev"), (.correl, "_rets"), (.correl, "_prets"), (.mad, "_ma"), (.trima, "_ma"),
   (.wma, "coef"), (.ewma, "_seed")]

theorem unread_declared : ∀ q ∈ Spec.unread, (get? q.1.defaults q.2).isSome = true ∧ q.2 ≠ "_talib" := by decide +kernel

theorem call_off (E : Env V) (c : Cls) (p : String) (hp : (get? c.defaults p).isSome = true ∧ p ≠ "_talib")
    (hb : ∀ s s' : Seen, (keys s.rest).Nodup → (keys s'.rest).Nodup → Rel (· = p) s s' → build E s c = build E s' c)
    (kw : Dict String PyVal) (hn : (keys kw).Nodup) (v : PyVal) (x : List (Line V)) :
    call E c (set kw p v) x = call E c kw x := by
  unfold call
  rcases resolve_rel (· = p) E.talib c (fun k hk => by subst hk; exact hp) (nodup_keys_set hn p v) hn
      (fun k hk => by rw [get?_set, if_neg (fun e => hk e.symm)]) with ⟨e, h1, h2⟩ | ⟨s, s', h1, h2, hr⟩
  · rw [h1, h2]
  · rw [h1, h2]
    simp only [bind, Except.bind, hb s s' (resolve_nodup (nodup_keys_set hn p v) h1).1 (resolve_nodup hn h2).1 hr]

theorem unread_build (E : Env V) (q : Cls × String) (hq : q ∈ Spec.unread) (s s' : Seen) (hr : Rel (· = q.2) s s') :
    build E s q.1 = build E s' q.1 := by
  have hk := keys_congr hr.rest
  have hany := any_congr hk
  have hemp := isEmpty_congr hk
  simp only [Spec.unread, List.mem_cons, List.not_mem_nil, or_false] at hq
  rcases hq with rfl | rfl | rfl | rfl | rfl | rfl | rfl | rfl
  all_goals
    have hp := hr.params "period" (by decide)
  · have h1 := hr.params "devs" (by decide)
    have h2 := hr.params "_ma" (by decide)
    simp only [build, nat, num, maOf, need, hp, h1, h2]
  · have h1 := hr.params "factor" (by decide)
    have h2 := hr.params "_ma" (by decide)
    simp only [build, nat, num, maOf, need, hp, h1, h2]
  · simp only [build, nat, need, hp]
  · simp only [build, nat, need, hp]
  · simp only [build, nat, need, hp]
  · simp only [build, buildAvg, nat, need, hp]
  · simp only [build, buildAvg, nat, need, hp]
  · have h1 := hr.params "adjust" (by decide)
    simp only [build, buildAvg, nat, flag, need, hp, h1, hany, hemp]

/-- **C118 is violated**: these declared parameters have no effect: whatever is given for them (a class, a number, anything
else), with whatever other keywords and data, the result is the same as without them. -/
theorem C118_unread (E : Env V) (c : Cls) (p : String) (hq : (c, p) ∈ Spec.unread) (kw : Dict String PyVal)
    (hn : (keys kw).Nodup) (v : PyVal) (x : List (Line V)) : call E c (set kw p v) x = call E c kw x :=
  call_off E c p (unread_declared (c, p) hq) (fun s s' _ _ hr => unread_build E (c, p) hq s s' hr) kw hn v x

example : (Cls.bbands, "_stdev") ∈ Spec.unread := by decide

example (x : List (Line Q)) : call E0 .bbands [("period", .int 3), ("_stdev", .cls "mad")] x =
    call E0 .bbands [("period", .int 3)] x :=
  C118_unread E0 .bbands "_stdev" (by decide) [("period", .int 3)] (by decide) (.cls "mad") x

/-- **C118 is violated**: the average of `t3` is always `ema`, unless `_gd` is given too. -/
theorem C118_t3 (E : Env V) (kw : Dict String PyVal) (hn : (keys kw).Nodup)
    (hg : ∀ w, get? kw "_gd" = some w → w.truthy = false) (v : PyVal) (x : List (Line V)) :
    call E .t3 (set kw "_ma" v) x = call E .t3 kw x := by
  unfold call
  have hn2 := nodup_keys_set hn "_ma" v
  rcases resolve_rel (· = "_ma") E.talib .t3 (fun k hk => by subst hk; exact ⟨rfl, by decide⟩) hn2 hn
      (fun k hk => by rw [get?_set, if_neg (fun e => hk e.symm)]) with ⟨e, h1, h2⟩ | ⟨s, s', h1, h2, hr⟩
  · rw [h1, h2]
  · have hp := hr.params "period" (by decide)
    have hv := hr.params "vfactor" (by decide)
    have hd := hr.params "_gd" (by decide)
    have hgd : ∃ w, get? s'.params "_gd" = some w ∧ w.truthy = false := by
      rw [resolve_params hn h2]
      have : eff E.talib Cls.t3.hooks kw "_gd" = get? kw "_gd" := by
        have hh : get? Cls.t3.hooks.flatten "_gd" = none := rfl
        simp [eff, hh]
      rw [this]
      cases hk : get? kw "_gd" with
      | some w => exact ⟨w, rfl, hg w hk⟩
      | none => exact ⟨.bool false, rfl, rfl⟩
    obtain ⟨w, hw, hf⟩ := hgd
    rw [h1, h2]
    simp only [bind, Except.bind, build, buildAvg, truth, nat, num, need, hp, hv, hd, hw, hf, pure, Except.pure]
    rfl

/-- The classes of the directional movement system. -/
def _root_.Spec.directional : List Cls :=
  [.plus_dm, .minus_dm, .dm, .plus_di, .minus_di, .di, .dx, .adx, .adxr]

/-- The classes which have a parameter `_pearly`, and one whose use as an average is not modelled. -/
def _root_.Spec.knowsPearly : List Cls :=
  [.minmaxindex, .smacc, ._dm, ._di, .plus_dm, .minus_dm, .dm, .plus_di, .minus_di, .di, .dx, .adx, .adxr]

theorem pearly_refused (g : Bool) (a : Cls) (ha : a ∉ Spec.knowsPearly) (E : Env V) (w : PyVal) :
    maWith { E with talib := g } [("_pearly", w)] (.cls a.row.name) = .error (.py .typeError) := by
  unfold maWith avgOf
  have h1 : asCls (.cls a.row.name) = .ok a := by simp only [asCls, ofName_eq a]
  simp only [h1, bind, Except.bind]
  by_cases he : a = .ewma
  · subst he
    cases g <;> rfl
  have hm : a ≠ .minmaxindex := fun h => ha (by simp [h, Spec.knowsPearly])
  rw [resolve_unknown g a he hm (("period", .int 1) :: [("_pearly", w)]) (by simp [keys]) "_pearly" w (by simp [get?]) (by decide)
    (by cases a <;> first | rfl | exact absurd ha (by decide)) (by cases a <;> decide)]

/-- **C118 is violated**: the parameter `_accum` ("Accumulation to use if not in `_alt` mode") takes nothing of the library but
`smacc`: every other class is called with a keyword (`_pearly`) which it does not know. -/
theorem C118_accum (E : Env V) (c : Cls) (hc : c ∈ Spec.directional) (a : Cls) (ha : a ∉ Spec.knowsPearly)
    (kw : Dict String PyVal) (hn : (keys kw).Nodup) (hk : get? kw "_accum" = some (.cls a.row.name))
    (halt : ∀ w, get? kw "_alt" = some w → w.truthy = false) (x : List (Line V)) :
    call E c kw x = .error (.py .typeError) := by
  have hdir : ∀ c ∈ Spec.directional, get? c.hooks.flatten "_alt" = none ∧ get? c.hooks.flatten "_accum" = none ∧
      (get? c.defaults "_accum").isSome = true ∧ (get? c.defaults "_pearly").isSome = true ∧
      c ≠ .ewma ∧ c ≠ .minmaxindex := by
    intro c hc
    simp only [Spec.directional, List.mem_cons, List.not_mem_nil, or_false] at hc
    rcases hc with rfl | rfl | rfl | rfl | rfl | rfl | rfl | rfl | rfl <;> exact ⟨rfl, rfl, rfl, rfl, by decide, by decide⟩
  have hdef : get? c.defaults "_alt" = some (.bool false) := by
    simp only [Spec.directional, List.mem_cons, List.not_mem_nil, or_false] at hc
    rcases hc with rfl | rfl | rfl | rfl | rfl | rfl | rfl | rfl | rfl <;> rfl
  obtain ⟨h1, h2, h3, h4, h5, h6⟩ := hdir c hc
  unfold call
  cases hres : resolve E.talib c kw with
  | error e =>
    have : e = .py .typeError := by
      unfold resolve initCheck at hres
      dsimp only at hres
      split at hres
      · cases hres
      · cases hres; rfl
    subst this
    rfl
  | ok s =>
    have e1 : get? s.params "_accum" = some (.cls a.row.name) := by
      rw [resolve_params hn hres, if_pos h3]
      simp [eff, hk]
    have e2 : ∃ w, get? s.params "_alt" = some w ∧ w.truthy = false := by
      rw [resolve_params hn hres, hdef]
      simp only [eff, h1]
      cases hg : get? kw "_alt" with
      | none => exact ⟨.bool false, by simp, rfl⟩
      | some w => exact ⟨w, by simp, halt w hg⟩
    have e3 : ∃ w, get? s.params "_pearly" = some w := by
      rw [resolve_params hn hres, if_pos h4]
      obtain ⟨d, hd⟩ := Option.isSome_iff_exists.1 h4
      rw [hd]
      cases eff E.talib c.hooks kw "_pearly" with
      | none => exact ⟨d, rfl⟩
      | some w => exact ⟨w, rfl⟩
    obtain ⟨w2, e2, ht⟩ := e2
    obtain ⟨w3, e3⟩ := e3
    have hsm : smoother E (get? s.params) = .error (.py .typeError) := by
      have := pearly_refused E.talib a ha E w3
      simp only [smoother, truth, need, e1, e2, e3, ht, bind, Except.bind, pure, Except.pure]
      exact this
    simp only [Spec.directional, List.mem_cons, List.not_mem_nil, or_false] at hc
    rcases hc with rfl | rfl | rfl | rfl | rfl | rfl | rfl | rfl | rfl <;>
      simp only [bind, Except.bind, build, hsm]

example (x : List (Line Q)) : call E0 .adx [("_accum", .cls "sma")] x = .error (.py .typeError) :=
  C118_accum E0 .adx (by decide) .sma (by decide) _ (by decide) rfl (by intro w h; cases h) x

/-! ### The other parameters have an effect -/

/-- For a class, other keywords, a parameter, two values for it and data. -/
def effects : List (Cls × Dict String PyVal × String × PyVal × PyVal × List (Line Q)) :=
  [(.avgprice, [], "divisor", .num 4, .num 1, bars),
   (.typprice, [], "divisor", .num 3, .num 1, bars),
   (.wclprice, [], "weight", .num 2, .num 1, bars),
   (.wclprice, [], "divisor", .num 4, .num 1, bars),
   (.medprice, [], "divisor", .num 2, .num 1, bars),
   (.«max», [], "period", .int 3, .int 4, bars),
   (.«min», [], "period", .int 3, .int 4, bars),
   (.minmax, [], "period", .int 3, .int 4, bars),
   (.maxindex, [], "period", .int 3, .int 4, bars),
   (.maxindex, [("period", .int 3)], "_absidx", .bool false, .bool true, bars),
   (.minindex, [], "period", .int 3, .int 4, bars),
   (.minindex, [("period", .int 3)], "_absidx", .bool false, .bool true, bars),
   (.minmaxindex, [], "period", .int 3, .int 4, bars),
   (.minmaxindex, [("period", .int 3)], "_absidx", .bool false, .bool true, bars),
   (.«sum», [], "period", .int 3, .int 4, bars),
   (.sin, [], "degrees", .bool false, .bool true, bars),
   (.cos, [], "degrees", .bool false, .bool true, bars),
   (.tan, [], "degrees", .bool false, .bool true, bars),
   (.sinh, [], "degrees", .bool false, .bool true, bars),
   (.cosh, [], "degrees", .bool false, .bool true, bars),
   (.tanh, [], "degrees", .bool false, .bool true, bars),
   (.asin, [], "degrees", .bool false, .bool true, bars),
   (.acos, [], "degrees", .bool false, .bool true, bars),
   (.atan, [], "degrees", .bool false, .bool true, bars),
   (.crossup, [], "_strict", .bool false, .bool true, touch),
   (.crossdown, [], "_strict", .bool false, .bool true, touch),
   (.ewma, [], "period", .int 3, .int 4, bars),
   (.ewma, [("period", .int 3)], "adjust", .bool false, .bool true, bars),
   (.sma, [], "period", .int 3, .int 4, bars),
   (.ema, [], "period", .int 3, .int 4, bars),
   (.ema, [("period", .int 3)], "_seed", .int 0, .int 1, bars),
   (.smma, [], "period", .int 3, .int 4, bars),
   (.smma, [("period", .int 3)], "_seed", .int 0, .int 1, bars),
   (.wma, [], "period", .int 3, .int 4, bars),
   (.dema, [], "period", .int 3, .int 4, bars),
   (.dema, [("period", .int 3)], "_ma", .cls "ema", .cls "sma", bars),
   (.kama, [], "period", .int 3, .int 4, bars),
   (.kama, [("period", .int 3)], "fast", .int 2, .int 5, bars),
   (.kama, [("period", .int 3)], "slow", .int 30, .int 5, bars),
   (.kama, [("period", .int 3)], "_seed", .int 0, .int 1, bars),
   (.kama, [("period", .int 3)], "_pvol", .int 1, .int 2, bars),
   (.tema, [], "period", .int 3, .int 4, bars),
   (.tema, [("period", .int 3)], "_ma", .cls "ema", .cls "sma", bars),
   (.trima, [], "period", .int 3, .int 4, bars),
   (.trix, [], "period", .int 3, .int 4, bars),
   (.trix, [("period", .int 3)], "_ma", .cls "ema", .cls "sma", bars),
   (.gdema, [], "period", .int 3, .int 4, bars),
   (.gdema, [("period", .int 3)], "vfactor", .num (7 / 10), .num 1, bars),
   (.gdema, [("period", .int 3)], "_ma", .cls "ema", .cls "sma", bars),
   (.t3, [], "period", .int 2, .int 3, bars),
   (.t3, [("period", .int 2)], "vfactor", .num (7 / 10), .num 1, bars),
   (.t3, [("period", .int 2), ("_gd", .bool true)], "_ma", .cls "ema", .cls "sma", bars),
   (.t3, [("period", .int 2)], "_gd", .bool false, .bool true, bars),
   (.mama, [], "fastlimit", .num (1 / 2), .num (1 / 4), flat),
   (.mama, [], "slowlimit", .num (1 / 20), .num (3 / 4), flat),
   (.midprice, [], "period", .int 3, .int 4, bars),
   (.midpoint, [], "period", .int 3, .int 4, bars),
   (.beta, [], "period", .int 3, .int 4, bars),
   (.beta, [("period", .int 3)], "_prets", .int 1, .int 2, bars),
   (.beta, [("period", .int 3)], "_rets", .bool true, .bool false, bars),
   (.correl, [], "period", .int 3, .int 4, bars),
   (.linearreg_slope, [], "period", .int 3, .int 4, bars),
   (.linearreg_angle, [], "period", .int 3, .int 4, bars),
   (.linearreg_intercept, [], "period", .int 3, .int 4, bars),
   (.linearreg, [], "period", .int 3, .int 4, bars),
   (.tsf, [], "period", .int 3, .int 4, bars),
   (.mad, [], "period", .int 3, .int 4, bars),
   (.stddev, [], "period", .int 3, .int 4, bars),
   (.stddev, [("period", .int 3)], "ddof", .int 0, .int 1, bars),
   (.stddev_s, [], "period", .int 3, .int 4, bars),
   (.stddev_s, [("period", .int 3)], "ddof", .int 1, .int 2, bars),
   (.var, [], "period", .int 3, .int 4, bars),
   (.var, [("period", .int 3)], "ddof", .int 0, .int 1, bars),
   (.var_s, [], "period", .int 3, .int 4, bars),
   (.var_s, [("period", .int 3)], "ddof", .int 1, .int 2, bars),
   (.bbands, [], "period", .int 3, .int 4, bars),
   (.bbands, [("period", .int 3)], "devs", .num 2, .num 1, bars),
   (.bbands, [("period", .int 3)], "_ma", .cls "sma", .cls "ema", bars),
   (.truelow, [], "_period", .int 1, .int 2, bars),
   (.truerange, [], "_period", .int 1, .int 2, bars),
   (.atr, [("period", .int 3)], "_period", .int 1, .int 2, bars),
   (.atr, [], "period", .int 3, .int 4, bars),
   (.atr, [("period", .int 3)], "_ma", .cls "smma", .cls "ema", bars),
   (.natr, [("period", .int 3)], "_period", .int 1, .int 2, bars),
   (.natr, [], "period", .int 3, .int 4, bars),
   (.natr, [("period", .int 3)], "_ma", .cls "smma", .cls "ema", bars),
   (.aroon, [], "period", .int 3, .int 4, bars),
   (.aroonosc, [], "period", .int 3, .int 4, bars),
   (.cci, [], "period", .int 3, .int 4, bars),
   (.cci, [("period", .int 3)], "factor", .num (3 / 200), .num 1, bars),
   (.cci, [("period", .int 3)], "_ma", .cls "sma", .cls "ema", bars),
   (.cmo, [], "period", .int 3, .int 4, bars),
   (.cmo, [("period", .int 3)], "_sum", .cls "sum", .cls "ema", bars),
   (.smacc, [], "period", .int 3, .int 4, bars),
   (.smacc, [("period", .int 3)], "_pearly", .bool false, .bool true, bars),
   (.smacc, [("period", .int 3)], "_seed", .int 0, .int 1, bars),
   (.plus_dm, [], "period", .int 3, .int 4, bars),
   (.plus_dm, [("period", .int 3)], "_period", .int 1, .int 2, bars),
   (.plus_dm, [("period", .int 3)], "_pearly", .bool false, .bool true, bars),
   (.plus_dm, [("period", .int 3)], "_alt", .bool false, .bool true, bars),
   (.plus_dm, [("period", .int 3), ("_alt", .bool true)], "_ma", .cls "smma", .cls "ema", bars),
   (.minus_dm, [], "period", .int 3, .int 4, bars),
   (.minus_dm, [("period", .int 3)], "_period", .int 1, .int 2, bars),
   (.minus_dm, [("period", .int 3)], "_pearly", .bool false, .bool true, bars),
   (.minus_dm, [("period", .int 3)], "_alt", .bool false, .bool true, bars),
   (.minus_dm, [("period", .int 3), ("_alt", .bool true)], "_ma", .cls "smma", .cls "ema", bars),
   (.dm, [], "period", .int 3, .int 4, bars),
   (.dm, [("period", .int 3)], "_period", .int 1, .int 2, bars),
   (.dm, [("period", .int 3)], "_pearly", .bool false, .bool true, bars),
   (.dm, [("period", .int 3)], "_alt", .bool false, .bool true, bars),
   (.dm, [("period", .int 3), ("_alt", .bool true)], "_ma", .cls "smma", .cls "ema", bars),
   (.plus_di, [], "period", .int 3, .int 4, bars),
   (.plus_di, [("period", .int 3)], "_period", .int 1, .int 2, bars),
   (.plus_di, [("period", .int 3)], "_pearly", .bool false, .bool true, bars),
   (.plus_di, [("period", .int 3), ("_pearly", .bool true)], "_alt", .bool false, .bool true, bars),
   (.plus_di, [("period", .int 3), ("_alt", .bool true)], "_ma", .cls "smma", .cls "ema", bars),
   (.minus_di, [], "period", .int 3, .int 4, bars),
   (.minus_di, [("period", .int 3)], "_period", .int 1, .int 2, bars),
   (.minus_di, [("period", .int 3)], "_pearly", .bool false, .bool true, bars),
   (.minus_di, [("period", .int 3), ("_pearly", .bool true)], "_alt", .bool false, .bool true, bars),
   (.minus_di, [("period", .int 3), ("_alt", .bool true)], "_ma", .cls "smma", .cls "ema", bars),
   (.di, [], "period", .int 3, .int 4, bars),
   (.di, [("period", .int 3)], "_period", .int 1, .int 2, bars),
   (.di, [("period", .int 3)], "_pearly", .bool false, .bool true, bars),
   (.di, [("period", .int 3), ("_pearly", .bool true)], "_alt", .bool false, .bool true, bars),
   (.di, [("period", .int 3), ("_alt", .bool true)], "_ma", .cls "smma", .cls "ema", bars),
   (.dx, [], "period", .int 3, .int 4, bars),
   (.dx, [("period", .int 3)], "_period", .int 1, .int 2, bars),
   (.dx, [("period", .int 3)], "_pearly", .bool false, .bool true, bars),
   (.dx, [("period", .int 3), ("_pearly", .bool true)], "_alt", .bool false, .bool true, bars),
   (.dx, [("period", .int 3), ("_alt", .bool true)], "_ma", .cls "smma", .cls "ema", bars),
   (.adx, [], "period", .int 3, .int 4, bars),
   (.adx, [("period", .int 3)], "_period", .int 1, .int 2, bars),
   (.adx, [("period", .int 3)], "_pearly", .bool false, .bool true, bars),
   (.adx, [("period", .int 3), ("_pearly", .bool true)], "_alt", .bool false, .bool true, bars),
   (.adx, [("period", .int 3)], "_ma", .cls "smma", .cls "ema", bars),
   (.adxr, [], "period", .int 3, .int 4, bars),
   (.adxr, [("period", .int 3)], "_period", .int 1, .int 2, bars),
   (.adxr, [("period", .int 3)], "_pearly", .bool false, .bool true, bars),
   (.adxr, [("period", .int 3), ("_pearly", .bool true)], "_alt", .bool false, .bool true, bars),
   (.adxr, [("period", .int 3)], "_ma", .cls "smma", .cls "ema", bars),
   (.adxr, [("period", .int 3)], "_prating", .none, .int 1, bars),
   (.macd, [("pslow", .int 3), ("psignal", .int 2)], "pfast", .int 2, .int 3, bars),
   (.macd, [("pfast", .int 2), ("psignal", .int 2)], "pslow", .int 3, .int 4, bars),
   (.macd, [("pfast", .int 2), ("pslow", .int 3)], "psignal", .int 2, .int 3, bars),
   (.macd, [("pfast", .int 2), ("pslow", .int 3), ("psignal", .int 2)], "_ma", .cls "ema", .cls "sma", bars),
   (.macd, [("pfast", .int 2), ("pslow", .int 3), ("psignal", .int 2)], "_masig", .none, .cls "sma", bars),
   (.mfi, [], "period", .int 3, .int 4, bars),
   (.mom, [], "period", .int 3, .int 4, bars),
   (.apo, [("pslow", .int 3)], "pfast", .int 2, .int 3, bars),
   (.apo, [("pfast", .int 2)], "pslow", .int 3, .int 4, bars),
   (.apo, [("pfast", .int 2), ("pslow", .int 3)], "_ma", .cls "ema", .cls "sma", bars),
   (.ppo, [("pslow", .int 3), ("psignal", .int 2)], "pfast", .int 2, .int 3, bars),
   (.ppo, [("pfast", .int 2), ("psignal", .int 2)], "pslow", .int 3, .int 4, bars),
   (.ppo, [("pfast", .int 2), ("pslow", .int 3), ("psignal", .int 2)], "_ma", .cls "ema", .cls "sma", bars),
   (.ppo, [("pfast", .int 2), ("pslow", .int 3)], "psignal", .int 2, .int 3, bars),
   (.ppo, [("pfast", .int 2), ("pslow", .int 3), ("psignal", .int 2)], "_masig", .none, .cls "sma", bars),
   (.ppofast, [("pslow", .int 3), ("psignal", .int 2)], "pfast", .int 2, .int 3, bars),
   (.ppofast, [("pfast", .int 2), ("psignal", .int 2)], "pslow", .int 3, .int 4, bars),
   (.ppofast, [("pfast", .int 2), ("pslow", .int 3), ("psignal", .int 2)], "_ma", .cls "ema", .cls "sma", bars),
   (.ppofast, [("pfast", .int 2), ("pslow", .int 3)], "psignal", .int 2, .int 3, bars),
   (.ppofast, [("pfast", .int 2), ("pslow", .int 3), ("psignal", .int 2)], "_masig", .none, .cls "sma", bars),
   (.roc, [], "period", .int 3, .int 4, bars),
   (.rocp, [], "period", .int 3, .int 4, bars),
   (.rocr, [], "period", .int 3, .int 4, bars),
   (.rocr100, [], "period", .int 3, .int 4, bars),
   (.rsi, [], "period", .int 3, .int 4, bars),
   (.rsi, [("period", .int 3)], "lookback", .int 1, .int 2, bars),
   (.rsi, [("period", .int 3)], "_ma", .cls "smma", .cls "ema", bars),
   (.sar, [], "af", .num (1 / 50), .num (1 / 10), swing),
   (.sar, [("af", .num (1 / 5))], "afmax", .num (1 / 5), .num 1, swing),
   (.sarext, [], "startval", .int 0, .num 2, swing),
   (.sarext, [], "aflong", .num (1 / 50), .num (1 / 10), swing),
   (.sarext, [("aflong", .num (1 / 5))], "afmaxlong", .num (1 / 5), .num 1, swing),
   (.sarext, [], "afshort", .num (1 / 50), .num (1 / 10), swing),
   (.sarext, [("afshort", .num (1 / 5))], "afmaxshort", .num (1 / 5), .num 1, swing),
   (.sarext, [], "offsetonreverse", .num 0, .num (1 / 10), swing),
   (.stochf, [("pfast", .int 2)], "period", .int 3, .int 4, bars),
   (.stochf, [("period", .int 3)], "pfast", .int 2, .int 3, bars),
   (.stochf, [("period", .int 3), ("pfast", .int 2)], "_ma", .cls "sma", .cls "ema", bars),
   (.stochastic, [("pfast", .int 2), ("pslow", .int 3)], "period", .int 3, .int 4, bars),
   (.stochastic, [("period", .int 3), ("pslow", .int 3)], "pfast", .int 2, .int 3, bars),
   (.stochastic, [("period", .int 3), ("pfast", .int 2), ("pslow", .int 3)], "_ma", .cls "sma", .cls "ema", bars),
   (.stochastic, [("period", .int 3), ("pfast", .int 2)], "pslow", .int 3, .int 4, bars),
   (.stochastic, [("period", .int 3), ("pfast", .int 2), ("pslow", .int 3)], "_maslow", .none, .cls "ema", bars),
   (.stochrsi, [], "period", .int 3, .int 4, bars),
   (.stochrsi, [("period", .int 3)], "_philo", .none, .int 2, bars),
   (.stochrsi, [("period", .int 3)], "_scale", .num 1, .num 2, bars),
   (.williamsr, [], "period", .int 3, .int 4, bars),
   (.ultimateoscillator, [("period2", .int 3), ("period3", .int 4)], "period1", .int 2, .int 3, bars),
   (.ultimateoscillator, [("period1", .int 2), ("period3", .int 4)], "period2", .int 3, .int 4, bars),
   (.ultimateoscillator, [("period1", .int 2), ("period2", .int 3)], "period3", .int 4, .int 5, bars),
   (.ultimateoscillator, [("period1", .int 2), ("period2", .int 3), ("period3", .int 4)], "factor1", .num 4, .num 1, bars),
   (.ultimateoscillator, [("period1", .int 2), ("period2", .int 3), ("period3", .int 4)], "factor2", .num 2, .num 1, bars),
   (.ultimateoscillator, [("period1", .int 2), ("period2", .int 3), ("period3", .int 4)], "factor3", .num 1, .num 2, bars),
   (.adosc, [("pslow", .int 3)], "pfast", .int 2, .int 3, bars),
   (.adosc, [("pfast", .int 2)], "pslow", .int 3, .int 4, bars),
   (.adosc, [("pfast", .int 2), ("pslow", .int 3)], "_ma", .cls "ema", .cls "sma", bars),
   (.obv, [], "_period", .int 1, .int 2, bars)]

/-- the two calls both give results, which are different -/
def differs (t : Cls × Dict String PyVal × String × PyVal × PyVal × List (Line Q)) : Bool :=
  match call E0 t.1 (set t.2.1 t.2.2.1 t.2.2.2.1) t.2.2.2.2.2, call E0 t.1 (set t.2.1 t.2.2.1 t.2.2.2.2.1) t.2.2.2.2.2 with
  | .ok a, .ok b => decide (a ≠ b)
  | _, _ => false

set_option maxRecDepth 100000 in
theorem effects_differ : ∀ t ∈ effects, differs t = true := by decide +kernel

/-- classes which never give a result (C62, C26) or whose periods are not modelled as python values, and the bases -/
def _root_.Spec.noResult : List Cls :=
  [.mavp, .truehigh, .crossover, ._mathrad, ._crossbase, ._linreg_base, ._aroon, ._dm, ._di, ._posc, ._rocbase]

theorem effects_cover : ∀ c ∈ Cls.all, c ∉ Spec.noResult → ∀ p ∈ keys c.defaults, (c, p) ∉ Spec.unread → p ≠ "_accum" →
    ∃ t ∈ effects, t.1 = c ∧ t.2.2.1 = p := by decide +kernel

/-- **C118**, what holds: every other declared parameter of every other class has an effect: there are data, further keywords
and two values for it such that both calls give results, and different ones. -/
theorem C118_effect_partial (c : Cls) (hc : c ∉ Spec.noResult) (p : String) (hp : (get? c.defaults p).isSome = true)
    (hu : (c, p) ∉ Spec.unread) (ha : p ≠ "_accum") :
    ∃ (kw : Dict String PyVal) (v w : PyVal) (x : List (Line Q)) (a b : List (Line Q)),
      call E0 c (set kw p v) x = .ok a ∧ call E0 c (set kw p w) x = .ok b ∧ a ≠ b := by
  obtain ⟨t, ht, rfl, rfl⟩ := effects_cover c (all_mem c) hc p (mem_keys_iff.2 hp) hu ha
  have hd := effects_differ t ht
  unfold differs at hd
  refine ⟨t.2.1, t.2.2.2.1, t.2.2.2.2.1, t.2.2.2.2.2, ?_⟩
  split at hd
  · rename_i a b h1 h2
    exact ⟨a, b, h1, h2, by simpa using hd⟩
  · cases hd

example : ∃ (kw : Dict String PyVal) (v w : PyVal) (x : List (Line Q)) (a b : List (Line Q)),
    call E0 .adxr (set kw "_prating" v) x = .ok a ∧ call E0 .adxr (set kw "_prating" w) x = .ok b ∧ a ≠ b :=
  C118_effect_partial .adxr (by decide) "_prating" rfl (by decide) (by decide)

/-- The functions of angles and their numpy functions. -/
def _root_.Spec.angles : List (Cls × String) :=
  [(.sin, "sin"), (.cos, "cos"), (.tan, "tan"), (.sinh, "sinh"), (.cosh, "cosh"), (.tanh, "tanh"), (.asin, "arcsin"),
   (.acos, "arccos"), (.atan, "arctan")]

/-- `degrees=True` converts before the function is applied, also for the inverse functions, whose result (and not their
argument) is an angle. -/
theorem C118_degrees (E : Env V) (c : Cls) (f : String) (hc : (c, f) ∈ Spec.angles) (x : List (Line V)) :
    call E c [("degrees", .bool true)] x = lift ((Bta.Call.mathFn (fun a => E.fn f (E.radians a))).run (nth x)) := by
  obtain ⟨fn, radians, deg, ht, scipy, talib⟩ := E
  simp only [Spec.angles, List.mem_cons, Prod.mk.injEq, List.not_mem_nil, or_false] at hc
  rcases hc with ⟨rfl, rfl⟩ | ⟨rfl, rfl⟩ | ⟨rfl, rfl⟩ | ⟨rfl, rfl⟩ | ⟨rfl, rfl⟩ | ⟨rfl, rfl⟩ | ⟨rfl, rfl⟩ | ⟨rfl, rfl⟩ |
    ⟨rfl, rfl⟩ <;> cases talib <;> rfl

example : (Cls.asin, "arcsin") ∈ Spec.angles := by decide

end Bta.Api
