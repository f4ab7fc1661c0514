import Verif.Meta.Errors
import Verif.Props.ApiArgs
import Verif.Lemmas.Ht

/-!
# C129: which exceptions a call raises, and why
-/

set_option linter.unusedSectionVars false

namespace Bta

open Meta Line

variable {V : Type} [PyFloat V]

/-! ## Which exceptions calculations raise -/

/-- exceptions which are not about inputs, lookups or the depth of calls -/
def Err.Plain : Err → Prop
  | .indexError | .valueError | .overflowError | .typeError | .attributeError => True
  | _ => False

/-- a calculation which raises plain exceptions only -/
structure Pl {α : Type} (x : Except Err α) : Prop where
  out : ∀ e, x = .error e → e.Plain

theorem Pl.ok {α : Type} (a : α) : Pl (.ok a : Except Err α) := ⟨by intro e h; cases h⟩
theorem Pl.pure {α : Type} (a : α) : Pl (Pure.pure a : Except Err α) := ⟨by intro e h; cases h⟩
theorem Pl.err {α : Type} {e : Err} (h : e.Plain) : Pl (.error e : Except Err α) :=
  ⟨by intro e' h'; cases h'; exact h⟩
theorem Pl.bind {α β : Type} {x : Except Err α} {f : α → Except Err β} (hx : Pl x) (hf : ∀ a, Pl (f a)) : Pl (x >>= f) := by
  cases x with
  | error e => exact Pl.err (hx.out _ rfl)
  | ok a => exact hf a
theorem Pl.ite {α : Type} {p : Prop} [Decidable p] {x y : Except Err α} (hx : Pl x) (hy : Pl y) : Pl (if p then x else y) := by
  split <;> assumption

/-- each step of a calculation -/
macro "pl" : tactic => `(tactic| (repeat' first
  | assumption
  | exact Pl.ok _
  | exact Pl.pure _
  | exact Pl.err trivial
  | (with_reducible apply Pl.bind)
  | (with_reducible apply Pl.ite)
  | intro _
  | split))

theorem pl_prefix (a : Line V) (s : Seed) (p1 pidx p2 : Int) : Pl (ewmPrefix a s p1 pidx p2) := by
  unfold ewmPrefix; dsimp only; cases s <;> pl

theorem pl_new (c : EwmCfg) (a : Line V) : Pl (ewmNew c a) := by
  unfold ewmNew
  have := pl_prefix a c.seed (c.p2 a.minperiod - c.pval) (c.p2 a.minperiod - 1) (c.p2 a.minperiod)
  cases h : ewmPrefix a c.seed (c.p2 a.minperiod - c.pval) (c.p2 a.minperiod - 1) (c.p2 a.minperiod) with
  | error e => simp only [h]; exact Pl.err (this.out _ h)
  | ok o => simp only [h]; exact Pl.ok _

theorem pl_call {c : EwmCfg} {a : Line V} {o : EwmObj V} {op : List V → Except Err (List V)} (ho : ∀ t, Pl (op t)) :
    Pl (ewmCall c a o op) := by
  unfold ewmCall
  have := ho o.trailer
  cases h : op o.trailer with
  | error e => exact Pl.err (this.out _ h)
  | ok r => exact Pl.ite (Pl.ok _) (Pl.err trivial)

theorem pl_mean (c : EwmCfg) (al : V) (a : Line V) : Pl (ewmMean c al a) := by
  unfold ewmMean
  have := pl_new c a
  cases h : ewmNew c a with
  | error e => exact Pl.err (this.out _ h)
  | ok o => exact pl_call fun _ => Pl.ok _

theorem pl_filter (s : Bool) (al : V) (b : Option V) (t : List V) : Pl (lfilter s al b t) := by
  unfold lfilter spLfilter smAcc
  pl

theorem pl_lfilter (s : Bool) (c : EwmCfg) (al : V) (b : Option V) (a : Line V) : Pl (ewmLfilter s c al b a) := by
  unfold ewmLfilter
  have := pl_new c a
  cases h : ewmNew c a with
  | error e => exact Pl.err (this.out _ h)
  | ok o => exact pl_call fun _ => pl_filter _ _ _ _

theorem pl_dynGo (als : List V) : ∀ (prev : V) (vs : List V), Pl (dynGo prev vs als) := by
  induction als with
  | nil => intro prev vs; cases vs <;> exact Pl.ok _
  | cons al als ih =>
    intro prev vs
    cases vs with
    | nil => exact Pl.err trivial
    | cons v vs =>
      unfold dynGo
      have := ih (prev + al * (v - prev)) vs
      cases h : dynGo (prev + al * (v - prev)) vs als with
      | error e => simp only [h]; exact Pl.err (this.out _ h)
      | ok r => simp only [h]; exact Pl.ok _

theorem pl_dynAlpha (als vs : List V) : Pl (dynAlpha als vs) := by
  cases vs with
  | nil => exact Pl.err trivial
  | cons v vs =>
    unfold dynAlpha
    have := pl_dynGo als v vs
    cases h : dynGo v vs als with
    | error e => simp only [h]; exact Pl.err (this.out _ h)
    | ok r => simp only [h]; exact Pl.ok _

theorem pl_dyn (c : EwmCfg) (al a : Line V) : Pl (ewmDyn c al a) := by
  unfold ewmDyn
  have := pl_new { c with alphaP := al.minperiod } a
  cases h : ewmNew { c with alphaP := al.minperiod } a with
  | error e => simp only [h]; exact Pl.err (this.out _ h)
  | ok o => simp only [h]; exact pl_call fun _ => pl_dynAlpha _ _

open Ind

theorem pl_sar {f : List (V × V) → Except Err (List V)} (hf : ∀ t, Pl (f t)) (h l : Line V) : Pl (applySar f h l) := by
  unfold applySar
  have := hf (List.zip (pyFrom h.series (max h.minperiod l.minperiod - 1)) (pyFrom l.series (max h.minperiod l.minperiod - 1)))
  cases e : f (List.zip (pyFrom h.series (max h.minperiod l.minperiod - 1))
      (pyFrom l.series (max h.minperiod l.minperiod - 1))) with
  | error e' => simp only [e]; exact Pl.err (this.out _ e)
  | ok r => simp only [e]; exact Pl.ok _

theorem pl_ints (F : HtFns V) (hF : ∀ x, Pl (F.int x)) (price : List V) : ∀ k i s, Pl (htInts F price k i s) := by
  intro k
  induction k with
  | zero => intro i s; exact Pl.ok _
  | succ k ih =>
    intro i s
    unfold htInts
    have := hF ((htStep F price i s).smooth + PyFloat.lit (1 / 2))
    cases h : F.int ((htStep F price i s).smooth + PyFloat.lit (1 / 2)) with
    | error e => exact Pl.err (this.out _ h)
    | ok r => exact ih _ _

theorem pl_avg (A : Avg V) : ∀ p a, Pl (A.run p a) := by
  induction A with
  | sma => intro p a; exact Pl.ok _
  | ema s o => intro p a; exact pl_mean _ _ _
  | smma s => intro p a; exact pl_mean _ _ _
  | ewma s => intro p a; exact Pl.ok _
  | wma => intro p a; exact Pl.ok _
  | sumN => intro p a; exact Pl.ok _
  | trima => intro p a; show Pl (Ind.trima p a); unfold Ind.trima; pl
  | dema A ih => intro p a; show Pl (Ind.dema A.run p a); unfold Ind.dema; pl <;> apply ih
  | tema A ih => intro p a; show Pl (Ind.tema A.run p a); unfold Ind.tema; pl <;> apply ih
  | trix A ih => intro p a; show Pl (Ind.trix A.run p a); unfold Ind.trix; pl <;> apply ih
  | gdema A v ih => intro p a; show Pl (Ind.gdema A.run v p a); unfold Ind.gdema; pl <;> apply ih
  | t3 v => intro p a; show Pl (Ind.t3 v p a); unfold Ind.t3; pl <;> exact pl_mean _ _ _
  | t3gd A v ih => intro p a; show Pl (Ind.t3gd A.run v p a); unfold Ind.t3gd Ind.gdema; pl <;> apply ih
  | kama f s pv sd => intro p a; exact pl_dyn _ _ _
  | smacc sp pe sd => intro p a; exact pl_lfilter _ _ _ _ _

/-- the functions of the Hilbert family which count bars raise plain exceptions -/
def Call.IntsPlain : Call V → Prop
  | .htDcphase F | .htSine F | .htTrendline F | .htTrendmode F => ∀ x, Pl (F.int x)
  | _ => True

/-- the averages, smoothers and their callers -/
macro "plr" : tactic => `(tactic| (repeat' first
  | assumption
  | exact Pl.ok _
  | exact Pl.pure _
  | exact Pl.err trivial
  | exact pl_avg _ _ _
  | exact pl_dyn _ _ _
  | exact pl_mean _ _ _
  | (with_reducible apply Pl.bind)
  | (with_reducible apply Pl.ite)
  | intro _
  | split))

theorem pl_trp (A : Avg V) (ps q : ℕ) (t : Bool) (h l c : Line V) : Pl (diTrp (A.run ps) q t h l c) := by
  unfold diTrp; plr

theorem pl_pdi (A : Avg V) (ps q : ℕ) (t : Bool) (h l c : Line V) : Pl (plusDi (A.run ps) q t h l c) := by
  unfold plusDi plusDm; plr; exact pl_trp _ _ _ _ _ _ _

theorem pl_mdi (A : Avg V) (ps q : ℕ) (t : Bool) (h l c : Line V) : Pl (minusDi (A.run ps) q t h l c) := by
  unfold minusDi minusDm; plr; exact pl_trp _ _ _ _ _ _ _

theorem pl_di (A : Avg V) (ps q : ℕ) (t : Bool) (h l c : Line V) : Pl (di (A.run ps) q t h l c) := by
  unfold di
  exact (pl_pdi _ _ _ _ _ _ _).bind fun _ => (pl_mdi _ _ _ _ _ _ _).bind fun _ => Pl.pure _

theorem pl_dx (A : Avg V) (ps q : ℕ) (t : Bool) (h l c : Line V) : Pl (dx (A.run ps) q t h l c) := by
  unfold dx
  exact (pl_pdi _ _ _ _ _ _ _).bind fun _ => (pl_mdi _ _ _ _ _ _ _).bind fun _ => Pl.pure _

theorem pl_adx (A B : Avg V) (ps q : ℕ) (t : Bool) (p : ℕ) (h l c : Line V) : Pl (adx (A.run ps) B.run q t p h l c) := by
  unfold adx; plr; exact pl_dx _ _ _ _ _ _ _

theorem pl_rsi (A : Avg V) (lb p : ℕ) (a : Line V) : Pl (Ind.rsi A.run lb p a) := by
  unfold Ind.rsi; plr

theorem pl_one {x : Except Err (Line V)} (h : Pl x) : Pl (oneE x) := h.bind fun _ => Pl.pure _
theorem pl_two {x : Except Err (Line V × Line V)} (h : Pl x) : Pl (twoE x) := h.bind fun _ => Pl.pure _
theorem pl_three {x : Except Err (Line V × Line V × Line V)} (h : Pl x) : Pl (threeE x) := h.bind fun _ => Pl.pure _

theorem pl_run (r : Call V) (hr : r.IntsPlain) (x : ℕ → Line V) : Pl (r.run x) := by
  cases r
  all_goals simp only [Call.run, one]
  all_goals with_reducible first
    | exact Pl.ok _
    | skip
  case avg => exact pl_one (pl_avg _ _ _)
  case atr => exact pl_one (pl_avg _ _ _)
  case plusDm => exact pl_one (pl_avg _ _ _)
  case minusDm => exact pl_one (pl_avg _ _ _)
  case crossover => exact pl_one (Pl.err trivial)
  case htDcphase | htSine | htTrendline | htTrendmode => exact (pl_ints _ hr _ _ _ _).bind fun _ => Pl.ok _
  case plusDi => exact pl_one (pl_pdi _ _ _ _ _ _ _)
  case minusDi => exact pl_one (pl_mdi _ _ _ _ _ _ _)
  case di => exact pl_two (pl_di _ _ _ _ _ _ _)
  case dx => exact pl_one (pl_dx _ _ _ _ _ _ _)
  case adx => exact pl_one (pl_adx _ _ _ _ _ _ _ _ _)
  case rsi => exact pl_one (pl_rsi _ _ _ _)
  case macd => apply pl_three; unfold Ind.macd; plr
  case apo => apply pl_one; unfold Ind.apo Ind.posc; plr
  case ppo => apply pl_three; unfold Ind.ppo Ind.posc; plr
  case cmo => apply pl_one; unfold Ind.cmo; plr
  case cci => apply pl_one; unfold Ind.cci; plr
  case bbands => apply pl_three; unfold Ind.bbands; plr
  case stochf => apply pl_two; unfold Ind.stochf; plr
  case stochastic => apply pl_two; unfold Ind.stochastic Ind.stochf; plr
  case stochrsi => apply pl_one; unfold Ind.stochrsi; plr; exact pl_rsi (.smma .avg) _ _ _
  case stochrsiD => apply pl_two; unfold Ind.stochrsiD Ind.stochrsi; plr; exact pl_rsi (.smma .avg) _ _ _
  case natr => apply pl_one; unfold Ind.natr Ind.atr; plr
  case adosc => apply pl_one; unfold Ind.adosc; plr
  case dm => apply pl_two; unfold Ind.dm Ind.plusDm Ind.minusDm; plr
  case adxr => apply pl_one; unfold Ind.adxr; plr; exact pl_adx _ _ _ _ _ _ _ _ _
  case sar => apply pl_one; apply pl_sar; intro t; unfold sarize; plr
  case sarext => apply pl_one; apply pl_sar; intro t; unfold sarExtize; plr
  case mama => apply pl_two; unfold Ind.mama; plr

namespace Api

open Py

/-! ## Which exceptions a call raises once its inputs are bound -/

/-- a step whose results have the property and whose exceptions are plain -/
structure Ends {α : Type} (P : α → Prop) (x : Out α) : Prop where
  err : ∀ e, x = .error (.py e) → e.Plain
  res : ∀ a, x = .ok a → P a

variable {α β : Type} {P : α → Prop} {Q : β → Prop}

theorem Ends.ok {a : α} (h : P a) : Ends P (.ok a) := ⟨by intro e h; (cases h), by intro b h'; cases h'; exact h⟩
theorem Ends.pure {a : α} (h : P a) : Ends P (Pure.pure a) := Ends.ok h
theorem Ends.out : Ends P (.error .outside) := ⟨by intro e h; (cases h), by intro b h; cases h⟩
theorem Ends.raise {e : Err} (h : e.Plain) : Ends P (.error (.py e)) :=
  ⟨by intro e' h'; cases h'; exact h, by intro b h; cases h⟩
theorem Ends.bind {x : Out α} {f : α → Out β} (hx : Ends P x) (hf : ∀ a, P a → Ends Q (f a)) : Ends Q (x >>= f) := by
  cases x with
  | ok a => exact hf a (hx.res a rfl)
  | error e => cases e with
    | outside => exact Ends.out
    | py e => exact Ends.raise (hx.err e rfl)
theorem Ends.bindT {x : Out α} {f : α → Out β} (hx : Ends (fun _ => True) x) (hf : ∀ a, Ends Q (f a)) : Ends Q (x >>= f) :=
  hx.bind fun a _ => hf a
theorem Ends.ite {p : Prop} [Decidable p] {x y : Out α} (hx : Ends P x) (hy : Ends P y) : Ends P (if p then x else y) := by
  split <;> assumption
theorem Ends.lift {x : Except Err α} (h : Pl x) : Ends (fun _ => True) (lift x) := by
  cases x with
  | ok a => exact Ends.ok trivial
  | error e => exact Ends.raise (h.out e rfl)

theorem ends_need (p : String → Option PyVal) (k : String) : Ends (fun _ => True) (need p k) := by
  unfold need; split
  · exact Ends.ok trivial
  · exact Ends.raise trivial
theorem ends_asNat (v : PyVal) : Ends (fun _ => True) (asNat v) := by
  unfold asNat; split
  · exact Ends.ok trivial
  · exact Ends.out
theorem ends_asNum (v : PyVal) : Ends (fun _ => True) (asNum v : Out V) := by
  unfold asNum; split
  · exact Ends.ok trivial
  · exact Ends.ok trivial
  · exact Ends.out
theorem ends_asBool (v : PyVal) : Ends (fun _ => True) (asBool v) := by
  unfold asBool; split
  · exact Ends.ok trivial
  · exact Ends.out
theorem ends_asSeed (v : PyVal) : Ends (fun _ => True) (asSeed v) := by
  unfold asSeed; split <;> first | exact Ends.ok trivial | exact Ends.out
theorem ends_asCls (v : PyVal) : Ends (fun _ => True) (asCls v) := by
  unfold asCls; split
  · split
    · exact Ends.ok trivial
    · exact Ends.out
  · exact Ends.out
theorem ends_nat (p : String → Option PyVal) (k : String) : Ends (fun _ => True) (nat p k) :=
  (ends_need p k).bindT fun v => ends_asNat v
theorem ends_num (p : String → Option PyVal) (k : String) : Ends (fun _ => True) (num p k : Out V) :=
  (ends_need p k).bindT fun v => ends_asNum v
theorem ends_flag (p : String → Option PyVal) (k : String) : Ends (fun _ => True) (flag p k) :=
  (ends_need p k).bindT fun v => ends_asBool v
theorem ends_seed (p : String → Option PyVal) (k : String) : Ends (fun _ => True) (seed p k) :=
  (ends_need p k).bindT fun v => ends_asSeed v
theorem ends_truth (p : String → Option PyVal) (k : String) : Ends (fun _ => True) (truth p k) :=
  (ends_need p k).bindT fun _ => Ends.pure trivial
theorem ends_either (p : String → Option PyVal) (a b : String) : Ends (fun _ => True) (either p a b) :=
  (ends_need p a).bindT fun _ => Ends.ite (Ends.pure trivial) (ends_need p b)
theorem ends_resolve (g : Bool) (c : Cls) (kw : Dict String PyVal) : Ends (fun _ => True) (resolve g c kw) := by
  unfold resolve
  refine Ends.bindT (Ends.lift ?_) fun _ => Ends.pure trivial
  unfold initCheck
  exact Pl.ite (Pl.ok _) (Pl.err trivial)

theorem ends_avg (E : Env V) (m : PyVal → Out (Avg V)) (hm : ∀ v, Ends (fun _ => True) (m v)) (s : Seen) (c : Cls) :
    Ends (fun _ => True) (buildAvg E m s c) := by
  cases c
  all_goals first
    | exact Ends.ok trivial
    | exact Ends.out
    | skip
  case ema =>
    simp only [buildAvg]
    split
    · exact Ends.bindT (Ends.ok trivial) fun _ => (ends_seed _ _).bindT fun _ => Ends.ok trivial
    · exact (ends_asNat _).bindT fun _ => (ends_seed _ _).bindT fun _ => Ends.ok trivial
  case smma => exact (ends_seed _ _).bindT fun _ => Ends.pure trivial
  case ewma => exact Ends.ite (Ends.raise trivial) (Ends.ite ((ends_flag _ _).bindT fun _ => Ends.pure trivial) Ends.out)
  case dema | tema | trix => exact (ends_need _ _).bindT fun _ => (hm _).bindT fun _ => Ends.pure trivial
  case gdema => exact (ends_need _ _).bindT fun _ => (hm _).bindT fun _ => (ends_num _ _).bindT fun _ => Ends.pure trivial
  case t3 =>
    exact (ends_truth _ _).bindT fun _ => Ends.ite
      ((ends_need _ _).bindT fun _ => (hm _).bindT fun _ => (ends_num _ _).bindT fun _ => Ends.pure trivial)
      ((ends_num _ _).bindT fun _ => Ends.pure trivial)
  case kama =>
    exact (ends_num _ _).bindT fun _ => (ends_num _ _).bindT fun _ => (ends_nat _ _).bindT fun _ => (ends_seed _ _).bindT fun _ =>
      Ends.pure trivial
  case smacc => exact (ends_flag _ _).bindT fun _ => (ends_seed _ _).bindT fun _ => Ends.pure trivial

theorem ends_avgOf (E : Env V) : ∀ n kw v, Ends (fun _ => True) (avgOf E n kw v) := by
  intro n
  induction n with
  | zero => intro kw v; exact Ends.out
  | succ n ih => exact fun kw v => (ends_asCls v).bindT fun c => (ends_resolve _ _ _).bindT fun s => ends_avg E _ (ih []) s c

theorem ends_ma (E : Env V) (v : PyVal) : Ends (fun _ => True) (ma E v) := ends_avgOf E _ _ _
theorem ends_maWith (E : Env V) (kw : Dict String PyVal) (v : PyVal) : Ends (fun _ => True) (maWith E kw v) := ends_avgOf E _ _ _
theorem ends_maOf (E : Env V) (p : String → Option PyVal) (k : String) : Ends (fun _ => True) (maOf E p k) :=
  (ends_need p k).bindT fun _ => ends_ma E _
theorem ends_smoother (E : Env V) (p : String → Option PyVal) : Ends (fun _ => True) (smoother E p) :=
  (ends_truth _ _).bindT fun _ => Ends.ite (ends_maOf E p _)
    ((ends_need _ _).bindT fun _ => (ends_need _ _).bindT fun _ => ends_avgOf E _ _ _)

/-- each step of an initialiser -/
macro "ends" : tactic => `(tactic| (repeat' first
  | with_reducible refine Ends.ok ?_
  | with_reducible refine Ends.pure ?_
  | with_reducible exact Ends.out
  | with_reducible refine Ends.raise ?_
  | with_reducible exact ends_nat _ _
  | with_reducible exact ends_num _ _
  | with_reducible exact ends_truth _ _
  | with_reducible exact ends_need _ _
  | with_reducible exact ends_either _ _ _
  | with_reducible exact ends_asNat _
  | with_reducible exact ends_maOf _ _ _
  | with_reducible exact ends_ma _ _
  | with_reducible exact ends_avgOf _ _ _ _
  | with_reducible exact ends_maWith _ _ _
  | with_reducible exact ends_smoother _ _
  | with_reducible exact ends_resolve _ _ _
  | (with_reducible apply Ends.bindT)
  | (with_reducible apply Ends.ite)
  | exact trivial
  | intro _))

theorem ends_build (E : Env V) (hE : ∀ x, Pl (E.ht.int x)) (s : Seen) (c : Cls) :
    Ends (fun r : Bta.Call V => r.IntsPlain) (build E s c) := by
  cases c
  case ht_dcphase | ht_sine | ht_trendline | ht_trendmode => exact Ends.ok hE
  case «sum» | ewma | sma | ema | smma | wma | dema | kama | tema | trima | trix | gdema | t3 | smacc =>
    exact (ends_avg E _ (ends_ma E) s _).bindT fun _ => (ends_nat _ _).bindT fun _ => Ends.pure trivial
  all_goals simp only [build, rad]
  all_goals ends

theorem ends_call (E : Env V) (hE : ∀ x, Pl (E.ht.int x)) (c : Cls) (kw : Dict String PyVal) (x : List (Line V)) :
    Ends (fun _ => True) (call E c kw x) :=
  (ends_resolve _ _ _).bindT fun s => (ends_build E hE s c).bind fun r hr => Ends.lift (pl_run r hr _)

/-! ## Which exceptions the binding of inputs raises -/

/-- the exceptions raised by the library itself -/
def isInputs (e : Err) : Bool := decide ("InputsError" ∈ excClasses e)

theorem plain_not {e : Err} (h : e.Plain) : isInputs e = false := by
  cases e <;> first | rfl | exact absurd h id

/-- what the configuration has to complain about an input -/
def miss (cfg : Config) (cols : List String) (i : String) : Option Err :=
  match get? cfg.indices i with
  | some (.str r) => if r ∉ cols ∧ (cfg.ohlcFirst = true ∨ i ∉ cols) then some (.colIdxStrNotFound i r) else none
  | _ => none

theorem configIdx_miss (cfg : Config) (cols : List String) (i : String) :
    (∃ j, configIdx cfg cols i = .ok j) ∧ (∀ r, get? cfg.indices i = some (.str r) → r ∈ cols) ∨
      ∃ r, get? cfg.indices i = some (.str r) ∧ r ∉ cols ∧ configIdx cfg cols i = .error (.colIdxStrNotFound i r) := by
  unfold configIdx
  cases h : get? cfg.indices i with
  | none => exact .inl ⟨⟨_, rfl⟩, by intro r hr; cases hr⟩
  | some v => cases v with
    | num j => exact .inl ⟨⟨_, rfl⟩, by intro r hr; cases hr⟩
    | str r =>
      by_cases hr : r ∈ cols
      · obtain ⟨k, hk⟩ := index?_isSome hr
        exact .inl ⟨⟨k, by simp only [hk]⟩, by intro r' hr'; cases hr'; exact hr⟩
      · exact .inr ⟨r, rfl, hr, by simp only [index?_none.2 hr]⟩

theorem wantedIdx_miss (cfg : Config) (cols : List String) (free : List Int) (hf : ∀ j ∈ free, 0 ≤ j) (i : String) :
    (miss cfg cols i = none ∧ ∃ j, wantedIdx cfg cols free i = .ok j) ∨
      ∃ e, miss cfg cols i = some e ∧ wantedIdx cfg cols free i = .error e := by
  have hm1 : (-1 : Int) ∉ free := fun h => absurd (hf _ h) (by decide)
  unfold wantedIdx
  by_cases ho : cfg.ohlcFirst = true
  · rw [if_pos ho]
    rcases configIdx_miss cfg cols i with ⟨⟨j, hj⟩, hr⟩ | ⟨r, h1, h2, h3⟩
    · left
      refine ⟨?_, ?_⟩
      · unfold miss
        cases h : get? cfg.indices i with
        | none => rfl
        | some v => cases v with
          | num _ => rfl
          | str r => exact if_neg fun h' => h'.1 (hr r h)
      · rw [hj]
        show ∃ k, (if j ∈ free then _ else _) = _
        by_cases hk : j ∈ free
        · exact ⟨j, if_pos hk⟩
        · rw [if_neg hk]
          cases index? cols i with
          | some k => exact ⟨_, rfl⟩
          | none => exact ⟨j, rfl⟩
    · right
      refine ⟨.colIdxStrNotFound i r, ?_, ?_⟩
      · unfold miss
        rw [h1]
        exact if_pos ⟨h2, .inl ho⟩
      · rw [h3]
        rfl
  · rw [if_neg ho]
    show _ ∨ ∃ e, _ ∧ (if (-1 : Int) ∈ free then _ else _) = _
    by_cases hi : i ∈ cols
    · left
      refine ⟨?_, ?_⟩
      · unfold miss
        cases h : get? cfg.indices i with
        | none => rfl
        | some v => cases v with
          | num _ => rfl
          | str r => exact if_neg fun h' => h'.2.elim ho fun h => h hi
      · obtain ⟨k, hk⟩ := index?_isSome hi
        exact ⟨k, by show (if (-1 : Int) ∈ free then _ else _) = _; rw [if_neg hm1, hk]⟩
    · rcases configIdx_miss cfg cols i with ⟨⟨j, hj⟩, hr⟩ | ⟨r, h1, h2, h3⟩
      · left
        refine ⟨?_, j, ?_⟩
        · unfold miss
          cases h : get? cfg.indices i with
          | none => rfl
          | some v => cases v with
            | num _ => rfl
            | str r => exact if_neg fun h' => h'.1 (hr r h)
        · show (if (-1 : Int) ∈ free then _ else _) = _
          rw [if_neg hm1, index?_none.2 hi]
          exact hj
      · right
        refine ⟨.colIdxStrNotFound i r, ?_, ?_⟩
        · unfold miss
          rw [h1]
          exact if_pos ⟨h2, .inr hi⟩
        · rw [if_neg hm1, index?_none.2 hi]
          exact h3

theorem bindLoop_miss (cfg : Config) (cols : List String) (ns : List String) : ∀ (free : List Int), (∀ j ∈ free, 0 ≤ j) →
    ns.length ≤ free.length →
    (ns.findSome? (miss cfg cols) = none ∧ ∃ r, bindLoop cfg cols ns free = .ok r) ∨
      ∃ e, ns.findSome? (miss cfg cols) = some e ∧ bindLoop cfg cols ns free = .error e := by
  induction ns with
  | nil => exact fun free _ _ => .inl ⟨rfl, _, rfl⟩
  | cons n ns ih =>
    intro free hf hl
    simp only [List.length_cons] at hl
    unfold bindLoop
    rcases wantedIdx_miss cfg cols free hf n with ⟨h1, j, h2⟩ | ⟨e, h1, h2⟩
    · obtain ⟨⟨k, free'⟩, ht⟩ := takeIdx_total (free := free) j (by omega)
      obtain ⟨_, hlen, _, hsub, _⟩ := takeIdx_ok ht
      rcases ih free' (fun x hx => hf x (hsub x hx)) (by omega) with ⟨g1, r, g2⟩ | ⟨e, g1, g2⟩
      · exact .inl ⟨by rw [List.findSome?_cons, h1]; exact g1, k :: r, by rw [h2]; simp only [bind, Except.bind, ht, g2]⟩
      · exact .inr ⟨e, by rw [List.findSome?_cons, h1]; exact g1, by rw [h2]; simp only [bind, Except.bind, ht, g2]⟩
    · exact .inr ⟨e, by rw [List.findSome?_cons, h1], by rw [h2]; rfl⟩

theorem miss_inputs {cfg : Config} {cols : List String} {i : String} {e : Err} (h : miss cfg cols i = some e) :
    ∃ r, e = .colIdxStrNotFound i r := by
  unfold miss at h
  split at h
  · split at h
    · cases h; exact ⟨_, rfl⟩
    · cases h
  · cases h

/-- the exception about inputs a call raises, if any -/
def flaw (cfg : Config) (low : String → String) (ns : List String) (allow : ℕ) : List (Arg V) → Option Err
  | [] => some .oneInputNeeded
  | a :: as =>
    if ns.length ≤ as.length + 1 then none
    else match a with
      | .frame df =>
        if df.cols.length < ns.length then some .multiDimSmall else ns.findSome? (miss cfg (df.cols.map fun x => low x.1))
      | .holder [] => none
      | .holder (l :: _) => if l.series.length < ns.length then some .multiDimSmall else none
      | _ => if allow = 0 then some .multiDimType else none

theorem pl_iloc (df : Frame V) (i : Int) : Pl (df.iloc i) := by
  unfold Frame.iloc
  dsimp only
  repeat' split
  all_goals first
    | exact Pl.ok _
    | exact Pl.err trivial

theorem pl_column (cfg : Config) (low : String → String) (df : Frame V) (n : String) : Pl (lineFromDataframe cfg low df n) := by
  unfold lineFromDataframe
  dsimp only
  repeat' split
  all_goals first
    | exact (Pl.ok _).bind fun _ => (pl_iloc df _).bind fun _ => Pl.ok _
    | exact Pl.err trivial

theorem pl_input (cfg : Config) (low : String → String) (a : Arg V) (n : String) : Pl (mkInput cfg low a n) := by
  unfold mkInput
  split
  · split
    · exact Pl.err trivial
    · exact Pl.ok _
  · exact Pl.ok _
  · exact Pl.ok _
  · exact pl_column _ _ _ _

theorem pl_inputs (cfg : Config) (low : String → String) (as : List (Arg V)) : ∀ ns, Pl (mkInputs cfg low as ns) := by
  induction as with
  | nil => intro ns; unfold mkInputs; exact Pl.ok _
  | cons a as ih =>
    intro ns
    cases ns with
    | nil => unfold mkInputs; exact Pl.ok _
    | cons n ns => exact (pl_input _ _ _ _).bind fun _ => (ih ns).bind fun _ => Pl.ok _

theorem pl_mapM {γ δ : Type} (f : γ → Except Err δ) (hf : ∀ a, Pl (f a)) (l : List γ) : Pl (l.mapM f) := by
  induction l with
  | nil => exact Pl.pure _
  | cons a l ih =>
    rw [List.mapM_cons]
    exact (hf a).bind fun _ => ih.bind fun _ => Pl.pure _

/-- what happens once the arguments are told apart raises plain exceptions -/
theorem pl_finish {x : Except Err (Meta.Bound V)} (hx : Pl x) :
    Pl (x >>= fun b => inputLines b >>= fun ls => match ls with
      | [] => .error .indexError
      | _ => .ok (ls, b.rest, b.cls) : Except Err (List (Line V) × List (Arg V) × InCls)) := by
  refine hx.bind fun b => Pl.bind ?_ fun ls => ?_
  · unfold inputLines
    exact pl_mapM _ (fun s => by split; exact Pl.ok _; exact Pl.err trivial) _
  · split
    · exact Pl.err trivial
    · exact Pl.ok _

theorem miss_list {cfg : Config} {cols ns : List String} {e : Err} (h : ns.findSome? (miss cfg cols) = some e) :
    isInputs e = true := by
  obtain ⟨i, _, hi⟩ := List.exists_of_findSome?_eq_some h
  obtain ⟨r, rfl⟩ := miss_inputs hi
  rfl

theorem args_flaw (cfg : Config) (low : String → String) (ns : List String) (allow : ℕ) (args : List (Arg V)) :
    (∃ e, flaw cfg low ns allow args = some e ∧ isInputs e = true ∧
      fromArgs cfg low true (InCls.fresh ns allow) args = .error e) ∨
      flaw cfg low ns allow args = none ∧ Pl (fromArgs cfg low true (InCls.fresh ns allow) args) := by
  cases args with
  | nil => exact .inl ⟨_, rfl, rfl, rfl⟩
  | cons a as =>
    unfold flaw
    dsimp only
    by_cases h : ns.length ≤ as.length + 1
    · rw [if_pos h, show fromArgs cfg low true (InCls.fresh ns allow) (a :: as) = _ from if_pos h]
      exact .inr ⟨rfl, (pl_inputs _ _ _ _).bind fun _ => Pl.ok _⟩
    · rw [if_neg h, show fromArgs cfg low true (InCls.fresh ns allow) (a :: as) = _ from if_neg h]
      cases a with
      | frame df =>
        dsimp only
        unfold fromFrame dataframeColumns InCls.fresh
        by_cases hs : df.cols.length < ns.length
        · rw [if_pos hs]
          refine .inl ⟨_, rfl, rfl, ?_⟩
          simp only [List.length_map, Bool.not_true, Bool.false_eq_true, if_false, if_pos hs]
          rfl
        · rw [if_neg hs]
          simp only [List.length_map, Bool.not_true, Bool.false_eq_true, if_false, if_neg hs]
          rcases bindLoop_miss cfg (df.cols.map fun x => low x.1) ns (colIndices df.cols.length)
            (by
              intro j hj
              unfold colIndices at hj
              obtain ⟨k, _, rfl⟩ := List.mem_map.1 hj
              exact Int.natCast_nonneg k)
            (by unfold colIndices; simp; omega) with ⟨g1, r, g2⟩ | ⟨e, g1, g2⟩
          · refine .inr ⟨g1, ?_⟩
            rw [g2]
            refine Pl.bind (Pl.bind (Pl.ok _) fun _ => pl_mapM _ (fun p => (pl_iloc _ _).bind fun _ => Pl.ok _) _) fun _ => Pl.ok _
          · refine .inl ⟨e, g1, miss_list g1, ?_⟩
            rw [g2]
            rfl
      | holder outs =>
        cases outs with
        | nil => exact .inr ⟨rfl, Pl.err trivial⟩
        | cons l ls =>
          dsimp only
          by_cases hs : l.series.length < ns.length
          · rw [if_pos hs]
            refine .inl ⟨_, rfl, rfl, ?_⟩
            show (fromHolder (l :: ls) ns >>= _) = _
            rw [fromHolder_few _ _ _ hs]
            rfl
          · rw [if_neg hs]
            refine .inr ⟨rfl, ?_⟩
            show Pl (fromHolder (l :: ls) ns >>= _)
            rw [fromHolder_ok _ _ _ (by omega)]
            exact Pl.ok _
      | series xs =>
        dsimp only
        by_cases ha : allow = 0
        · rw [if_pos ha, if_pos (show (InCls.fresh ns allow).allow = 0 from ha)]
          exact .inl ⟨_, rfl, rfl, rfl⟩
        · rw [if_neg ha, if_neg (show ¬ (InCls.fresh ns allow).allow = 0 from ha)]
          exact .inr ⟨rfl, (pl_inputs _ _ _ _).bind fun _ => Pl.ok _⟩
      | line xs =>
        dsimp only
        by_cases ha : allow = 0
        · rw [if_pos ha, if_pos (show (InCls.fresh ns allow).allow = 0 from ha)]
          exact .inl ⟨_, rfl, rfl, rfl⟩
        · rw [if_neg ha, if_neg (show ¬ (InCls.fresh ns allow).allow = 0 from ha)]
          exact .inr ⟨rfl, (pl_inputs _ _ _ _).bind fun _ => Pl.ok _⟩

theorem invoke_flaw (E : Env V) (hE : ∀ x, Pl (E.ht.int x)) (cfg : Config) (low : String → String) (c : Cls)
    (args : List (Arg V)) (kw : Dict String PyVal) :
    (∃ e, flaw cfg low (Spec.inputs c) (allowOf c) args = some e ∧ isInputs e = true ∧
      invoke E cfg low c args kw = .error (.py e)) ∨
      flaw cfg low (Spec.inputs c) (allowOf c) args = none ∧ Ends (fun _ => True) (invoke E cfg low c args kw) := by
  unfold invoke bindInputs
  rw [inputNames_eq]
  rcases args_flaw cfg low (Spec.inputs c) (allowOf c) args with ⟨e, h1, h2, h3⟩ | ⟨h1, h2⟩
  · refine .inl ⟨e, h1, h2, ?_⟩
    rw [h3]
    rfl
  · refine .inr ⟨h1, Ends.bindT (Ends.lift (pl_finish h2)) fun b => ?_⟩
    split
    · exact ends_call E hE c kw _
    · refine Ends.bindT (Ends.lift ?_) fun _ => Ends.out
      unfold initCheck
      exact Pl.ite (Pl.ok _) (Pl.err trivial)

/-! ## C129 -/

/-- the complaint about an input whose column is configured by a name: it is not there (and, unless configured columns come
first, there is no column with the name of the input either) -/
def Spec.notFound (cfg : Config) (cols : List String) (i : String) : Option String :=
  match get? cfg.indices i with
  | some (.str r) =>
    if r ∉ cols ∧ (cfg.ohlcFirst = true ∨ i ∉ cols) then
      some ("OHLC Column Name \"" ++ i ++ "\" remapped to \"" ++ r ++ "\", but this cannot be found")
    else none
  | _ => none

/-- The text with which the inputs of a call are refused, if they are: no inputs; a frame with too few columns or without a
configured column; another indicator with too few outputs; anything else which has one dimension while several inputs are needed. -/
def Spec.complaint (cfg : Config) (low : String → String) (c : Cls) : List (Arg V) → Option String
  | [] => some "One (1) input is at least needed and 0 were provided"
  | a :: as =>
    if (Spec.inputs c).length ≤ as.length + 1 then none
    else match a with
      | .frame df =>
        if df.cols.length < (Spec.inputs c).length then
          some "The multidimensional input size is smaller than the number of needed inputs"
        else (Spec.inputs c).findSome? (Spec.notFound cfg (df.cols.map fun x => low x.1))
      | .holder outs =>
        if outs.length < (Spec.inputs c).length then
          some "The multidimensional input size is smaller than the number of needed inputs"
        else none
      | _ =>
        if Spec.oneOrTwo c then none
        else some "Only DataFrames or library/user indicators are accepted as multi-dimensional inputs"

/-- `int` of python raises ValueError (not a number) or OverflowError (infinity) -/
def Spec.PythonInt (E : Env V) : Prop := ∀ x e, E.ht.int x = .error e → e = .valueError ∨ e = .overflowError

/-- a call ends with an exception an `except` clause with the name catches -/
def Spec.Caught {γ : Type} (o : Out γ) (name : String) : Prop := ∃ e, o = .error (.py e) ∧ name ∈ excClasses e

/-- a call ends with an exception of the library with the text -/
def Spec.Refused {γ : Type} (o : Out γ) (t : String) : Prop :=
  ∃ e, o = .error (.py e) ∧ "InputsError" ∈ excClasses e ∧ excText e = some t

theorem pythonInt_pl {E : Env V} (h : Spec.PythonInt E) (x : V) : Pl (E.ht.int x) :=
  ⟨fun e he => by rcases h x e he with rfl | rfl <;> trivial⟩

theorem notFound_miss (cfg : Config) (cols : List String) (ns : List String) :
    ns.findSome? (Spec.notFound cfg cols) = (ns.findSome? (miss cfg cols)).bind excText := by
  induction ns with
  | nil => rfl
  | cons n ns ih =>
    rw [List.findSome?_cons, List.findSome?_cons, ih]
    unfold Spec.notFound miss
    cases get? cfg.indices n with
    | none => rfl
    | some v => cases v with
      | num _ => rfl
      | str r =>
        by_cases h : r ∉ cols ∧ (cfg.ohlcFirst = true ∨ n ∉ cols)
        · simp only [if_pos h]
          rfl
        · simp only [if_neg h]

/-- the first argument is not another indicator which has to deliver several inputs -/
def Spec.NoIndicator (c : Cls) (args : List (Arg V)) : Prop :=
  ∀ outs, args.head? = some (.holder outs) → (Spec.inputs c).length ≤ args.length

theorem complaint_flaw (cfg : Config) (low : String → String) (c : Cls) (args : List (Arg V)) (h : Spec.NoIndicator c args) :
    Spec.complaint cfg low c args = (flaw cfg low (Spec.inputs c) (allowOf c) args).bind excText := by
  cases args with
  | nil => rfl
  | cons a as =>
    unfold Spec.complaint flaw
    dsimp only
    by_cases hl : (Spec.inputs c).length ≤ as.length + 1
    · rw [if_pos hl, if_pos hl]
      rfl
    · rw [if_neg hl, if_neg hl]
      cases a with
      | frame df =>
        dsimp only
        split
        · rfl
        · exact notFound_miss _ _ _
      | holder outs => exact absurd (h outs rfl) hl
      | series xs =>
        dsimp only
        rw [allowOf_eq]
        cases Spec.oneOrTwo c <;> rfl
      | line l =>
        dsimp only
        rw [allowOf_eq]
        cases Spec.oneOrTwo c <;> rfl

/-- **C129** A call raises `InputsError` with a text exactly if its inputs are refused with that text: whatever the class, the
arguments, the keywords and the configuration, and no matter what the data or the parameters would lead to.  (Missing: another
indicator as the only argument for several inputs, see below.) -/
theorem C129_inputs_partial (E : Env V) (hE : Spec.PythonInt E) (cfg : Config) (low : String → String) (c : Cls)
    (args : List (Arg V)) (ha : Spec.NoIndicator c args) (kw : Dict String PyVal) (t : String) :
    Spec.Refused (invoke E cfg low c args kw) t ↔ Spec.complaint cfg low c args = some t := by
  rw [complaint_flaw cfg low c args ha]
  rcases invoke_flaw E (pythonInt_pl hE) cfg low c args kw with ⟨e, h1, h2, h3⟩ | ⟨h1, h2⟩
  · rw [h1]
    constructor
    · rintro ⟨e', h, _, h5⟩
      rw [h3] at h
      cases h
      exact h5
    · intro h
      exact ⟨e, h3, of_decide_eq_true h2, h⟩
  · rw [h1]
    constructor
    · rintro ⟨e', h, h4, _⟩
      have := plain_not (h2.err e' h)
      exact absurd h4 (of_decide_eq_false this)
    · intro h; cases h

/-- **C129** `except InputsError` and `except TaPyError` catch the same, and only refused inputs: too few bars, unknown keywords,
unsuitable parameters are other exceptions of python. -/
theorem C129_caught_partial (E : Env V) (hE : Spec.PythonInt E) (cfg : Config) (low : String → String) (c : Cls)
    (args : List (Arg V)) (ha : Spec.NoIndicator c args) (kw : Dict String PyVal) :
    (Spec.Caught (invoke E cfg low c args kw) "InputsError" ↔ (Spec.complaint cfg low c args).isSome = true) ∧
      (Spec.Caught (invoke E cfg low c args kw) "TaPyError" ↔ (Spec.complaint cfg low c args).isSome = true) := by
  have key : Spec.Caught (invoke E cfg low c args kw) "InputsError" ↔ (Spec.complaint cfg low c args).isSome = true := by
    rw [Option.isSome_iff_exists]
    constructor
    · rintro ⟨e, h1, h2⟩
      obtain ⟨t, ht⟩ : ∃ t, excText e = some t := by
        cases e <;> first | exact ⟨_, rfl⟩ | exact absurd h2 (by decide)
      exact ⟨t, (C129_inputs_partial E hE cfg low c args ha kw t).1 ⟨e, h1, h2, ht⟩⟩
    · rintro ⟨t, ht⟩
      obtain ⟨e, h1, h2, _⟩ := (C129_inputs_partial E hE cfg low c args ha kw t).2 ht
      exact ⟨e, h1, h2⟩
  refine ⟨key, ?_⟩
  rw [← key]
  constructor
  · rintro ⟨e, h1, h2⟩
    refine ⟨e, h1, ?_⟩
    cases e <;> first | exact absurd h2 (by decide) | decide | exact List.mem_cons_self
  · rintro ⟨e, h1, h2⟩
    refine ⟨e, h1, ?_⟩
    cases e <;> first | exact absurd h2 (by decide) | decide | exact List.mem_cons_of_mem _ List.mem_cons_self

/-- **C129** All calls, also with other indicators as arguments: besides the exceptions of the library, a call raises
IndexError, ValueError, OverflowError, TypeError or AttributeError, and no other. -/
theorem C129_others (E : Env V) (hE : Spec.PythonInt E) (cfg : Config) (low : String → String) (c : Cls)
    (args : List (Arg V)) (kw : Dict String PyVal) (e : Err) (h : invoke E cfg low c args kw = .error (.py e)) :
    "InputsError" ∈ excClasses e ∨ e ∈ [Err.indexError, .valueError, .overflowError, .typeError, .attributeError] := by
  rcases invoke_flaw E (pythonInt_pl hE) cfg low c args kw with ⟨e', h1, h2, h3⟩ | ⟨h1, h2⟩
  · rw [h3] at h
    cases h
    exact .inl (of_decide_eq_true h2)
  · have := h2.err e h
    cases e <;> first | exact .inr (by decide) | exact absurd this id

/-- **C129** is violated for another indicator as the only argument: `InputsError` says that its size is too small exactly if it
has fewer *bars* than there are inputs, however many outputs it has. -/
theorem C129_indicator (E : Env V) (hE : Spec.PythonInt E) (cfg : Config) (low : String → String) (c : Cls) (l : Line V)
    (ls : List (Line V)) (as : List (Arg V)) (hc : as.length + 1 < (Spec.inputs c).length) (kw : Dict String PyVal) :
    Spec.Caught (invoke E cfg low c (.holder (l :: ls) :: as) kw) "InputsError" ↔
      l.series.length < (Spec.inputs c).length := by
  have hf : flaw cfg low (Spec.inputs c) (allowOf c) (.holder (l :: ls) :: as) =
      if l.series.length < (Spec.inputs c).length then some .multiDimSmall else none := by
    unfold flaw
    dsimp only
    rw [if_neg (by omega)]
  rcases invoke_flaw E (pythonInt_pl hE) cfg low c (.holder (l :: ls) :: as) kw with ⟨e, h1, h2, h3⟩ | ⟨h1, h2⟩
  · rw [hf] at h1
    constructor
    · intro _
      by_contra hn
      rw [if_neg hn] at h1
      cases h1
    · exact fun _ => ⟨e, h3, of_decide_eq_true h2⟩
  · rw [hf] at h1
    constructor
    · rintro ⟨e, h3, h4⟩
      exact absurd h4 (of_decide_eq_false (plain_not (h2.err e h3)))
    · intro hn
      rw [if_pos hn] at h1
      cases h1

/-- **C129** is violated: an indicator with too few outputs (but bars enough) is not refused with the text for that; the call ends
with a bare AttributeError, for every class with several inputs. -/
theorem C129_not_indicator (E : Env V) (cfg : Config) (low : String → String) (c : Cls) (l : Line V) (ls : List (Line V))
    (h2 : 2 ≤ (Spec.inputs c).length) (hfew : ls.length + 1 < (Spec.inputs c).length)
    (hbars : (Spec.inputs c).length ≤ l.series.length) (kw : Dict String PyVal) :
    (Spec.complaint cfg low c [.holder (l :: ls)]).isSome = true ∧
      invoke E cfg low c [.holder (l :: ls)] kw = .error (.py .attributeError) := by
  constructor
  · unfold Spec.complaint
    dsimp only
    rw [if_neg (by simp; omega), if_pos (by simpa using hfew)]
    rfl
  · unfold invoke
    rw [inputNames_eq, C51_wrong_error cfg low true _ _ (l :: ls) l rfl (inputs_nodup c) hfew h2 hbars]
    rfl

/-- **C129** is violated for indicators with one input: if the column of the input is configured by a name, a frame which has no
column with the name of the input itself ends the call with a bare TypeError.  Not only if the configured column is missing,
also if it is there. -/
theorem C129_not_remapped (E : Env V) (cfg : Config) (low : String → String) (c : Cls) (i : String)
    (hc : Spec.inputs c = [i]) (r : String) (hr : get? cfg.indices i = some (.str r)) (df : Frame V)
    (hi : ∀ x ∈ df.cols, low x.1 ≠ i) (kw : Dict String PyVal) :
    invoke E cfg low c [.frame df] kw = .error (.py .typeError) := by
  have hl : lineFromDataframe cfg low df i = .error .typeError := by
    unfold lineFromDataframe
    have : index? (df.cols.map fun x => low x.1) i = none := by
      rw [index?_none]
      intro h
      obtain ⟨x, hx, e⟩ := List.mem_map.1 h
      exact hi x hx e
    simp only [this, hr]
    rfl
  have hb : bindInputs cfg low true (InCls.fresh [i] (allowOf c)) [.frame df] = .error .typeError := by
    unfold bindInputs
    have hm : mkInputs cfg low [.frame df] [i] = .error .typeError := by
      unfold mkInputs mkInput
      simp only [hl]
      rfl
    have hf : fromArgs cfg low true (InCls.fresh [i] (allowOf c)) [.frame df] =
        (do let d ← mkInputs cfg low [.frame df] [i]; .ok ⟨d, [], InCls.fresh [i] (allowOf c)⟩) := rfl
    rw [hf, hm]
    rfl
  unfold invoke
  rw [inputNames_eq, hc, hb]
  rfl

/-! ### Concrete calls -/

example (T : _root_.Spec.Trig ℚ) : Spec.PythonInt { E0 with ht := HtFns.ofTrig T } := by
  intro x e h
  cases x <;> first
    | (cases h; done)
    | exact .inl (Except.error.inj h).symm
    | exact .inr (Except.error.inj h).symm

example : Spec.PythonInt E0 := by
  intro x e h
  cases x <;> cases h

example : Spec.NoIndicator .stochf [Arg.series (fins [1, 2])] := by intro outs h; cases h

example : Spec.complaint defaultConfig low0 .stochf [Arg.series (fins [1, 2])] =
    some "Only DataFrames or library/user indicators are accepted as multi-dimensional inputs" := by decide +kernel

example : Spec.complaint defaultConfig low0 .stochf [Arg.frame ⟨[("high", fins [1, 2]), ("low", fins [1, 2])]⟩] =
    some "The multidimensional input size is smaller than the number of needed inputs" := by decide +kernel

/-- the column of `close` is configured to be one which the frame does not have -/
example : Spec.complaint (defaultConfig.setInputIndices [("close", .str "adj")]) low0 .stochf
    [Arg.frame ⟨[("high", fins [1, 2]), ("low", fins [1, 2]), ("x", fins [1, 2])]⟩] =
    some "OHLC Column Name \"close\" remapped to \"adj\", but this cannot be found" := by decide +kernel

/-- three columns with other names are fine -/
example : Spec.complaint defaultConfig low0 .stochf
    [Arg.frame ⟨[("a", fins [1, 2]), ("b", fins [1, 2]), ("x", fins [1, 2])]⟩] = none := by decide +kernel

/-- too few bars: an IndexError, which `except InputsError` does not catch -/
example : invoke E0 defaultConfig low0 .ema [.series (fins [1, 2])] [] = .error (.py .indexError) ∧
    "InputsError" ∉ excClasses .indexError := by decide +kernel

/-- `sma` of a frame with the configured column -/
example : invoke E0 (defaultConfig.setInputIndices [("close", .str "adj")]) low0 .sma
    [.frame ⟨[("adj", fins [1, 2])]⟩] [("period", .int 2)] = .error (.py .typeError) := by decide +kernel

end Api

end Bta
