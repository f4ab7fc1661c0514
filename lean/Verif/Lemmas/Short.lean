import Verif.Spec.Short
import Verif.Lemmas.Need
import Verif.Lemmas.RelInst
import Verif.Props.Catalog

/-!
# How many bars a call needs not to raise
-/

set_option linter.unusedSectionVars false
set_option linter.unusedVariables false

namespace Bta
open Line

variable {V : Type} [PyFloat V]

/-- `n` bars, minimum period `m ≥ 1` -/
def Sz {β : Type} (n : ℕ) (l : Line β) (m : ℕ) : Prop := l.series.length = n ∧ Mp l m

/-- gives a result with the property from `b` bars on, with fewer raises IndexError -/
def SE {α : Type} (n : ℕ) (P : α → Prop) (b : ℕ) (x : Except Err α) : Prop :=
  (b ≤ n → ∃ r, x = .ok r ∧ P r) ∧ (n < b → x = .error .indexError)

section
variable {n : ℕ} {α β : Type}

theorem SE.bind {Q : α → Prop} {P : β → Prop} {x : Except Err α} {f : α → Except Err β} {b b' : ℕ} (h : SE n Q b x)
    (hf : ∀ r, Q r → SE n P b' (f r)) : SE n P (max b b') (x >>= f) := by
  constructor
  · intro hb
    obtain ⟨r, hr, hq⟩ := h.1 (by omega)
    obtain ⟨s, hs, hp⟩ := (hf r hq).1 (by omega)
    exact ⟨s, by rw [hr]; exact hs, hp⟩
  · intro hb
    by_cases hn : n < b
    · rw [h.2 hn]; rfl
    · obtain ⟨r, hr, hq⟩ := h.1 (by omega)
      rw [hr]
      exact (hf r hq).2 (by omega)

theorem SE.pure {P : α → Prop} {r : α} (h : P r) : SE n P 0 (Pure.pure r : Except Err α) :=
  ⟨fun _ => ⟨r, rfl, h⟩, fun h => absurd h (by omega)⟩

theorem SE.ok {P : α → Prop} {r : α} (h : P r) : SE n P 0 (.ok r : Except Err α) := SE.pure h

theorem SE.mono {P Q : α → Prop} {x : Except Err α} {b : ℕ} (h : SE n P b x) (hq : ∀ r, P r → Q r) : SE n Q b x :=
  ⟨fun hb => let ⟨r, h1, h2⟩ := h.1 hb; ⟨r, h1, hq r h2⟩, h.2⟩

theorem SE.at {P : α → Prop} {x : Except Err α} {b b' : ℕ} (h : SE n P b x) (e : b = b') : SE n P b' x := e ▸ h

end

section
variable {n : ℕ}

theorem SE.sz {m b : ℕ} {x : Except Err (Line V)} (h : SE n (fun r => r.series.length = n) b x) (g : PE (Mp · m) x) :
    SE n (Sz n · m) b x :=
  ⟨fun hb => let ⟨r, h1, h2⟩ := h.1 hb; ⟨r, h1, h2, g r h1⟩, h.2⟩

/-! ## the number of bars of the results -/

/-- `n` bars -/
def Ln {β : Type} (n : ℕ) (l : Line β) : Prop := l.series.length = n

namespace Ln
variable {a b : Line V} {x y : Line Bool}

theorem binop {α β γ : Type} {f : α → β → γ} {fill : γ} {a : Line α} {b : Line β} (h : Ln n a) (g : Ln n b) :
    Ln n (Line.binop f fill a b) := by
  unfold Ln at *
  rw [binop_length (by rw [h, g]), h]
theorem binopS {α β γ : Type} {f : α → β → γ} {fill : γ} {a : Line α} {c : β} (h : Ln n a) : Ln n (Line.binopS f fill a c) :=
  binopS_length.trans h
theorem stdop {α γ : Type} {g : List α → List γ} {fill : γ} {inc : Int} {a : Line α} (hg : ∀ xs, (g xs).length = xs.length)
    (h : Ln n a) : Ln n (Line.stdop g fill inc a) := (stdop_length hg).trans h
theorem stdop2 {α β γ : Type} {g : List α → List β → List γ} {fill : γ} {a : Line α} {b : Line β} (hg : CausalL2 g)
    (h : Ln n a) (h' : Ln n b) : Ln n (Line.stdop2 g fill a b) := by
  unfold Ln at *
  rw [stdop2_length hg (by rw [h, h']), h]
theorem add (h : Ln n a) (g : Ln n b) : Ln n (a + b) := h.binop g
theorem sub (h : Ln n a) (g : Ln n b) : Ln n (a - b) := h.binop g
theorem mul (h : Ln n a) (g : Ln n b) : Ln n (a * b) := h.binop g
theorem div (h : Ln n a) (g : Ln n b) : Ln n (a / b) := h.binop g
theorem addS {c : V} (h : Ln n a) : Ln n (a.addS c) := h.binopS
theorem subS {c : V} (h : Ln n a) : Ln n (a.subS c) := h.binopS
theorem rmulS {c : V} (h : Ln n a) : Ln n (Line.rmulS c a) := by
  unfold Line.rmulS Line.binS; exact h.binopS
theorem raddS {c : V} (h : Ln n a) : Ln n (Line.raddS c a) := by
  unfold Line.raddS Line.binS; exact h.binopS
theorem rsubS {c : V} (h : Ln n a) : Ln n (Line.rsubS c a) := by
  unfold Line.rsubS Line.binS; exact h.binopS
theorem rdivS {c : V} (h : Ln n a) : Ln n (Line.rdivS c a) := by
  unfold Line.rdivS Line.binS; exact h.binopS
theorem divS {c : V} (h : Ln n a) : Ln n (a.divS c) := h.binopS
theorem mulS {c : V} (h : Ln n a) : Ln n (a.mulS c) := h.binopS
theorem ltL (h : Ln n a) (g : Ln n b) : Ln n (Line.ltL a b) := h.binop g
theorem gtL (h : Ln n a) (g : Ln n b) : Ln n (Line.gtL a b) := h.binop g
theorem ltS {c : V} (h : Ln n a) : Ln n (Line.ltS a c) := h.binopS
theorem gtS {c : V} (h : Ln n a) : Ln n (Line.gtS a c) := by
  unfold Line.gtS Line.cmpS; exact h.binopS
theorem andL (h : Ln n x) (g : Ln n y) : Ln n (Line.andL x y) := h.binop g
theorem mulB (h : Ln n a) (g : Ln n y) : Ln n (Line.mulB a y) := h.binop g
theorem abs (h : Ln n a) : Ln n a.abs := h.stdop (by simp)
theorem clipLoS {c : V} (h : Ln n a) : Ln n (a.clipLoS c) := h.stdop (by simp)
theorem clipHiS {c : V} (h : Ln n a) : Ln n (a.clipHiS c) := h.stdop (by simp)
theorem clipLoL (h : Ln n a) (g : Ln n b) : Ln n (Line.clipLoL a b) := h.stdop2 (CausalL2.zipWith _) g
theorem clipHiL (h : Ln n a) (g : Ln n b) : Ln n (Line.clipHiL a b) := h.stdop2 (CausalL2.zipWith _) g
theorem shift {q : ℕ} (h : Ln n a) : Ln n (Line.shift q a) := h.stdop (CausalL.shift _).len
theorem diff {q : ℕ} (h : Ln n a) : Ln n (Line.diff q a) := h.stdop (CausalL.diff _).len
theorem agoN {q : ℕ} (h : Ln n a) : Ln n (ago (-(q : Int)) a) := by
  unfold ago
  by_cases hq : (-(q : Int)) = 0
  · rw [if_pos hq]
    unfold Ln at *
    simp [clone, h]
  · rw [if_neg hq, neg_neg]; exact h.shift
theorem ago1 (h : Ln n a) : Ln n (ago (-1) a) := agoN (q := 1) h
theorem cumsum (h : Ln n a) : Ln n a.cumsum := h.stdop CausalL.cumsum.len
theorem rolling {w : ℕ} {agg : List V → V} (h : Ln n a) : Ln n (Line.rolling w agg a) := rolling_length.trans h
theorem highest {p : ℕ} (h : Ln n a) : Ln n (Ind.highest p a) := h.rolling
theorem lowest {p : ℕ} (h : Ln n a) : Ln n (Ind.lowest p a) := h.rolling
theorem sumN {p : ℕ} (h : Ln n a) : Ln n (Ind.sumN p a) := h.rolling

end Ln

/-- the number of bars of an expression -/
macro "lns" : tactic => `(tactic| repeat' first
  | assumption
  | with_reducible apply Ln.add | with_reducible apply Ln.sub | with_reducible apply Ln.mul
  | with_reducible apply Ln.div | with_reducible apply Ln.addS
  | with_reducible apply Ln.subS | with_reducible apply Ln.mulS
  | with_reducible apply Ln.rmulS | with_reducible apply Ln.divS
  | with_reducible apply Ln.raddS | with_reducible apply Ln.rsubS | with_reducible apply Ln.rdivS
  | with_reducible apply Ln.ltL | with_reducible apply Ln.gtL | with_reducible apply Ln.ltS
  | with_reducible apply Ln.gtS | with_reducible apply Ln.andL | with_reducible apply Ln.mulB
  | with_reducible apply Ln.abs | with_reducible apply Ln.clipLoS
  | with_reducible apply Ln.clipHiS | with_reducible apply Ln.clipLoL | with_reducible apply Ln.clipHiL
  | with_reducible apply Ln.ago1 | with_reducible apply Ln.agoN | with_reducible apply Ln.cumsum
  | with_reducible apply Ln.highest | with_reducible apply Ln.lowest | with_reducible apply Ln.sumN
  | with_reducible apply Ln.diff | with_reducible apply Ln.shift | with_reducible apply Ln.rolling)

/-! ## averages -/

theorem ewmNew_unseeded {c : EwmCfg} {a : Line V} {P2 : ℕ} (hp : c.p2 a.minperiod = P2) (h2 : a.series.length < P2)
    (hs : Spec.noSeed c.seed = true) : ewmNew c a = .ok ⟨(P2 : Int) - 1, []⟩ := by
  have hlen : pyStart a.series.length (P2 : Int) - pyStart a.series.length ((P2 : Int) - 1) = 0 := by
    rw [pyStart_nat, pyStart_pred _ (by omega)]; omega
  have hd : pyFrom a.series (P2 : Int) = [] := by
    unfold pyFrom
    rw [pyStart_nat, List.drop_eq_nil_iff]; omega
  unfold ewmNew
  simp only [hp, hd]
  have : ewmPrefix a c.seed ((P2 : Int) - c.pval) ((P2 : Int) - 1) P2 = .ok [] := by
    revert hs
    cases hc : c.seed <;> simp [Spec.noSeed, ewmPrefix, hlen]
  rw [this]
  rfl

theorem se_ewm {c : EwmCfg} {op : List V → Except Err (List V)} {a : Line V} {P : ℕ} (hf : EwmFits c a.minperiod)
    (hP : a.minperiod - 1 + (if c.poffset ≠ 0 then c.poffset else c.pval) - c.pearly = P)
    (ho : EwmFn op) (hs : Spec.noSeed c.seed = true → op [] = .error .indexError) (h : Ln n a) :
    SE n (Ln n) P (match ewmNew c a with | .error e => .error e | .ok o => ewmCall c a o op) := by
  obtain ⟨P2, hp, h1, hv, hmp, hm1⟩ := hf.p2
  have e : P = P2 := by
    obtain ⟨h1, h2, h3, h4, h5, h6⟩ := hf
    have e : c.p2 a.minperiod = a.minperiod - 1 + (if c.poffset ≠ 0 then c.poffset else c.pval) - c.pearly := by
      unfold EwmCfg.p2
      simp only []
      rw [if_neg (c := c.pval ≠ 0 ∧ (if c.poffset ≠ 0 then c.poffset else c.pval) < c.alphaP)]
      rw [h2]
      split <;> omega
    have : (P : Int) = P2 := by rw [← hP, ← hp, e]
    exact_mod_cast this
  subst e
  obtain ⟨g, hg, hop⟩ := ho.causal
  constructor
  · intro hn
    have hlong := ewm_long (c := c) (a := a) (op := op) hp h1 (by rw [h]; exact hn) (hop _ (by simp)) (by
      rw [hg.len]; simp only [List.length_cons, List.length_drop]; rw [h]; omega)
    exact ⟨_, hlong, (Warm.ewm hf h hlong).len⟩
  · intro hn
    by_cases hc : Spec.noSeed c.seed = true
    · rw [ewmNew_unseeded hp (by rw [h]; omega) hc]
      simp only [ewmCall, hs hc]
    · rw [ewmNew_short hp (by rw [h]; omega) (by
        revert hc
        cases c.seed <;> simp [Spec.noSeed])]

/-- without seed, and with an operation which takes an empty series -/
theorem se_ewm_unseeded {c : EwmCfg} {op : List V → Except Err (List V)} {a : Line V} (hf : EwmFits c a.minperiod)
    (ho : EwmFn op) (hs : Spec.noSeed c.seed = true) (h0 : op [] = .ok []) (h : Ln n a) :
    SE n (Ln n) 0 (match ewmNew c a with | .error e => .error e | .ok o => ewmCall c a o op) := by
  obtain ⟨P2, hp, h1, hv, hmp, hm1⟩ := hf.p2
  obtain ⟨g, hg, hop⟩ := ho.causal
  refine ⟨fun _ => ?_, fun h => absurd h (by omega)⟩
  by_cases hn : P2 ≤ n
  · have hlong := ewm_long (c := c) (a := a) (op := op) hp h1 (by rw [h]; exact hn) (hop _ (by simp)) (by
      rw [hg.len]; simp only [List.length_cons, List.length_drop]; rw [h]; omega)
    exact ⟨_, hlong, (Warm.ewm hf h hlong).len⟩
  · have hz : a.series.length - pyStart a.series.length ((P2 : Int) - 1) = 0 := by
      rw [pyStart_pred _ h1, h]; omega
    rw [ewmNew_unseeded hp (by rw [h]; omega) hs]
    simp only [ewmCall, h0]
    rw [if_pos (by rw [hz]; rfl)]
    refine ⟨_, rfl, ?_⟩
    show (setFrom _ _ _ _).length = n
    rw [setFrom_len (by rw [hz]; rfl), h]

variable {a : Line V} {m p : ℕ}

theorem se_ema {seed : Seed} {o : ℕ} (hp : 1 ≤ p) (ho : o = 0 ∨ p ≤ o) (h : Sz n a m) :
    SE n (Sz n · (m + (p - 1))) (if Spec.noSeed seed then 0 else m - 1 + (if o = 0 then p else o)) (Ind.emaG seed o p a) := by
  have h2 := h.2.2
  have h1 := h.2.1
  by_cases hs : Spec.noSeed seed = true
  · rw [if_pos hs]
    refine (se_ewm_unseeded (c := { pval := p, poffset := o, seed := seed }) ⟨?_, ?_, ?_, ?_, ?_, ?_⟩ (EwmFn.mean _) hs rfl
      h.1).sz (mp_ema hp h.2) <;> simp <;> omega
  · rw [if_neg hs]
    refine (se_ewm (c := { pval := p, poffset := o, seed := seed }) ⟨?_, ?_, ?_, ?_, ?_, ?_⟩ ?_ (EwmFn.mean _)
      (fun h => absurd h hs) h.1).sz (mp_ema hp h.2) <;> simp <;> omega

theorem se_smma {seed : Seed} (hp : 1 ≤ p) (h : Sz n a m) :
    SE n (Sz n · (m + (p - 1))) (if Spec.noSeed seed then 0 else m - 1 + p) (Ind.smmaG seed p a) := by
  have h2 := h.2.2
  have h1 := h.2.1
  by_cases hs : Spec.noSeed seed = true
  · rw [if_pos hs]
    refine (se_ewm_unseeded (c := { pval := p, seed := seed }) ⟨?_, ?_, ?_, ?_, ?_, ?_⟩ (EwmFn.mean _) hs rfl
      h.1).sz (mp_smma hp h.2) <;> simp <;> omega
  · rw [if_neg hs]
    refine (se_ewm (c := { pval := p, seed := seed }) ⟨?_, ?_, ?_, ?_, ?_, ?_⟩ ?_ (EwmFn.mean _)
      (fun h => absurd h hs) h.1).sz (mp_smma hp h.2) <;> simp <;> omega

/-- smoothing with a line of factors `al`, of which the first used is that after the seed -/
theorem dyn_takes {pval A b P2 : ℕ} {seed : Seed} {al : Line V}
    (hp2 : EwmCfg.p2 { pval := pval, seed := seed, alphaP := al.minperiod } a.minperiod = (P2 : Int)) (h1 : 1 ≤ P2)
    (h : Sz n a m) (hal : Sz n al A) (hlt : n < b → n < P2 ∨ A ≤ P2) (hle : b ≤ n → P2 ≤ n ∧ P2 = A - 1)
    (hmp : b ≤ n → PE (Mp · A) (ewmDyn { pval := pval, seed := seed } al a)) :
    SE n (Sz n · A) b (ewmDyn { pval := pval, seed := seed } al a) := by
  have hA := hal.2.2
  have hlen : al.series.length = a.series.length := by rw [h.1, hal.1]
  have hl : a.series.length = n := h.1
  constructor
  · intro hb
    obtain ⟨h3, h4⟩ := hle hb
    obtain ⟨x, xs, hx⟩ : ∃ x xs, prepL (seedVal seed a.series ((P2 : Int) - pval) ((P2 : Int) - 1) P2 :: a.series.drop P2) =
        x :: xs := ⟨_, _, rfl⟩
    have hlong := dyn_long (seed := seed) (al := al) (a := a) (pval := pval) hlen hp2 h1 (by rw [hal.2.1]; omega)
      (by rw [hal.2.1]; omega) (by omega) hx
    refine ⟨_, hlong, ?_, hmp hb _ hlong⟩
    show (setFrom _ _ _ _).length = n
    have hxl : xs.length = n - P2 := by
      have := congrArg List.length hx
      rw [prepL_length] at this
      simp only [List.length_cons, List.length_drop] at this
      omega
    rw [setFrom_len, hl]
    rw [pyStart_pred _ h1]
    simp only [List.length_cons, (dynL_causal _).len, List.length_zip, List.length_drop]
    omega
  · intro hb
    unfold ewmDyn
    simp only []
    by_cases hn : P2 ≤ n
    · rw [ewmNew_ok hp2 h1 (by omega)]
      simp only [ewmCall]
      rw [dynAlpha_more]
      rw [pyFrom_length, hal.2.1, pyStart_pred _ hA, hal.1]
      simp only [List.length_cons, List.length_drop]
      have := hlt hb
      omega
    · by_cases hc : Spec.noSeed seed = true
      · rw [ewmNew_unseeded hp2 (by omega) hc]
        simp only [ewmCall, prepL, List.map_nil, dynAlpha]
      · rw [ewmNew_short hp2 (by omega) (by revert hc; cases seed <;> simp [Spec.noSeed])]

/-- smoothing with a line of factors which start later than the window: it works for plain lines only -/
theorem se_dyn {never pval A : ℕ} {seed : Seed} {al : Line V} (hn : n < never) (h : Sz n a m) (hal : Sz n al A) (hp : 1 ≤ pval)
    (hA : pval < A) : SE n (Sz n · A) (if m = 1 then A - 1 else never) (ewmDyn { pval := pval, seed := seed } al a) := by
  have hp2 : EwmCfg.p2 { pval := pval, seed := seed, alphaP := al.minperiod } a.minperiod = ((m - 1 + (A - 1) : ℕ) : Int) := by
    have := h.2.2
    unfold EwmCfg.p2
    simp only [ne_eq, not_true_eq_false, if_false]
    rw [h.2.1, hal.2.1, if_pos ⟨by omega, by omega⟩]
    omega
  have hm := h.2.2
  have hsz : PE (Mp · (max (m + (pval - 1)) A)) (ewmDyn { pval := pval, seed := seed } al a) :=
    h.2.dyn (c := { pval := pval, seed := seed }) hal.2 (by simp only; omega) (by omega)
  refine dyn_takes hp2 (by omega) h hal ?_ ?_ ?_
  · intro hk
    split at hk <;> omega
  · intro hk
    have e : m = 1 := by
      by_contra hc
      rw [if_neg hc] at hk
      omega
    rw [if_pos e] at hk
    omega
  · intro hk r hr
    have e : m = 1 := by
      by_contra hc
      rw [if_neg hc] at hk
      omega
    exact (hsz r hr).congr (by omega)

theorem se_sma (hp : 1 ≤ p) (h : Sz n a m) : SE n (Sz n · (m + (p - 1))) 0 (Ind.sma p a) :=
  SE.ok ⟨Ln.rolling h.1, h.2.rolling hp⟩

/-- an average which adds `e` bars and needs `b m` of them for a line with minimum period `m` -/
def Takes (n : ℕ) (q : ℕ) (e : ℕ) (b : ℕ → ℕ) (f : Line V → Except Err (Line V)) : Prop :=
  ∀ a m, q ≤ m → Sz n a m → SE n (Sz n · (m + e)) (b m) (f a)

theorem se_gdema {ma : MA V} {v : V} {e : ℕ} {b : ℕ → ℕ} (hm : Takes n 1 e b (ma p)) (h : Sz n a m) :
    SE n (Sz n · (m + 2 * e)) (max (b m) (b (m + e))) (Ind.gdema ma v p a) := by
  unfold Ind.gdema
  refine SE.at ((hm _ _ h.2.2 h).bind fun e1 h1 => (hm _ _ h1.2.2 h1).bind fun e2 h2 => SE.pure ?_) (by omega)
  have l1 : Ln n e1 := h1.1
  have l2 : Ln n e2 := h2.1
  have m1 := h1.2
  have m2 := h2.2
  refine ⟨?_, ?_⟩
  · show Ln n _
    lns
  · mpc

theorem lfilter_nil (sp : Bool) (al : V) (be : Option V) : lfilter sp al be (prepL []) = .error .indexError := by
  cases sp <;> rfl

theorem Avg.takes {never : ℕ} (hn : n < never) (A : Avg V) : ∀ (q p m : ℕ) (a : Line V), A.Periods q p → q ≤ m → Sz n a m →
    SE n (Sz n · (m + Spec.more A p)) (Spec.avgBars never A p m) (A.run p a) := by
  induction A with
  | sma => intro q p m a hk hq h; exact se_sma hk h
  | ema s o => intro q p m a hk hq h; exact se_ema hk.1 hk.2 h
  | smma s => intro q p m a hk hq h; exact se_smma hk h
  | ewma adj =>
    intro q p m a hk hq h
    refine SE.ok ⟨?_, Avg.mp (.ewma adj) q p m a hk hq h.2 _ rfl⟩
    unfold clone
    simp only
    rw [setFrom_len (by rw [(CausalL.ewmMean _ _).len, pyFrom_length]), h.1]
  | wma => intro q p m a hk hq h; exact SE.ok ⟨(Ln.rolling h.1).rmulS, (h.2.rolling hk).rmulS⟩
  | sumN => intro q p m a hk hq h; exact SE.ok ⟨Ln.sumN h.1, h.2.sumN hk⟩
  | trima =>
    intro q p m a hk hq h
    have hk : 1 ≤ p := hk
    show SE n _ 0 (Ind.trima p a)
    unfold Ind.trima
    by_cases ho : p % 2 = 1
    · simp only [if_pos ho]
      exact (se_sma (by omega) h).bind fun e h1 => (se_sma (by omega) h1).mono fun r hr =>
        ⟨hr.1, hr.2.congr (by simp only [Spec.more]; omega)⟩
    · simp only [if_neg ho]
      exact (se_sma (by omega) h).bind fun e h1 => (se_sma (by omega) h1).mono fun r hr =>
        ⟨hr.1, hr.2.congr (by simp only [Spec.more]; omega)⟩
  | dema A ih =>
    intro q p m a hk hq h
    have hm := fun a m (h : Sz n a m) => ih 1 p m a hk h.2.2 h
    refine SE.at ((hm _ _ h).bind fun e1 h1 => (hm _ _ h1).bind fun e2 h2 => SE.pure ?_) ?_
    · have l1 : Ln n e1 := h1.1
      have l2 : Ln n e2 := h2.1
      have m1 := h1.2
      have m2 := h2.2
      refine ⟨?_, ?_⟩
      · show Ln n _
        lns
      · simp only [Spec.more]
        mpc
    · simp only [Spec.avgBars]
      omega
  | tema A ih =>
    intro q p m a hk hq h
    have hm := fun a m (h : Sz n a m) => ih 1 p m a hk h.2.2 h
    refine SE.at ((hm _ _ h).bind fun e1 h1 => (hm _ _ h1).bind fun e2 h2 => (hm _ _ h2).bind fun e3 h3 => SE.pure ?_) ?_
    · have l1 : Ln n e1 := h1.1
      have l2 : Ln n e2 := h2.1
      have l3 : Ln n e3 := h3.1
      have m1 := h1.2
      have m2 := h2.2
      have m3 := h3.2
      refine ⟨?_, ?_⟩
      · show Ln n _
        lns
      · simp only [Spec.more]
        mpc
    · simp only [Spec.avgBars, two_mul, ← add_assoc]
      omega
  | trix A ih =>
    intro q p m a hk hq h
    have hm := fun a m (h : Sz n a m) => ih 1 p m a hk h.2.2 h
    refine SE.at ((hm _ _ h).bind fun e1 h1 => (hm _ _ h1).bind fun e2 h2 => (hm _ _ h2).bind fun e3 h3 => SE.pure ?_) ?_
    · have l1 : Ln n e1 := h1.1
      have l2 : Ln n e2 := h2.1
      have l3 : Ln n e3 := h3.1
      have m1 := h1.2
      have m2 := h2.2
      have m3 := h3.2
      refine ⟨?_, ?_⟩
      · show Ln n _
        lns
      · simp only [Spec.more]
        mpc
    · simp only [Spec.avgBars, two_mul, ← add_assoc]
      omega
  | gdema A v ih =>
    intro q p m a hk hq h
    exact se_gdema (fun a m _ h => ih 1 p m a hk h.2.2 h) h
  | t3 v =>
    intro q p m a hk hq h
    have hm : ∀ (a : Line V) m, Sz n a m → SE n (Sz n · (m + (p - 1))) (m - 1 + p) (Ind.ema p a) :=
      fun a m h => se_ema (o := 0) (seed := .avg) hk (.inl rfl) h
    refine SE.at ((hm _ _ h).bind fun e1 h1 => (hm _ _ h1).bind fun e2 h2 => (hm _ _ h2).bind fun e3 h3 =>
      (hm _ _ h3).bind fun e4 h4 => (hm _ _ h4).bind fun e5 h5 => (hm _ _ h5).bind fun e6 h6 => SE.pure ?_) ?_
    · have l3 : Ln n e3 := h3.1
      have l4 : Ln n e4 := h4.1
      have l5 : Ln n e5 := h5.1
      have l6 : Ln n e6 := h6.1
      have m3 := h3.2
      have m4 := h4.2
      have m5 := h5.2
      have m6 := h6.2
      refine ⟨?_, ?_⟩
      · show Ln n _
        lns
      · simp only [Spec.more]
        mpc
    · have := h.2.2
      have : 1 ≤ p := hk
      simp only [Spec.avgBars]
      omega
  | t3gd A v ih =>
    intro q p m a hk hq h
    have hm := fun a m (h : Sz n a m) => se_gdema (v := v) (fun a m _ h => ih 1 p m a hk h.2.2 h) h
    refine SE.at ((hm _ _ h).bind fun e1 h1 => (hm _ _ h1).bind fun e2 h2 => (hm _ _ h2).mono fun r hr =>
      ⟨hr.1, hr.2.congr ?_⟩) ?_
    · simp only [Spec.more]
      omega
    · simp only [Spec.avgBars]
      have e : m + 2 * Spec.more A p + 2 * Spec.more A p = m + 4 * Spec.more A p := by ring
      rw [e]
  | kama f s pv sd =>
    intro q p m a hk hq h
    have hk : 1 ≤ p := hk
    have hm := h.2
    have hl : Ln n a := h.1
    have h2 := h.2.2
    refine (SE.at (se_dyn (A := m + max p (p - 1 + pv)) hn h ⟨?_, ?_⟩ hk (by omega)) ?_).mono fun r hr => ⟨hr.1, hr.2.congr ?_⟩
    · show Ln n _
      unfold mapOp
      refine Ln.stdop (by simp) ?_
      lns
    · mpc
    · simp only [Spec.avgBars]
      split <;> omega
    · simp only [Spec.more]
  | smacc sp e sd =>
    intro q p m a hk hq h
    have h1 := h.2.1
    have h2 := h.2.2
    have k1 := hk.1
    have k2 := hk.2
    refine (se_ewm (c := { pval := p, pearly := if e then 1 else 0, seed := sd }) ⟨?_, ?_, ?_, ?_, ?_, ?_⟩ ?_
      (EwmFn.lfilter _ _ _) (fun _ => lfilter_nil _ _ _) h.1).sz (Avg.mp (.smacc sp e sd) q p m a hk hq h.2) <;>
      cases e <;> simp [Spec.avgBars] at k2 ⊢ <;> omega

/-! ## calls -/

variable {x y z : Line V} {k l : ℕ} {e : ℕ} {b : ℕ → ℕ}

/-- nothing is required of the result -/
abbrev Any {α : Type} : α → Prop := fun _ => True

theorem se_one (l : Line V) : SE n Any 0 (Bta.one l) := SE.ok trivial

theorem se_oneE {r : Except Err (Line V)} {c : ℕ} {P : Line V → Prop} (h : SE n P c r) : SE n Any c (Bta.oneE r) :=
  (h.bind (P := Any) fun _ _ => SE.pure trivial).at (by omega)

theorem se_twoE {r : Except Err (Line V × Line V)} {c : ℕ} {P : _ → Prop} (h : SE n P c r) : SE n Any c (Bta.twoE r) :=
  (h.bind (P := Any) fun _ _ => SE.pure trivial).at (by omega)

theorem se_threeE {r : Except Err (Line V × Line V × Line V)} {c : ℕ} {P : _ → Prop} (h : SE n P c r) :
    SE n Any c (Bta.threeE r) :=
  (h.bind (P := Any) fun _ _ => SE.pure trivial).at (by omega)

theorem se_posc {ma : MA V} {pf ps e1 e2 : ℕ} {b1 b2 : ℕ → ℕ} {fast : Bool} (h1 : Takes n 1 e1 b1 (ma pf))
    (h2 : Takes n 1 e2 b2 (ma ps)) (h : Sz n a m) :
    SE n (fun r => Sz n (r.1 / r.2) (m + max e1 e2)) (max (b1 m) (b2 m)) (Ind.posc fast ma pf ps a) := by
  unfold Ind.posc
  refine SE.at ((h1 _ _ h.2.2 h).bind fun r1 g1 => (h2 _ _ h.2.2 h).bind fun r2 g2 => SE.pure ?_) (by omega)
  cases fast
  · exact ⟨Ln.div g1.1 g2.1, (g1.2.div g2.2).congr (by omega)⟩
  · exact ⟨Ln.div g2.1 g1.1, (g2.2.div g1.2).congr (by omega)⟩

theorem se_rsi {ma : MA V} {lb p : ℕ} (h1 : Takes n 1 e b (ma p)) (h : Sz n a m) :
    SE n (Sz n · (m + lb + e)) (b (m + lb)) (Ind.rsi ma lb p a) := by
  unfold Ind.rsi
  have hl : Ln n a := h.1
  have hm := h.2
  refine SE.at ((h1 _ (m + lb) (by have := h.2.2; omega) ⟨hl.diff.clipLoS, hm.diff.clipLoS⟩).bind fun u g1 =>
    (h1 _ (m + lb) (by have := h.2.2; omega) ⟨hl.diff.clipHiS.abs, hm.diff.clipHiS.abs⟩).bind fun d g2 =>
    SE.pure ?_) (by omega)
  have l1 : Ln n u := g1.1
  have l2 : Ln n d := g2.1
  have m1 := g1.2
  have m2 := g2.2
  exact ⟨by show Ln n _; lns, by mpc⟩

theorem sz_k {p : ℕ} (hp : 1 ≤ p) (hx : Sz n x m) (hy : Sz n y k) (hz : Sz n z l) :
    Sz n ((Line.rmulS (lit 100) (z - Ind.lowest p y)) / (Ind.highest p x - Ind.lowest p y)) (max (max m k + (p - 1)) l) := by
  have l1 : Ln n x := hx.1
  have l2 : Ln n y := hy.1
  have l3 : Ln n z := hz.1
  exact ⟨by show Ln n _; lns, mp_kBars hp hx.2 hy.2 hz.2⟩

theorem se_stochrsi {p ph : ℕ} {sc : V} (hp : 1 ≤ p) (hh : 1 ≤ ph) (h : Sz n a m) :
    SE n (Sz n · (m + p + (ph - 1))) (m + p) (Ind.stochrsi p ph sc a) := by
  unfold Ind.stochrsi
  refine SE.at ((se_rsi (e := p - 1) (b := fun m => m - 1 + p) (fun b m _ hb => se_smma (seed := .avg) hp hb) h).bind
    fun r g => SE.pure ?_) (by omega)
  have l1 : Ln n r := g.1
  have m1 := g.2
  exact ⟨by show Ln n _; lns, by mpc⟩

theorem se_stochf {ma : MA V} {p pf : ℕ} (hp : 1 ≤ p) (h1 : Takes n 1 e b (ma pf)) (hx : Sz n x m) (hy : Sz n y k)
    (hz : Sz n z l) : SE n (fun r => Sz n r.2 (max (max m k + (p - 1)) l + e)) (b (max (max m k + (p - 1)) l))
      (Ind.stochf ma p pf x y z) := by
  unfold Ind.stochf
  exact SE.at ((h1 _ _ (by have := hz.2.2; omega) (sz_k hp hx hy hz)).bind fun d g => SE.pure g) (by omega)

theorem sz_tr {q : ℕ} (hx : Sz n x m) (hy : Sz n y k) (hz : Sz n z l) : Sz n (Ind.truerange q x y z) (max (max m k) (l + q)) := by
  have l1 : Ln n x := hx.1
  have l2 : Ln n y := hy.1
  have l3 : Ln n z := hz.1
  refine ⟨?_, mp_tr hx.2 hy.2 hz.2⟩
  show Ln n _
  unfold Ind.truerange
  lns

theorem sz_pdm {q : ℕ} (hx : Sz n x m) (hy : Sz n y k) : Sz n (Ind.pdm1 q x y) (max m k + q) := by
  have l1 : Ln n x := hx.1
  have l2 : Ln n y := hy.1
  refine ⟨?_, mp_pdm hx.2 hy.2⟩
  show Ln n _
  unfold Ind.pdm1 Ind.dmMoves
  simp only []
  lns

theorem sz_mdm {q : ℕ} (hx : Sz n x m) (hy : Sz n y k) : Sz n (Ind.mdm1 q x y) (max m k + q) := by
  have l1 : Ln n x := hx.1
  have l2 : Ln n y := hy.1
  refine ⟨?_, mp_mdm hx.2 hy.2⟩
  show Ln n _
  unfold Ind.mdm1 Ind.dmMoves
  simp only []
  lns

variable {sm : Line V → Except Err (Line V)} {q : ℕ} {t : Bool}

theorem se_plusDm (hs : Takes n 2 e b sm) (hq : 1 ≤ q) (hx : Sz n x m) (hy : Sz n y k) :
    SE n (Sz n · (max m k + q + e)) (b (max m k + q)) (Ind.plusDm sm q x y) :=
  hs _ _ (by have := hx.2.2; omega) (sz_pdm hx hy)

theorem se_minusDm (hs : Takes n 2 e b sm) (hq : 1 ≤ q) (hx : Sz n x m) (hy : Sz n y k) :
    SE n (Sz n · (max m k + q + e)) (b (max m k + q)) (Ind.minusDm sm q x y) :=
  hs _ _ (by have := hx.2.2; omega) (sz_mdm hx hy)

theorem se_diTrp (hs : Takes n 2 e b sm) (hq : 1 ≤ q) (hx : Sz n x m) (hy : Sz n y k) (hz : Sz n z l) :
    SE n (fun r => r.first.series.length = n) (b (max (max m k) (l + q))) (Ind.diTrp sm q t x y z) := by
  unfold Ind.diTrp
  exact SE.at ((hs _ _ (by have := hz.2.2; omega) (sz_tr hx hy hz)).bind fun r h => SE.pure (by
    cases t
    · exact h.1
    · exact h.1)) (by omega)

/-- the bars of the two averages behind the directional indicators -/
def diB (b : ℕ → ℕ) (m k l q : ℕ) : ℕ := max (b (max m k + q)) (b (max (max m k) (l + q)))

theorem ln_holder {d : Line V} {h : Holder V} {f : V → V → V} (hd : Ln n d) (hh : h.first.series.length = n) :
    Ln n (d.op f nan (.holder h)) := by
  show Ln n (Line.binop f nan d ⟨h.first.series, h.minperiod⟩)
  exact hd.binop hh

theorem se_plusDi (hs : Takes n 2 e b sm) (ha : Adds2 e sm) (hq : 1 ≤ q) (hx : Sz n x m) (hy : Sz n y k) (hz : Sz n z l) :
    SE n (Sz n · (max (max m k + q) (max (max m k) (l + q) + 1) + e)) (diB b m k l q) (Ind.plusDi sm q t x y z) := by
  refine SE.sz ?_ (mp_plusDi ha hq hx.2 hy.2 hz.2)
  unfold Ind.plusDi
  exact SE.at ((se_plusDm hs hq hx hy).bind fun d h => (se_diTrp hs hq hx hy hz).bind fun r g => SE.pure
    (ln_holder (Ln.rmulS h.1) g)) (by unfold diB; omega)

theorem se_minusDi (hs : Takes n 2 e b sm) (ha : Adds2 e sm) (hq : 1 ≤ q) (hx : Sz n x m) (hy : Sz n y k) (hz : Sz n z l) :
    SE n (Sz n · (max (max m k + q) (max (max m k) (l + q) + 1) + e)) (diB b m k l q) (Ind.minusDi sm q t x y z) := by
  refine SE.sz ?_ (mp_minusDi ha hq hx.2 hy.2 hz.2)
  unfold Ind.minusDi
  exact SE.at ((se_minusDm hs hq hx hy).bind fun d h => (se_diTrp hs hq hx hy hz).bind fun r g => SE.pure
    (ln_holder (Ln.rmulS h.1) g)) (by unfold diB; omega)

theorem se_dx (hs : Takes n 2 e b sm) (ha : Adds2 e sm) (hq : 1 ≤ q) (hx : Sz n x m) (hy : Sz n y k) (hz : Sz n z l) :
    SE n (Sz n · (max (max m k + q) (max (max m k) (l + q) + 1) + e)) (diB b m k l q) (Ind.dx sm q t x y z) := by
  unfold Ind.dx
  refine SE.at ((se_plusDi hs ha hq hx hy hz).bind fun d h => (se_minusDi hs ha hq hx hy hz).bind fun r g => SE.pure ?_)
    (by omega)
  have l1 : Ln n d := h.1
  have l2 : Ln n r := g.1
  have m1 := h.2
  have m2 := g.2
  exact ⟨by show Ln n _; lns, by mpc⟩

theorem sz_ad {w : Line V} {j : ℕ} (hx : Sz n x m) (hy : Sz n y k) (hz : Sz n z l) (hw : Sz n w j) :
    Sz n (Ind.ad x y z w) (max (max (max m k) l) j) := by
  have l1 : Ln n x := hx.1
  have l2 : Ln n y := hy.1
  have l3 : Ln n z := hz.1
  have l4 : Ln n w := hw.1
  have m1 := hx.2
  have m2 := hy.2
  have m3 := hz.2
  have m4 := hw.2
  unfold Ind.ad
  simp only []
  exact ⟨by show Ln n _; lns, by mpc⟩

theorem se_sar {f : List (V × V) → Except Err (List V)} (hf : SarLike f) (hx : Sz n x m) (hy : Sz n y k) :
    SE n Any (max m k + 1) (Ind.applySar f x y) := by
  have h2 := hx.2.2
  unfold Ind.applySar
  simp only []
  rw [hx.2.1, hy.2.1]
  have e : max (m : Int) (k : Int) = ((max m k : ℕ) : Int) := by push_cast; rfl
  rw [e]
  have hm1 : 1 ≤ max m k := by omega
  generalize max m k = M at *
  have hl : (List.zip (pyFrom x.series ((M : Int) - 1)) (pyFrom y.series ((M : Int) - 1))).length = n - (M - 1) := by
    rw [List.length_zip, pyFrom_length, pyFrom_length, hx.1, hy.1, pyStart_pred _ hm1]; omega
  generalize List.zip (pyFrom x.series ((M : Int) - 1)) (pyFrom y.series ((M : Int) - 1)) = w at *
  obtain ⟨G, hG, hsc⟩ := hf.scan
  constructor
  · intro hn
    match w with
    | [] => simp at hl; omega
    | [_] => simp at hl; omega
    | u :: v :: xs => rw [hsc]; exact ⟨_, rfl, trivial⟩
  · intro hn
    rw [hf.short _ (by omega)]

theorem Ln.apply {g : List V → List V} (hg : ∀ xs, (g xs).length = xs.length) {fill : V} (h : Ln n a) :
    Ln n (Line.apply g fill a) := (apply_length hg).trans h

theorem pyFill_len {xs : List V} {i j : Int} {v : V} : (pyFill xs i j v).length = xs.length := by
  have h : ∀ i, pyStart xs.length i ≤ xs.length := fun i => by unfold pyStart; split <;> omega
  have h1 := h i
  have h2 := h j
  unfold pyFill
  simp only [List.length_append, List.length_take, List.length_replicate, List.length_drop]
  omega

theorem Ln.period {j : Int} {v : Option V} (h : Ln n a) : Ln n (Line.period j v a) := by
  unfold Ln Line.period at *
  split
  · exact h
  · cases v
    · exact h
    · simp only
      split <;> rw [pyFill_len] <;> exact h

theorem Ln.map {f : V → V} (h : Ln n a) : Ln n (mapOp f a) := by
  unfold mapOp
  exact h.stdop (by simp)

theorem sz_htSmooth (h : Sz n a m) : Sz n (Ind.htSmooth a) (m + 6) := by
  refine ⟨?_, mp_htSmooth h.2⟩
  have hl : Ln n a := h.1
  show Ln n _
  unfold Ind.htSmooth
  refine Ln.period (Ln.divS ?_)
  have h2 : Ln n (ago (-2) a) := Ln.agoN (q := 2) hl
  have h3 : Ln n (ago (-3) a) := Ln.agoN (q := 3) hl
  lns

theorem se_mama {never : ℕ} {F : HtFns V} {at' : V → V} {f s : V} (hn : n < never) (h : Sz n a m) :
    SE n Any (if m = 1 then 12 else never) (Ind.mama F at' f s a) := by
  unfold Ind.mama
  simp only []
  have hi : ∀ out : Ind.HtSt V → V, Sz n (Line.apply (fun price => Ind.htBuf 6 price.length (Ind.htStep F (Ind.htZero 6 price)) out
    Ind.HtSt.init) nan (Ind.htSmooth a)) (m + 6) := fun out =>
      ⟨Ln.apply (fun xs => htBuf_length) (sz_htSmooth h).1, (mp_htSmooth h.2).apply⟩
  have hnum : Sz n (Ind.maskL (Line.period 6 none (Line.apply (fun price => Ind.htBuf 6 price.length (Ind.htStep F (Ind.htZero 6 price))
      (fun s => Ind.htAt s.q1 6) Ind.HtSt.init) nan (Ind.htSmooth a))) (binopS (fun x c => eqv x c) true
      (Line.apply (fun price => Ind.htBuf 6 price.length (Ind.htStep F (Ind.htZero 6 price)) (fun s => Ind.htAt s.i1 6)
        Ind.HtSt.init) nan (Ind.htSmooth a)) (lit 0))) (m + 12) :=
    ⟨Ln.stdop2 (CausalL2.zipWith _) (Ln.period (hi _).1) (Ln.binopS (hi _).1),
      ((Mp.up (j := 6) (hi _).2).stdop2 (hi _).2.binopS).congr (by omega)⟩
  have hdiv := hi fun s => Ind.htAt s.i1 6
  clear hi
  generalize (Ind.maskL _ _ : Line V) = num at hnum ⊢
  generalize (Line.apply _ _ _ : Line V) = i1 at hdiv ⊢
  have hp := ((hnum.2.div hdiv.2).map (f := at')).map (f := fun x => if isNaN x then lit 0 else x)
    |>.rmulS (c := F.rad2deg) |>.down (v := some (lit 0)) (by omega)
  have hal := (((hp.ago1.sub hp).clipLoS (c := lit 1)).rdivS (c := f)).clipLoS (c := s)
  have lp : Ln n (Line.period (-1) (some (lit 0)) (rmulS F.rad2deg (mapOp (fun x => if isNaN x then lit 0 else x)
      (mapOp at' (num / i1))))) := Ln.period (Ln.rmulS (Ln.map (Ln.map (Ln.div hnum.1 hdiv.1))))
  have la : Ln n ((rdivS f ((ago (-1) (Line.period (-1) (some (lit 0)) (rmulS F.rad2deg (mapOp (fun x => if isNaN x then lit 0 else x)
      (mapOp at' (num / i1))))) - Line.period (-1) (some (lit 0)) (rmulS F.rad2deg (mapOp (fun x => if isNaN x then lit 0 else x)
      (mapOp at' (num / i1))))).clipLoS (lit 1))).clipLoS s) := by lns
  have hsz : Sz n _ (m + 12) := ⟨la, hal.congr (by omega)⟩
  generalize (Line.clipLoS _ s : Line V) = al at hsz ⊢
  have first : SE n (Sz n · (m + 12)) (if m = 1 then m + 12 - 1 else never) (ewmDyn { pval := 1, seed := .zero } al a) :=
    se_dyn (pval := 1) (seed := .zero) (A := m + 12) hn h hsz (by omega) (by omega)
  by_cases h1 : m = 1
  · subst h1
    simp only [if_true] at first ⊢
    refine SE.at (first.bind (b' := 12) fun r hr => ?_) (by omega)
    have hs : Sz n (al.mulS (lit (1 / 2))) 13 := ⟨Ln.mulS hsz.1, hsz.2.mulS⟩
    refine SE.at ((dyn_takes (pval := 0) (seed := .zero) (P2 := 12) (b := 12) (A := 13) ?_ (by omega) hr hs (by omega) (by omega)
      fun _ => ?_).bind fun g hg => SE.pure trivial) (by omega)
    · rw [hr.2.1, hs.2.1]
      rfl
    · exact hr.2.dyn (c := { pval := 0, seed := .zero }) hs.2 (by simp) (by omega)
  · rw [if_neg h1] at first ⊢
    exact ⟨fun h => by omega, fun h => by rw [first.2 h]; rfl⟩

set_option maxHeartbeats 1000000 in
theorem Call.takes {never : ℕ} (hn : n < never) (c : Call V) (hk : c.Periods) (ho : ¬ Spec.OtherReasons c)
    (x : ℕ → Line V) (m : ℕ → ℕ) (hx : ∀ k, Sz n (x k) (m k)) : SE n Any (Spec.bars never m c) (c.run x) := by
  have h0 := hx 0
  have h1 := hx 1
  have h2 := hx 2
  have h3 := hx 3
  have av : ∀ {A : Avg V} {p : ℕ}, A.Periods 1 p →
      Takes n 1 (Spec.more A p) (Spec.avgBars never A p) (A.run p) :=
    fun hm a m _ h => Avg.takes hn _ 1 _ _ a hm h.2.2 h
  have sm : ∀ {A : Avg V} {p : ℕ}, A.Periods 2 p →
      Takes n 2 (Spec.more A p) (Spec.avgBars never A p) (A.run p) :=
    fun hm a m h2 h => Avg.takes hn _ 2 _ _ a hm h2 h
  have sd : ∀ {A : Avg V} {p : ℕ}, A.Periods 2 p → Adds2 (Spec.more A p) (A.run p) :=
    fun hm a m h2 h => Avg.mp _ 2 _ _ a hm h2 h
  cases c with
  | avg A p => exact se_oneE (av hk _ _ h0.2.2 h0)
  | macd mf ma ms pf ps pg =>
    refine se_threeE (P := Any) ?_
    unfold Ind.macd
    refine SE.at ((av hk.1 _ _ h0.2.2 h0).bind fun a ha =>
      (av hk.2.1 _ _ h0.2.2 h0).bind fun b hb =>
      (av hk.2.2 _ (m 0 + Max.max (Spec.more mf pf) (Spec.more ma ps))
        (by have := h0.2.2; omega) ⟨Ln.sub ha.1 hb.1, (ha.2.sub hb.2).congr (by omega)⟩).bind fun s hs => SE.pure trivial) ?_
    simp only [Spec.bars]
    omega
  | apo ma pf ps =>
    refine se_oneE (P := Any) ?_
    unfold Ind.apo
    exact SE.at ((se_posc (av hk.1) (av hk.2) h0).bind fun r _ => SE.pure trivial) (by simp only [Spec.bars]; omega)
  | ppo fast ma ms pf ps pg =>
    refine se_threeE (P := Any) ?_
    unfold Ind.ppo
    refine SE.at ((se_posc (av hk.1) (av hk.2.1) h0).bind (b' := Spec.avgBars never ms pg (m 0 + Max.max (Spec.more ma pf)
      (Spec.more ma ps))) ?_) (by simp only [Spec.bars])
    rintro ⟨a, b⟩ h
    exact SE.at ((av hk.2.2 _ _ (by have := h0.2.2; omega)
      ⟨(Ln.subS h.1).rmulS, (Mp.subS (c := lit 1) h.2).rmulS (c := lit 100)⟩).bind fun s hs => SE.pure trivial) (by omega)
  | rsi ma lb p => exact se_oneE (se_rsi (av hk) h0)
  | cmo sum p =>
    refine se_oneE (P := Any) ?_
    unfold Ind.cmo
    have l0 : Ln n (x 0) := h0.1
    refine SE.at ((av hk _ (m 0 + 1) (by omega) ⟨l0.diff.clipLoS, (h0.2.diff (q := 1)).clipLoS⟩).bind fun u g1 =>
      (av hk _ (m 0 + 1) (by omega) ⟨l0.diff.clipHiS.abs, (h0.2.diff (q := 1)).clipHiS.abs⟩).bind fun d g2 =>
      SE.pure trivial) (by simp only [Spec.bars]; omega)
  | cci ma f p =>
    refine se_oneE (P := Any) ?_
    unfold Ind.cci
    have l0 : Ln n (x 0) := h0.1
    refine SE.at ((av hk.1 _ (Spec.max3 m) (by have := h0.2.2; unfold Spec.max3 Spec.max2; omega)
      ⟨((l0.add h1.1).add h2.1).divS, ((h0.2.add h1.2).add h2.2).divS⟩).bind fun u g1 => SE.pure trivial)
      (by simp only [Spec.bars]; omega)
  | bbands sq ma d p =>
    refine se_threeE (P := Any) ?_
    unfold Ind.bbands
    exact SE.at ((av hk.1 _ _ h0.2.2 h0).bind fun u g1 => SE.pure trivial)
      (by simp only [Spec.bars]; omega)
  | stochf ma p pf => exact se_twoE (se_stochf hk.1 (av hk.2) h0 h1 h2)
  | stochastic ma ms p pf ps =>
    refine se_twoE (P := Any) ?_
    unfold Ind.stochastic
    refine SE.at ((se_stochf hk.1 (av hk.2.1) h0 h1 h2).bind
      (b' := Spec.avgBars never ms ps (Spec.kBars m p + Spec.more ma pf)) ?_) (by simp only [Spec.bars]; rfl)
    rintro ⟨a, b⟩ hb
    exact SE.at ((av hk.2.2 _ _ hb.2.2 hb).bind fun s hs => SE.pure trivial) (by
      unfold Spec.kBars Spec.max2; omega)
  | stochrsi p ph s => exact se_oneE (se_stochrsi hk.1 hk.2 h0)
  | stochrsiD ma p ph pf s =>
    refine se_twoE (P := Any) ?_
    unfold Ind.stochrsiD
    exact SE.at ((se_stochrsi hk.1 hk.2.1 h0).bind fun k g =>
      (av hk.2.2 _ _ g.2.2 g).bind fun d g2 => SE.pure trivial) (by
      simp only [Spec.bars]; omega)
  | atr ma q p => exact se_oneE (av hk _ _ (sz_tr h0 h1 h2).2.2 (sz_tr h0 h1 h2))
  | natr ma q p =>
    refine se_oneE (P := Any) ?_
    unfold Ind.natr Ind.atr
    exact SE.at ((av hk _ _ (sz_tr h0 h1 h2).2.2 (sz_tr h0 h1 h2)).bind fun r g =>
      SE.pure trivial) (by simp only [Spec.bars, Spec.trBars, Spec.max2]; omega)
  | adosc ma pf ps =>
    refine se_oneE (P := Any) ?_
    unfold Ind.adosc
    have ha := sz_ad h0 h1 h2 h3
    exact SE.at ((av hk.1 _ _ ha.2.2 ha).bind fun r g => (av hk.2 _ _ ha.2.2 ha).bind fun s g2 => SE.pure trivial) (by
      simp only [Spec.bars, Spec.max4, Spec.max3, Spec.max2]; omega)
  | plusDm s ps q => exact se_oneE (se_plusDm (sm hk.2) hk.1 h0 h1)
  | minusDm s ps q => exact se_oneE (se_minusDm (sm hk.2) hk.1 h0 h1)
  | dm s ps q =>
    refine se_twoE (P := Any) ?_
    unfold Ind.dm
    have hsm := sm hk.2
    exact SE.at ((se_plusDm hsm hk.1 h0 h1).bind fun d g => (se_minusDm hsm hk.1 h0 h1).bind fun e g2 => SE.pure trivial) (by
      simp only [Spec.bars, Spec.max2]; omega)
  | plusDi s ps q t => exact se_oneE (se_plusDi (sm hk.2) (sd hk.2) hk.1 h0 h1 h2)
  | minusDi s ps q t => exact se_oneE (se_minusDi (sm hk.2) (sd hk.2) hk.1 h0 h1 h2)
  | di s ps q t =>
    refine se_twoE (P := Any) ?_
    unfold Ind.di
    have hsm := sm hk.2
    exact SE.at ((se_plusDi hsm (sd hk.2) hk.1 h0 h1 h2).bind fun d g => (se_minusDi hsm (sd hk.2) hk.1 h0 h1 h2).bind
      fun e g2 => SE.pure trivial) (by simp only [Spec.bars, diB, Spec.trBars, Spec.max2]; omega)
  | dx s ps q t => exact se_oneE (se_dx (sm hk.2) (sd hk.2) hk.1 h0 h1 h2)
  | adx s ma ps q t p =>
    refine se_oneE (P := Any) ?_
    unfold Ind.adx
    refine SE.at ((se_dx (sm hk.2.1) (sd hk.2.1) hk.1 h0 h1 h2).bind fun d g =>
      (av hk.2.2 _ _ g.2.2 g).mono fun _ _ => trivial) ?_
    simp only [Spec.bars, diB, Spec.trBars, Spec.max2, Spec.diBars]
  | adxr s ma ps q t p pa =>
    refine se_oneE (P := Any) ?_
    unfold Ind.adxr Ind.adx
    refine SE.at (SE.bind (Q := Any) ((se_dx (sm hk.2.1) (sd hk.2.1) hk.1 h0 h1 h2).bind
      fun d g => (av hk.2.2.1 _ _ g.2.2 g).mono fun _ _ => trivial)
      fun _ _ => SE.pure trivial) ?_
    simp only [Spec.bars, diB, Spec.trBars, Spec.max2, Spec.diBars]
    omega
  | sar af am => exact se_oneE (se_sar (sarLike_sar _ _) h0 h1)
  | sarext P => exact se_oneE (se_sar (sarLike_sarext _) h0 h1)
  | crossover s => exact absurd trivial ho
  | htDcphase F => exact absurd trivial ho
  | htSine F => exact absurd trivial ho
  | htTrendline F => exact absurd trivial ho
  | htTrendmode F => exact absurd trivial ho
  | mama F a f s => exact se_twoE (se_mama hn h0)
  | minmaxindex b p => cases b <;> exact SE.ok trivial
  | _ => first | exact se_one _ | exact SE.ok trivial

end
end Bta
