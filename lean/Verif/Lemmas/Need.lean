import Verif.Spec.Need
import Verif.Lemmas.Rel

/-!
# Minimum periods of the operations and indicators
-/

set_option linter.unusedSectionVars false
set_option linter.unusedVariables false

namespace Bta
open Line

variable {V : Type} [PyFloat V]

/-- the minimum period is `m ≥ 1` -/
def Mp {β : Type} (l : Line β) (m : ℕ) : Prop := l.minperiod = m ∧ 1 ≤ m

/-- if the calculation gives a result, it has the property -/
def PE {α : Type} (P : α → Prop) (x : Except Err α) : Prop := ∀ r, x = .ok r → P r

theorem PE.bind {α β : Type} {Q : α → Prop} {P : β → Prop} {x : Except Err α} {f : α → Except Err β} (h : PE Q x)
    (hf : ∀ r, Q r → PE P (f r)) : PE P (x >>= f) := by
  intro r hr
  cases hx : x with
  | error e => rw [hx] at hr; cases hr
  | ok l => rw [hx] at hr; exact hf l (h l hx) r hr

theorem PE.pure {α : Type} {P : α → Prop} {r : α} (h : P r) : PE P (Pure.pure r : Except Err α) := by
  intro s hs
  injection hs with hs
  exact hs ▸ h

theorem PE.ok {α : Type} {P : α → Prop} {r : α} (h : P r) : PE P (.ok r : Except Err α) := PE.pure h

theorem PE.mono {α : Type} {P Q : α → Prop} {x : Except Err α} (h : PE P x) (hq : ∀ r, P r → Q r) : PE Q x :=
  fun r hr => hq r (h r hr)

namespace Mp
variable {α β γ : Type} {m k : ℕ}

theorem congr {l : Line β} {m'} (h : Mp l m) (e : m = m') : Mp l m' := e ▸ h

theorem mk' {s : Line β} {r : List γ} {i : Int} (h : i = m) (h1 : 1 ≤ m) : Mp (clone s r i) m := by
  subst h
  refine ⟨?_, h1⟩
  unfold clone
  simp only
  rw [if_neg (by omega)]

theorem binop {f : α → β → γ} {fill : γ} {a : Line α} {b : Line β} (h : Mp a m) (g : Mp b k) :
    Mp (Line.binop f fill a b) (max m k) := by
  unfold Line.binop
  exact mk' (by rw [h.1, g.1]; push_cast; rfl) (by have := h.2; omega)

theorem binopS {f : α → β → γ} {fill : γ} {a : Line α} {c : β} (h : Mp a m) : Mp (Line.binopS f fill a c) m := by
  unfold Line.binopS
  exact mk' (by rw [h.1]; have := h.2; omega) h.2

theorem stdop {g : List α → List γ} {fill : γ} {inc : ℕ} {a : Line α} (h : Mp a m) :
    Mp (Line.stdop g fill inc a) (m + inc) := by
  have hc : Mp (clone a (setFrom a.series.length fill (a.minperiod - 1) (g (pyFrom a.series (a.minperiod - 1)))) a.minperiod)
      m := mk' h.1 h.2
  refine ⟨?_, by have := h.2; omega⟩
  unfold Line.stdop
  simp only [hc.1]
  push_cast
  rfl

theorem stdop2 {g : List α → List β → List γ} {fill : γ} {a : Line α} {b : Line β} (h : Mp a m) (h' : Mp b k) :
    Mp (Line.stdop2 g fill a b) (max m k) := by
  unfold Line.stdop2
  exact mk' (by rw [h.1, h'.1]; push_cast; rfl) (by have := h.2; omega)

variable {a b : Line V} {x y : Line Bool}

theorem add (h : Mp a m) (g : Mp b k) : Mp (a + b) (max m k) := h.binop g
theorem sub (h : Mp a m) (g : Mp b k) : Mp (a - b) (max m k) := h.binop g
theorem mul (h : Mp a m) (g : Mp b k) : Mp (a * b) (max m k) := h.binop g
theorem div (h : Mp a m) (g : Mp b k) : Mp (a / b) (max m k) := h.binop g
theorem addS {c : V} (h : Mp a m) : Mp (a.addS c) m := h.binopS
theorem raddS {c : V} (h : Mp a m) : Mp (Line.raddS c a) m := by
  unfold Line.raddS Line.binS; exact h.binopS
theorem subS {c : V} (h : Mp a m) : Mp (a.subS c) m := h.binopS
theorem rsubS {c : V} (h : Mp a m) : Mp (Line.rsubS c a) m := by
  unfold Line.rsubS Line.binS; exact h.binopS
theorem mulS {c : V} (h : Mp a m) : Mp (a.mulS c) m := h.binopS
theorem rmulS {c : V} (h : Mp a m) : Mp (Line.rmulS c a) m := by
  unfold Line.rmulS Line.binS; exact h.binopS
theorem divS {c : V} (h : Mp a m) : Mp (a.divS c) m := h.binopS
theorem rdivS {c : V} (h : Mp a m) : Mp (Line.rdivS c a) m := by
  unfold Line.rdivS Line.binS; exact h.binopS
theorem ltL (h : Mp a m) (g : Mp b k) : Mp (Line.ltL a b) (max m k) := h.binop g
theorem gtL (h : Mp a m) (g : Mp b k) : Mp (Line.gtL a b) (max m k) := h.binop g
theorem ltS {c : V} (h : Mp a m) : Mp (Line.ltS a c) m := h.binopS
theorem gtS {c : V} (h : Mp a m) : Mp (Line.gtS a c) m := by
  unfold Line.gtS Line.cmpS; exact h.binopS
theorem andL (h : Mp x m) (g : Mp y k) : Mp (Line.andL x y) (max m k) := h.binop g
theorem mulB (h : Mp a m) (g : Mp y k) : Mp (Line.mulB a y) (max m k) := h.binop g
theorem rmulSB {c : V} (h : Mp x m) : Mp (Line.rmulSB c x) m := h.binopS
theorem map {f : V → V} (h : Mp a m) : Mp (Line.mapOp f a) m := h.stdop (inc := 0)
theorem abs (h : Mp a m) : Mp a.abs m := h.map
theorem clipLoS {c : V} (h : Mp a m) : Mp (a.clipLoS c) m := h.map
theorem clipHiS {c : V} (h : Mp a m) : Mp (a.clipHiS c) m := h.map
theorem clipLoL (h : Mp a m) (g : Mp b k) : Mp (Line.clipLoL a b) (max m k) := h.stdop2 g
theorem clipHiL (h : Mp a m) (g : Mp b k) : Mp (Line.clipHiL a b) (max m k) := h.stdop2 g
theorem shift {q : ℕ} (h : Mp a m) : Mp (Line.shift q a) (m + q) := h.stdop
theorem diff {q : ℕ} (h : Mp a m) : Mp (Line.diff q a) (m + q) := h.stdop
theorem agoN {q : ℕ} (h : Mp a m) : Mp (ago (-(q : Int)) a) (m + q) := by
  unfold ago
  by_cases hq : (-(q : Int)) = 0
  · rw [if_pos hq]
    have : q = 0 := by omega
    subst this
    exact ⟨by simp [clone, h.1], h.2⟩
  · rw [if_neg hq, neg_neg]; exact h.shift
theorem ago1 (h : Mp a m) : Mp (ago (-1) a) (m + 1) := agoN (q := 1) h
theorem ago2 (h : Mp a m) : Mp (ago (-2) a) (m + 2) := agoN (q := 2) h
theorem ago3 (h : Mp a m) : Mp (ago (-3) a) (m + 3) := agoN (q := 3) h
theorem cumsum (h : Mp a m) : Mp a.cumsum m := h.stdop (inc := 0)
theorem pct {q : ℕ} (h : Mp a m) : Mp (pctChange q a) (m + q) := h.stdop
theorem rolling {w : ℕ} {agg : List V → V} (hw : 1 ≤ w) (h : Mp a m) : Mp (Line.rolling w agg a) (m + (w - 1)) := by
  unfold Line.rolling
  exact mk' (by rw [h.1]; have := h.2; omega) (by have := h.2; omega)
theorem rolling2 {w : ℕ} {agg : List (V × V) → V} (hw : 1 ≤ w) (h : Mp a m) :
    Mp (Line.rolling2 w agg a b) (m + (w - 1)) := by
  unfold Line.rolling2
  exact mk' (by rw [h.1]; have := h.2; omega) (by have := h.2; omega)
theorem highest {p : ℕ} (hp : 1 ≤ p) (h : Mp a m) : Mp (Ind.highest p a) (m + (p - 1)) := h.rolling hp
theorem lowest {p : ℕ} (hp : 1 ≤ p) (h : Mp a m) : Mp (Ind.lowest p a) (m + (p - 1)) := h.rolling hp
theorem sumN {p : ℕ} (hp : 1 ≤ p) (h : Mp a m) : Mp (Ind.sumN p a) (m + (p - 1)) := h.rolling hp
theorem mad {p : ℕ} (hp : 1 ≤ p) (h : Mp a m) : Mp (Ind.mad p a) (m + (p - 1)) := h.rolling hp
theorem up {j : ℕ} {v : Option V} (h : Mp a m) : Mp (Line.period j v a) (m + j) := by
  unfold Line.period
  split
  · next h0 => exact h.congr (by omega)
  · exact ⟨by simp only [h.1]; push_cast; rfl, by have := h.2; omega⟩
theorem down {v : Option V} (h : Mp a m) (h2 : 2 ≤ m) : Mp (Line.period (-1) v a) (m - 1) := by
  unfold Line.period
  rw [if_neg (by omega)]
  exact ⟨by simp only [h.1]; omega, by omega⟩
theorem apply {g : List V → List V} (h : Mp a m) : Mp (Line.apply g nan a) m :=
  ⟨by rw [mp_clone_apply]; exact h.1, h.2⟩

theorem ewm {c : EwmCfg} {op : List V → Except Err (List V)} {i : ℕ} (h : Mp a m)
    (hi : max ((m : Int) + (c.pval - c.pearly - 1)) c.alphaP = i) (h1 : 1 ≤ i) :
    PE (Mp · i) (match ewmNew c a with | .error e => .error e | .ok o => ewmCall c a o op) := by
  intro r hr
  split at hr
  · cases hr
  · unfold ewmCall at hr
    simp only at hr
    split at hr
    · cases hr
    · split at hr
      · injection hr with hr
        rw [← hr]
        exact mk' (by rw [h.1]; exact hi) h1
      · cases hr

theorem dyn {c : EwmCfg} {al : Line V} {k : ℕ} {i : ℕ} (h : Mp a m) (g : Mp al k)
    (hi : max ((m : Int) + (c.pval - c.pearly - 1)) k = i) (h1 : 1 ≤ i) : PE (Mp · i) (ewmDyn c al a) := by
  unfold ewmDyn
  exact h.ewm (c := { c with alphaP := al.minperiod }) (by simp only [g.1]; exact hi) h1

end Mp

/-- finds the minimum period of an expression from those of the operands -/
macro "mps" : tactic => `(tactic| repeat' first
  | assumption
  | with_reducible apply Mp.add | with_reducible apply Mp.sub | with_reducible apply Mp.mul
  | with_reducible apply Mp.div | with_reducible apply Mp.addS | with_reducible apply Mp.raddS
  | with_reducible apply Mp.subS | with_reducible apply Mp.rsubS | with_reducible apply Mp.mulS
  | with_reducible apply Mp.rmulS | with_reducible apply Mp.divS | with_reducible apply Mp.rdivS
  | with_reducible apply Mp.ltL | with_reducible apply Mp.gtL | with_reducible apply Mp.ltS
  | with_reducible apply Mp.gtS | with_reducible apply Mp.andL | with_reducible apply Mp.mulB
  | with_reducible apply Mp.rmulSB | with_reducible apply Mp.abs | with_reducible apply Mp.clipLoS
  | with_reducible apply Mp.clipHiS | with_reducible apply Mp.clipLoL | with_reducible apply Mp.clipHiL
  | with_reducible apply Mp.ago1 | with_reducible apply Mp.ago2 | with_reducible apply Mp.ago3
  | with_reducible apply Mp.agoN | with_reducible apply Mp.cumsum | with_reducible apply Mp.pct
  | with_reducible apply Mp.highest | with_reducible apply Mp.lowest | with_reducible apply Mp.sumN
  | with_reducible apply Mp.mad
  | with_reducible apply Mp.diff | with_reducible apply Mp.rolling | with_reducible apply Mp.rolling2
  | with_reducible apply Mp.map | with_reducible apply Mp.apply)

/-- as `mps`, for a given number -/
macro "mpc" : tactic => `(tactic| (apply Mp.congr; (· mps); (try omega)))

section avg
variable {a : Line V} {m p : ℕ}

theorem mp_ema {seed : Seed} {o : ℕ} (hp : 1 ≤ p) (h : Mp a m) : PE (Mp · (m + (p - 1))) (Ind.emaG seed o p a) :=
  h.ewm (c := { pval := p, poffset := o, seed := seed }) (by simp only; have := h.2; omega) (by have := h.2; omega)

theorem mp_smma {seed : Seed} (hp : 1 ≤ p) (h : Mp a m) : PE (Mp · (m + (p - 1))) (Ind.smmaG seed p a) :=
  h.ewm (c := { pval := p, seed := seed }) (by simp only; have := h.2; omega) (by have := h.2; omega)

theorem mp_sma (hp : 1 ≤ p) (h : Mp a m) : PE (Mp · (m + (p - 1))) (Ind.sma p a) := PE.ok (h.rolling hp)

theorem mp_gdema {ma : MA V} {v : V} {e : ℕ} (hm : ∀ a m, Mp a m → PE (Mp · (m + e)) (ma p a)) (h : Mp a m) :
    PE (Mp · (m + 2 * e)) (Ind.gdema ma v p a) := by
  unfold Ind.gdema
  refine (hm _ _ h).bind fun e1 h1 => (hm _ _ h1).bind fun e2 h2 => PE.pure ?_
  mpc

theorem Avg.mp (A : Avg V) : ∀ (q p m : ℕ) (a : Line V), A.Periods q p → q ≤ m → Mp a m →
    PE (Mp · (m + Spec.more A p)) (A.run p a) := by
  induction A with
  | sma => intro q p m a hk hq h; exact mp_sma hk h
  | ema s o => intro q p m a hk hq h; exact mp_ema hk.1 h
  | smma s => intro q p m a hk hq h; exact mp_smma hk h
  | ewma adj =>
    intro q p m a hk hq h
    exact PE.ok (Mp.mk' (by rw [h.1]; have := h.2; have : 1 ≤ p := hk; simp only [Spec.more]; omega)
      (by have := h.2; omega))
  | wma => intro q p m a hk hq h; exact PE.ok (h.rolling hk).rmulS
  | sumN => intro q p m a hk hq h; exact PE.ok (h.sumN hk)
  | trima =>
    intro q p m a hk hq h
    have hk : 1 ≤ p := hk
    show PE _ (Ind.trima p a)
    unfold Ind.trima
    by_cases ho : p % 2 = 1
    · simp only [if_pos ho]
      exact (mp_sma (by omega) h).bind fun e h1 => (mp_sma (by omega) h1).mono fun r hr =>
        hr.congr (by simp only [Spec.more]; omega)
    · simp only [if_neg ho]
      exact (mp_sma (by omega) h).bind fun e h1 => (mp_sma (by omega) h1).mono fun r hr =>
        hr.congr (by simp only [Spec.more]; omega)
  | dema A ih =>
    intro q p m a hk hq h
    have hm := fun a m h => ih 1 p m a hk h.2 h
    refine (hm _ _ h).bind fun e1 h1 => (hm _ _ h1).bind fun e2 h2 => PE.pure ?_
    simp only [Spec.more]
    mpc
  | tema A ih =>
    intro q p m a hk hq h
    have hm := fun a m h => ih 1 p m a hk h.2 h
    refine (hm _ _ h).bind fun e1 h1 => (hm _ _ h1).bind fun e2 h2 => (hm _ _ h2).bind fun e3 h3 => PE.pure ?_
    simp only [Spec.more]
    mpc
  | trix A ih =>
    intro q p m a hk hq h
    have hm := fun a m h => ih 1 p m a hk h.2 h
    refine (hm _ _ h).bind fun e1 h1 => (hm _ _ h1).bind fun e2 h2 => (hm _ _ h2).bind fun e3 h3 => PE.pure ?_
    simp only [Spec.more]
    mpc
  | gdema A v ih =>
    intro q p m a hk hq h
    exact mp_gdema (fun a m h => ih 1 p m a hk h.2 h) h
  | t3 v =>
    intro q p m a hk hq h
    have hm : ∀ (a : Line V) m, Mp a m → PE (Mp · (m + (p - 1))) (Ind.ema p a) := fun a m h => mp_ema hk h
    refine (hm _ _ h).bind fun e1 h1 => (hm _ _ h1).bind fun e2 h2 => (hm _ _ h2).bind fun e3 h3 =>
      (hm _ _ h3).bind fun e4 h4 => (hm _ _ h4).bind fun e5 h5 => (hm _ _ h5).bind fun e6 h6 => PE.pure ?_
    simp only [Spec.more]
    mpc
  | t3gd A v ih =>
    intro q p m a hk hq h
    have hm := fun a m (h : Mp a m) => mp_gdema (v := v) (fun a m h => ih 1 p m a hk h.2 h) h
    refine (hm _ _ h).bind fun e1 h1 => (hm _ _ h1).bind fun e2 h2 => (hm _ _ h2).mono fun r hr => hr.congr ?_
    simp only [Spec.more]
    omega
  | kama f s pv sd =>
    intro q p m a hk hq h
    have hk : 1 ≤ p := hk
    have := h.2
    refine Mp.dyn (k := m + max p (p - 1 + pv)) h ?_ (by simp only [Spec.more]; omega) (by omega)
    mpc
  | smacc sp e sd =>
    intro q p m a hk hq h
    have := h.2
    have h1 := hk.1
    have h2 := hk.2
    refine h.ewm (c := { pval := p, pearly := if e then 1 else 0, seed := sd }) ?_ (by omega)
    simp only [Spec.more]
    cases e
    · simp only [Bool.false_eq_true, if_false]; omega
    · have := h2 rfl
      simp only [if_true]; omega

end avg

section calls
variable {a x y z : Line V} {m k l n : ℕ}

theorem mp_one (h : Mp a m) : PE (List.Forall₂ Mp · [m]) (Bta.one a) := PE.ok (.cons h .nil)

theorem mp_oneE {r : Except Err (Line V)} (h : PE (Mp · m) r) : PE (List.Forall₂ Mp · [m]) (Bta.oneE r) :=
  h.bind fun _ g => PE.pure (.cons g .nil)

theorem mp_pair (h : Mp x m) (g : Mp y k) : PE (List.Forall₂ Mp · [m, k]) (.ok [x, y] : Except Err _) :=
  PE.ok (.cons h (.cons g .nil))

theorem mp_twoE {r : Except Err (Line V × Line V)} (h : PE (fun r => Mp r.1 m ∧ Mp r.2 k) r) :
    PE (List.Forall₂ Mp · [m, k]) (Bta.twoE r) :=
  h.bind fun _ g => PE.pure (.cons g.1 (.cons g.2 .nil))

theorem mp_threeE {r : Except Err (Line V × Line V × Line V)} (h : PE (fun r => Mp r.1 m ∧ Mp r.2.1 k ∧ Mp r.2.2 l) r) :
    PE (List.Forall₂ Mp · [m, k, l]) (Bta.threeE r) :=
  h.bind fun _ g => PE.pure (.cons g.1 (.cons g.2.1 (.cons g.2.2 .nil)))

/-- an average which adds `e` bars -/
def Adds (e : ℕ) (f : Line V → Except Err (Line V)) : Prop := ∀ a m, Mp a m → PE (Mp · (m + e)) (f a)

theorem mp_posc {ma : MA V} {pf ps e1 e2 : ℕ} {fast : Bool} (h1 : Adds e1 (ma pf)) (h2 : Adds e2 (ma ps)) (h : Mp a m) :
    PE (fun r => Mp (r.1 - r.2) (m + max e1 e2) ∧ Mp (r.1 / r.2) (m + max e1 e2)) (Ind.posc fast ma pf ps a) := by
  unfold Ind.posc
  refine (h1 _ _ h).bind fun r1 g1 => (h2 _ _ h).bind fun r2 g2 => PE.pure ?_
  cases fast
  · exact ⟨(g1.sub g2).congr (by omega), (g1.div g2).congr (by omega)⟩
  · exact ⟨(g2.sub g1).congr (by omega), (g2.div g1).congr (by omega)⟩

theorem mp_rsi {ma : MA V} {lb p e : ℕ} (h1 : Adds e (ma p)) (h : Mp a m) : PE (Mp · (m + lb + e)) (Ind.rsi ma lb p a) := by
  unfold Ind.rsi
  refine (h1 _ _ (h.diff.clipLoS)).bind fun u g1 => (h1 _ _ (h.diff.clipHiS.abs)).bind fun d g2 => PE.pure ?_
  mpc

theorem mp_stochrsi {p ph : ℕ} {sc : V} (hp : 1 ≤ p) (hh : 1 ≤ ph) (h : Mp a m) :
    PE (Mp · (m + p + (ph - 1))) (Ind.stochrsi p ph sc a) := by
  unfold Ind.stochrsi
  refine (mp_rsi (fun b m hb => mp_smma hp hb) h).bind fun r g => PE.pure ?_
  mpc

theorem mp_kBars {p : ℕ} (hp : 1 ≤ p) (hx : Mp x m) (hy : Mp y k) (hz : Mp z l) :
    Mp ((Line.rmulS (lit 100) (z - Ind.lowest p y)) / (Ind.highest p x - Ind.lowest p y)) (max (max m k + (p - 1)) l) := by
  mpc

theorem mp_stochf {ma : MA V} {p pf e : ℕ} (hp : 1 ≤ p) (h1 : Adds e (ma pf)) (hx : Mp x m) (hy : Mp y k) (hz : Mp z l) :
    PE (fun r => Mp r.1 (max (max m k + (p - 1)) l) ∧ Mp r.2 (max (max m k + (p - 1)) l + e)) (Ind.stochf ma p pf x y z) := by
  unfold Ind.stochf
  exact (h1 _ _ (mp_kBars hp hx hy hz)).bind fun d g => PE.pure ⟨mp_kBars hp hx hy hz, g⟩

theorem mp_tr {q : ℕ} (hx : Mp x m) (hy : Mp y k) (hz : Mp z l) : Mp (Ind.truerange q x y z) (max (max m k) (l + q)) := by
  unfold Ind.truerange
  mpc

theorem mp_pdm {q : ℕ} (hx : Mp x m) (hy : Mp y k) : Mp (Ind.pdm1 q x y) (max m k + q) := by
  unfold Ind.pdm1 Ind.dmMoves
  simp only []
  mpc

theorem mp_mdm {q : ℕ} (hx : Mp x m) (hy : Mp y k) : Mp (Ind.mdm1 q x y) (max m k + q) := by
  unfold Ind.mdm1 Ind.dmMoves
  simp only []
  mpc

variable {sm : Line V → Except Err (Line V)} {q e : ℕ} {t : Bool}

/-- the same for lines which need at least 2 bars -/
def Adds2 (e : ℕ) (f : Line V → Except Err (Line V)) : Prop := ∀ a m, 2 ≤ m → Mp a m → PE (Mp · (m + e)) (f a)

theorem mp_plusDm (hs : Adds2 e sm) (hq : 1 ≤ q) (hx : Mp x m) (hy : Mp y k) : PE (Mp · (max m k + q + e)) (Ind.plusDm sm q x y) :=
  hs _ _ (by have := hx.2; omega) (mp_pdm hx hy)

theorem mp_minusDm (hs : Adds2 e sm) (hq : 1 ≤ q) (hx : Mp x m) (hy : Mp y k) :
    PE (Mp · (max m k + q + e)) (Ind.minusDm sm q x y) :=
  hs _ _ (by have := hx.2; omega) (mp_mdm hx hy)

theorem mp_holder {d : Line V} {h : Holder V} {f : V → V → V} {m k : ℕ} (hd : Mp d m) (hh : h.minperiod = k) (h1 : 1 ≤ k) :
    Mp (d.op f nan (.holder h)) (max m k) := by
  show Mp (Line.binop f nan d ⟨h.first.series, h.minperiod⟩) _
  exact hd.binop ⟨hh, h1⟩

theorem mp_diTrp (hs : Adds2 e sm) (hq : 1 ≤ q) (hx : Mp x m) (hy : Mp y k) (hz : Mp z l) :
    PE (fun r => r.minperiod = ((max (max m k) (l + q) + 1 + e : ℕ) : Int)) (Ind.diTrp sm q t x y z) := by
  unfold Ind.diTrp
  refine (hs _ _ (by have := hz.2; omega) (mp_tr hx hy hz)).bind fun r h => PE.pure ?_
  show r.minperiod + 1 = _
  rw [h.1]
  push_cast
  ring

theorem mp_plusDi (hs : Adds2 e sm) (hq : 1 ≤ q) (hx : Mp x m) (hy : Mp y k) (hz : Mp z l) :
    PE (Mp · (max (max m k + q) (max (max m k) (l + q) + 1) + e)) (Ind.plusDi sm q t x y z) := by
  unfold Ind.plusDi
  refine (mp_plusDm hs hq hx hy).bind fun d h => (mp_diTrp hs hq hx hy hz).bind fun r g => PE.pure ?_
  exact (mp_holder h.rmulS g (by omega)).congr (by omega)

theorem mp_minusDi (hs : Adds2 e sm) (hq : 1 ≤ q) (hx : Mp x m) (hy : Mp y k) (hz : Mp z l) :
    PE (Mp · (max (max m k + q) (max (max m k) (l + q) + 1) + e)) (Ind.minusDi sm q t x y z) := by
  unfold Ind.minusDi
  refine (mp_minusDm hs hq hx hy).bind fun d h => (mp_diTrp hs hq hx hy hz).bind fun r g => PE.pure ?_
  exact (mp_holder h.rmulS g (by omega)).congr (by omega)

theorem mp_dx (hs : Adds2 e sm) (hq : 1 ≤ q) (hx : Mp x m) (hy : Mp y k) (hz : Mp z l) :
    PE (Mp · (max (max m k + q) (max (max m k) (l + q) + 1) + e)) (Ind.dx sm q t x y z) := by
  unfold Ind.dx
  refine (mp_plusDi hs hq hx hy hz).bind fun d h => (mp_minusDi hs hq hx hy hz).bind fun r g => PE.pure ?_
  mpc

theorem mp_linreg {m1 : Bool} {p : ℕ} (hp : 1 ≤ p) (h : Mp a m) :
    Mp (Ind.linregBase m1 p a).1 (m + (p - 1)) ∧ Mp (Ind.linregBase m1 p a).2 (m + (p - 1)) := by
  unfold Ind.linregBase
  simp only []
  constructor <;> mpc

theorem mp_cross {s : Bool} (hx : Mp x m) (hy : Mp y k) : Mp (Ind.crossDiff s x y) (max m k + 1) := by
  unfold Ind.crossDiff
  have h1 : Mp (Line.shift 1 (x - y)) (max m k + 1) := (hx.sub hy).shift (q := 1)
  cases s with
  | true => exact h1
  | false => exact h1.stdop (inc := 0)

theorem mp_aroon {arg : List V → ℕ} {p : ℕ} (hx : Mp x m) : Mp (Ind.aroonComp arg p x) (m + p) := by
  unfold Ind.aroonComp
  simp only []
  have : 1 ≤ p + 1 := by omega
  mpc

theorem mp_absIndex {arg : List V → ℕ} {p : ℕ} : Mp (Ind.absIndex p arg x) 1 := ⟨rfl, le_refl _⟩

theorem mp_sar {f : List (V × V) → Except Err (List V)} (hx : Mp x m) (hy : Mp y k) :
    PE (Mp · (max m k + 1)) (Ind.applySar f x y) := by
  unfold Ind.applySar
  intro r hr
  simp only at hr
  split at hr
  · cases hr
  · injection hr with hr
    rw [← hr]
    refine Mp.up (j := 1) (Mp.mk' ?_ ?_)
    · rw [hx.1, hy.1]; push_cast; rfl
    · have := hx.2; omega

theorem mp_htSmooth (h : Mp a m) : Mp (Ind.htSmooth a) (m + 6) := by
  unfold Ind.htSmooth
  refine (Mp.up (j := 3) (m := m + 3) ?_).congr (by omega)
  mpc

theorem mp_checked {α : Type} {P : α → Prop} {c : Except Err Unit} {y : Except Err α} (h : PE P y) :
    PE P (c >>= fun _ => y) :=
  PE.bind (Q := fun _ => True) (fun _ _ => trivial) fun _ _ => h

theorem mp_mama {F : HtFns V} {at' : V → V} {f s : V} (h : Mp a m) :
    PE (fun r => Mp r.1 (m + 32) ∧ Mp r.2 (m + 32)) (Ind.mama F at' f s a) := by
  unfold Ind.mama
  simp only []
  have hi : ∀ out : Ind.HtSt V → V, Mp (apply (fun price => Ind.htBuf 6 price.length (Ind.htStep F (Ind.htZero 6 price)) out
    Ind.HtSt.init) nan (Ind.htSmooth a)) (m + 6) := fun out => (mp_htSmooth h).apply
  have hn : Mp (Ind.maskL (period 6 none (apply (fun price => Ind.htBuf 6 price.length (Ind.htStep F (Ind.htZero 6 price))
      (fun s => Ind.htAt s.q1 6) Ind.HtSt.init) nan (Ind.htSmooth a))) (binopS (fun x c => eqv x c) true
      (apply (fun price => Ind.htBuf 6 price.length (Ind.htStep F (Ind.htZero 6 price)) (fun s => Ind.htAt s.i1 6)
        Ind.HtSt.init) nan (Ind.htSmooth a)) (lit 0))) (m + 12) :=
    ((Mp.up (j := 6) (hi _)).stdop2 (hi _).binopS).congr (by omega)
  have hp := ((hn.div (hi fun s => Ind.htAt s.i1 6)).map (f := at')).map (f := fun x => if isNaN x then lit 0 else x)
    |>.rmulS (c := F.rad2deg) |>.down (v := some (lit 0)) (by omega)
  have hal := (((hp.ago1.sub hp).clipLoS (c := lit 1)).rdivS (c := f)).clipLoS (c := s)
  refine (h.dyn (c := { pval := 1, seed := .zero }) (i := m + 12) hal (by simp only; omega) (by omega)).bind fun r hr => ?_
  refine (hr.dyn (c := { pval := 0, seed := .zero }) (i := m + 12) hal.mulS (by simp only; omega) (by omega)).bind fun g hg => ?_
  exact PE.pure ⟨Mp.up (j := 20) hr, Mp.up (j := 20) hg⟩

end calls

set_option maxHeartbeats 1000000 in
theorem Call.mp (c : Call V) (hk : c.Periods) (x : ℕ → Line V) (m : ℕ → ℕ) (hx : ∀ k, Mp (x k) (m k)) :
    PE (List.Forall₂ Mp · (Spec.need m c)) (c.run x) := by
  have h0 := hx 0
  have h1 := hx 1
  have h2 := hx 2
  have h3 := hx 3
  have av : ∀ {A : Avg V} {p : ℕ}, A.Periods 1 p → Adds (Spec.more A p) (A.run p) :=
    fun hm a m h => Avg.mp _ 1 _ _ a hm h.2 h
  have sm : ∀ {A : Avg V} {p : ℕ}, A.Periods 2 p → Adds2 (Spec.more A p) (A.run p) :=
    fun hm a m h2 h => Avg.mp _ 2 _ _ a hm h2 h
  cases c with
  | avg A p => exact mp_oneE (av hk _ _ h0)
  | add => exact mp_one (h0.add h1)
  | sub => exact mp_one (h0.sub h1)
  | mult => exact mp_one (h0.mul h1)
  | div => exact mp_one (h0.div h1)
  | max p => exact mp_one (h0.rolling hk)
  | min p => exact mp_one (h0.rolling hk)
  | minmax p => exact mp_pair (h0.rolling hk) (h0.rolling hk)
  | maxindex p => exact mp_one (h0.rolling hk)
  | minindex p => exact mp_one (h0.rolling hk)
  | maxindexAbs p => exact mp_one mp_absIndex
  | minindexAbs p => exact mp_one mp_absIndex
  | minmaxindex b p =>
    cases b with
    | true => exact mp_pair mp_absIndex mp_absIndex
    | false =>
      have hk' : 1 ≤ p := by simpa [Call.Periods] using hk
      exact mp_pair (h0.rolling hk') (h0.rolling hk')
  | avgprice d => refine mp_one ?_; unfold Ind.avgprice Spec.max4 Spec.max3 Spec.max2; mpc
  | typprice d => refine mp_one ?_; unfold Ind.typprice Spec.max3 Spec.max2; mpc
  | wclprice w d => refine mp_one ?_; unfold Ind.wclprice Spec.max3 Spec.max2; mpc
  | medprice d => refine mp_one ?_; unfold Ind.medprice Spec.max2; mpc
  | macd mf ma ms pf ps pg =>
    refine mp_threeE ?_
    unfold Ind.macd
    refine (av hk.1 _ _ h0).bind fun a ha => (av hk.2.1 _ _ h0).bind fun b hb => ?_
    have hab := (ha.sub hb).congr (m' := m 0 + Max.max (Spec.more mf pf) (Spec.more ma ps)) (by omega)
    refine (av hk.2.2 _ _ hab).bind fun s hs => PE.pure ⟨hab, hs, ?_⟩
    exact (hab.sub hs).congr (by omega)
  | apo ma pf ps =>
    refine mp_oneE ?_
    unfold Ind.apo
    refine (mp_posc (av hk.1) (av hk.2) h0).bind ?_
    rintro ⟨a, b⟩ h
    exact PE.pure h.1
  | ppo fast ma ms pf ps pg =>
    refine mp_threeE ?_
    unfold Ind.ppo
    refine (mp_posc (av hk.1) (av hk.2.1) h0).bind ?_
    rintro ⟨a, b⟩ h
    have hp := (Mp.subS (c := lit 1) h.2).rmulS (c := lit 100)
    exact (av hk.2.2 _ _ hp).bind fun s hs => PE.pure ⟨hp, hs, (hp.sub hs).congr (by omega)⟩
  | mom p => exact mp_one h0.diff
  | roc p => refine mp_one ?_; unfold Ind.roc Ind.rocr; mpc
  | rocp p => refine mp_one ?_; unfold Ind.rocp Ind.rocr; mpc
  | rocr p => refine mp_one ?_; unfold Ind.rocr; mpc
  | rocr100 p => refine mp_one ?_; unfold Ind.rocr100 Ind.rocr; mpc
  | rsi ma lb p => exact mp_oneE (mp_rsi (av hk) h0)
  | cmo sum p =>
    refine mp_oneE ?_
    unfold Ind.cmo
    refine (av hk _ _ (h0.diff (q := 1)).clipLoS).bind fun u g1 => (av hk _ _ (h0.diff (q := 1)).clipHiS.abs).bind fun d g2 =>
      PE.pure ?_
    mpc
  | mad p => exact mp_one (h0.rolling hk)
  | cci ma f p =>
    refine mp_oneE ?_
    unfold Ind.cci
    have ht : Mp ((x 0 + x 1 + x 2).divS (lit 3)) (Spec.max3 m) := ((h0.add h1).add h2).divS
    have hp := hk.2
    refine (av hk.1 _ _ ht).bind fun u g1 => PE.pure ?_
    mpc
  | var d p => exact mp_one (h0.rolling hk)
  | stddev sq d p => exact mp_one (h0.rolling hk)
  | bbands sq ma d p =>
    refine mp_threeE ?_
    unfold Ind.bbands Ind.stddev
    have hp := hk.2
    refine (av hk.1 _ _ h0).bind fun u g1 => PE.pure ⟨?_, ?_, ?_⟩ <;> simp only [] <;> mpc
  | stochf ma p pf => exact mp_twoE (mp_stochf hk.1 (av hk.2) h0 h1 h2)
  | stochastic ma ms p pf ps =>
    refine mp_twoE ?_
    unfold Ind.stochastic
    refine (mp_stochf hk.1 (av hk.2.1) h0 h1 h2).bind ?_
    rintro ⟨a, b⟩ ⟨ha, hb⟩
    exact (av hk.2.2 _ _ hb).bind fun s hs => PE.pure ⟨hb, hs⟩
  | williamsr p =>
    refine mp_one ?_
    have hp : 1 ≤ p := hk
    unfold Ind.williamsr Spec.kBars Spec.max2
    simp only []
    mpc
  | stochrsi p ph s => exact mp_oneE (mp_stochrsi hk.1 hk.2 h0)
  | stochrsiD ma p ph pf s =>
    refine mp_twoE ?_
    unfold Ind.stochrsiD
    exact (mp_stochrsi hk.1 hk.2.1 h0).bind fun k g => (av hk.2.2 _ _ g).bind fun d g2 => PE.pure ⟨g, g2⟩
  | midprice p => refine mp_one ?_; have hp : 1 ≤ p := hk; unfold Ind.midprice Spec.max2; mpc
  | midpoint p => refine mp_one ?_; have hp : 1 ≤ p := hk; unfold Ind.midpoint Ind.midprice; mpc
  | bop => refine mp_one ?_; unfold Ind.bop Spec.max4 Spec.max3 Spec.max2; mpc
  | truelow q => refine mp_one ?_; unfold Ind.truelow; mpc
  | truerange q => exact mp_one (mp_tr h0 h1 h2)
  | atr ma q p => exact mp_oneE (av hk _ _ (mp_tr h0 h1 h2))
  | natr ma q p =>
    refine mp_oneE ?_
    unfold Ind.natr Ind.atr
    refine (av hk _ _ (mp_tr h0 h1 h2)).bind fun r g => PE.pure ?_
    unfold Spec.trBars Spec.max2
    mpc
  | ultosc p1 p2 p3 f1 f2 f3 =>
    refine mp_one ?_
    obtain ⟨k1, k2, k3⟩ := hk
    unfold Ind.ultosc Ind.truelow Ind.truerange Spec.trBars Spec.max2
    simp only []
    mpc
  | mfi p =>
    refine mp_one ?_
    have hp : 1 ≤ p := hk
    unfold Ind.mfi Spec.max3 Spec.max2
    simp only []
    mpc
  | obv t q =>
    refine mp_one ?_
    unfold Ind.obv
    have hd : Mp (Line.diff q (x 0)) (m 0 + q) := h0.diff
    cases t with
    | true =>
      simp only [if_true]
      have := hk rfl
      have hb := hd.down (v := some (lit 1)) (by have := h0.2; omega)
      mpc
    | false => simp only [Bool.false_eq_true, if_false]; mpc
  | ad => refine mp_one ?_; unfold Ind.ad Spec.max4 Spec.max3 Spec.max2; simp only []; mpc
  | adosc ma pf ps =>
    refine mp_oneE ?_
    unfold Ind.adosc
    have ha : Mp (Ind.ad (x 0) (x 1) (x 2) (x 3)) (Spec.max4 m) := by
      unfold Ind.ad Spec.max4 Spec.max3 Spec.max2; simp only []; mpc
    refine (av hk.1 _ _ ha).bind fun r g => (av hk.2 _ _ ha).bind fun s g2 => PE.pure ?_
    mpc
  | aroon p => exact mp_pair (mp_aroon h1) (mp_aroon h0)
  | aroonosc p => exact mp_one (((mp_aroon h0).sub (mp_aroon h1)).congr (by unfold Spec.max2; omega))
  | linregSlope p => exact mp_one (mp_linreg hk h0).1
  | linregAngle a d p => exact mp_one (Mp.mulS (mp_linreg hk h0).1.map)
  | linregIntercept t p => exact mp_one (mp_linreg hk h0).2
  | linreg p => exact mp_one (((mp_linreg hk h0).2.add (mp_linreg hk h0).1.mulS).congr (by omega))
  | tsf p => exact mp_one (((mp_linreg hk h0).2.add (mp_linreg hk h0).1.mulS).congr (by omega))
  | beta rets pr p =>
    refine mp_one ?_
    have hp : 1 ≤ p := hk
    unfold Ind.beta Spec.max2
    cases rets with
    | true => simp only [if_true]; mpc
    | false => simp only [Bool.false_eq_true, if_false]; mpc
  | correl sq p => exact mp_one (h0.rolling2 hk)
  | crossup s =>
    refine mp_one ?_
    have hd := mp_cross (s := s) h0 h1
    unfold Ind.crossup Ind.cup Spec.max2
    mpc
  | crossdown s =>
    refine mp_one ?_
    have hd := mp_cross (s := s) h0 h1
    unfold Ind.crossdown Ind.cdown Spec.max2
    mpc
  | crossover s => intro r hr; cases hr
  | plusDm s ps q => exact mp_oneE (mp_plusDm (sm hk.2) hk.1 h0 h1)
  | minusDm s ps q => exact mp_oneE (mp_minusDm (sm hk.2) hk.1 h0 h1)
  | dm s ps q =>
    refine mp_twoE ?_
    unfold Ind.dm
    exact (mp_plusDm (sm hk.2) hk.1 h0 h1).bind fun d g => (mp_minusDm (sm hk.2) hk.1 h0 h1).bind fun e g2 => PE.pure ⟨g, g2⟩
  | plusDi s ps q t => exact mp_oneE (mp_plusDi (sm hk.2) hk.1 h0 h1 h2)
  | minusDi s ps q t => exact mp_oneE (mp_minusDi (sm hk.2) hk.1 h0 h1 h2)
  | di s ps q t =>
    refine mp_twoE ?_
    unfold Ind.di
    exact (mp_plusDi (sm hk.2) hk.1 h0 h1 h2).bind fun d g => (mp_minusDi (sm hk.2) hk.1 h0 h1 h2).bind fun e g2 =>
      PE.pure ⟨g, g2⟩
  | dx s ps q t => exact mp_oneE (mp_dx (sm hk.2) hk.1 h0 h1 h2)
  | adx s ma ps q t p =>
    refine mp_oneE ?_
    unfold Ind.adx
    exact (mp_dx (sm hk.2.1) hk.1 h0 h1 h2).bind fun d g => av hk.2.2 _ _ g
  | adxr s ma ps q t p pr =>
    refine mp_oneE ?_
    unfold Ind.adxr Ind.adx
    refine ((mp_dx (sm hk.2.1) hk.1 h0 h1 h2).bind fun d g => av hk.2.2.1 _ _ g).bind fun d g => PE.pure ?_
    have key : ∀ (per : Int) (j : ℕ), per = j → Mp ((d + ago (-per) d).divS (lit 2))
        (Spec.diBars m q (Spec.more s ps) + Spec.more ma p + j) := by
      intro per j hj
      subst hj
      exact (g.add g.agoN).divS.congr (by unfold Spec.diBars Spec.trBars Spec.max2; omega)
    refine key _ _ ?_
    have := hk.2.2.2
    rcases pr with _ | _ | r <;> cases t <;> simp <;> omega
  | sar af am => exact mp_oneE (mp_sar h0 h1)
  | sarext P => exact mp_oneE (mp_sar h0 h1)
  | htDcperiod F => exact mp_one (Mp.up (j := 26) (mp_htSmooth h0).apply)
  | htPhasor F => exact mp_pair (Mp.up (j := 26) (mp_htSmooth h0).apply) (Mp.up (j := 26) (mp_htSmooth h0).apply)
  | htDcphase F => exact mp_checked (mp_one (Mp.up (j := 57) (mp_htSmooth h0).apply))
  | htSine F =>
    exact mp_checked (mp_pair (Mp.up (j := 57) (mp_htSmooth h0).apply) (Mp.up (j := 57) (mp_htSmooth h0).apply))
  | htTrendline F =>
    exact mp_checked (mp_one (Mp.up (j := 57) (((mp_htSmooth h0).stdop2 h0).congr (m' := m 0 + 6) (by omega))))
  | htTrendmode F =>
    exact mp_checked (mp_one (Mp.up (j := 57) (((mp_htSmooth h0).stdop2 h0).congr (m' := m 0 + 6) (by omega))))
  | mama F a f s => exact mp_twoE (mp_mama h0)
  | mathFn f => exact mp_one h0.map

end Bta
