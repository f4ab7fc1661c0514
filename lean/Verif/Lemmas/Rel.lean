import Verif.Ind.Catalog
import Verif.Lemmas.Causal

/-!
# Relations preserved by line operations are preserved by the whole library

`LRel` is a relation between lines which the line operations preserve, whatever the functions on values are.  `Call.rel`
shows that each indicator of the catalogue preserves it.  Instances (`Lemmas/RelInst.lean`): results on extended data
extend the results; results do not depend on older history; nothing is delivered before the minimum period.
-/

set_option linter.unusedSectionVars false
set_option linter.unusedVariables false

namespace Bta
open Line

variable {V : Type} [PyFloat V]

/-- related results: if the first calculation gives a result, so does the second, and they are related -/
def RE {α β : Type} (Q : α → β → Prop) (x : Except Err α) (y : Except Err β) : Prop :=
  ∀ r, x = .ok r → ∃ r', y = .ok r' ∧ Q r r'

theorem RE.bind {α β γ δ : Type} {Q : α → β → Prop} {Q' : γ → δ → Prop} {x : Except Err α} {y : Except Err β}
    {f : α → Except Err γ} {f' : β → Except Err δ} (h : RE Q x y) (hf : ∀ r r', Q r r' → RE Q' (f r) (f' r')) :
    RE Q' (x >>= f) (y >>= f') := by
  intro r hr
  cases hx : x with
  | error e => rw [hx] at hr; cases hr
  | ok l =>
    rw [hx] at hr
    obtain ⟨l', hy, hp⟩ := h l hx
    rw [hy]
    exact hf l l' hp r hr

theorem RE.pure {α β : Type} {Q : α → β → Prop} {r : α} {r' : β} (h : Q r r') :
    RE Q (Pure.pure r : Except Err α) (Pure.pure r') := by
  intro s hs
  injection hs with hs
  exact ⟨r', rfl, hs ▸ h⟩

theorem RE.ok {α β : Type} {Q : α → β → Prop} {r : α} {r' : β} (h : Q r r') :
    RE Q (.ok r : Except Err α) (.ok r') := RE.pure h

theorem RE.mono {α β : Type} {Q Q' : α → β → Prop} {x : Except Err α} {y : Except Err β} (h : RE Q x y)
    (hq : ∀ r r', Q r r' → Q' r r') : RE Q' x y := by
  intro r hr
  obtain ⟨r', h1, h2⟩ := h r hr
  exact ⟨r', h1, hq _ _ h2⟩

theorem RE.error {α β : Type} {Q : α → β → Prop} {e : Err} {y : Except Err β} : RE Q (.error e : Except Err α) y := by
  intro r hr; cases hr

/-- parameters of a fixed `_ewm` for which the seed is inside the data, given the minimum period of the line -/
structure EwmFits (c : EwmCfg) (mp : Int) : Prop where
  pval : 1 ≤ c.pval
  alphaP : c.alphaP = 1
  early : 0 ≤ c.pearly
  early1 : c.pearly < c.pval
  early2 : c.pearly < mp
  off : c.poffset = 0 ∨ c.pval ≤ c.poffset

/-- an operation on the data of an `_ewm` object: total on non-empty data, keeps prefixes -/
structure EwmFn (op : List V → Except Err (List V)) : Prop where
  causal : ∃ g : List V → List V, CausalL g ∧ ∀ t, t ≠ [] → op t = .ok (g t)

/-- loops like `_sarize`: nothing for the first bar, then a scan starting from values of the first two -/
structure SarLike (f : List (V × V) → Except Err (List V)) : Prop where
  short : ∀ xs, xs.length < 2 → f xs = .error .indexError
  scan : ∃ g : V × V → V × V → List (V × V) → List V, (∀ a b, CausalL (g a b)) ∧
    ∀ a b xs, f (a :: b :: xs) = .ok (nan :: g a b (b :: xs))

/-- A relation preserved by the line operations.  `acc`: also by those whose value depends on the whole history;
`plain`: also by the unseeded `ewm`; `early`: also by those which count the bars from the first one; `anyLoop`: by any function which keeps the number of bars. -/
structure LRel (V : Type) [PyFloat V] where
  rv : Line V → Line V → Prop
  rb : Line Bool → Line Bool → Prop
  acc : Prop
  plain : Prop
  early : Prop
  anyLoop : Prop
  pos : ∀ {a a'}, rv a a' → 1 ≤ a.minperiod
  pos' : ∀ {a a'}, rv a a' → 1 ≤ a'.minperiod
  bin : ∀ {f : V → V → V} {a a' b b'}, rv a a' → rv b b' → rv (binop f nan a b) (binop f nan a' b')
  binS : ∀ {f : V → V → V} {c : V} {a a'}, rv a a' → rv (binopS f nan a c) (binopS f nan a' c)
  cmp : ∀ {f : V → V → Bool} {a a' b b'}, rv a a' → rv b b' → rb (binop f true a b) (binop f true a' b')
  cmpS : ∀ {f : V → V → Bool} {c : V} {a a'}, rv a a' → rb (binopS f true a c) (binopS f true a' c)
  logic : ∀ {f : Bool → Bool → Bool} {a a' b b'}, rb a a' → rb b b' → rb (binop f true a b) (binop f true a' b')
  binB : ∀ {f : V → Bool → V} {a a' b b'}, rv a a' → rb b b' → rv (binop f nan a b) (binop f nan a' b')
  binBS : ∀ {f : Bool → V → V} {c : V} {a a'}, rb a a' → rv (binopS f nan a c) (binopS f nan a' c)
  /-- an operand whose minimum period was increased -/
  binUp : ∀ {f : V → V → V} {a a' b b'}, rv a a' → rv b b' →
    rv (binop f nan a ⟨b.series, b.minperiod + 1⟩) (binop f nan a' ⟨b'.series, b'.minperiod + 1⟩)
  map : ∀ {f : V → V} {a a'}, rv a a' → rv (mapOp f a) (mapOp f a')
  map2 : ∀ {f : V → V → V} {a a' b b'}, rv a a' → rv b b' →
    rv (stdop2 (List.zipWith f) nan a b) (stdop2 (List.zipWith f) nan a' b')
  mask : ∀ {f : V → Bool → V} {j : ℕ} {a a' b b'}, rv a a' → rb b b' →
    rv (stdop2 (List.zipWith f) nan (period j none a) b) (stdop2 (List.zipWith f) nan (period j none a') b')
  shift : ∀ {k : ℕ} {a a'}, rv a a' → rv (Line.shift k a) (Line.shift k a')
  nothing : ∀ {a a'}, rv a a' → rv (clone a (List.replicate a.series.length (nan : V)) 0)
    (clone a' (List.replicate a'.series.length (nan : V)) 0)
  diff : ∀ {k : ℕ} {a a'}, rv a a' → rv (Line.diff k a) (Line.diff k a')
  rolling : ∀ {w : ℕ} {agg : List V → V} {a a'}, 1 ≤ w → rv a a' → rv (Line.rolling w agg a) (Line.rolling w agg a')
  rolling2 : ∀ {w : ℕ} {agg : List (V × V) → V} {a a' b b'}, 1 ≤ w → (acc ∨ b.minperiod ≤ a.minperiod) →
    rv a a' → rv b b' → rv (Line.rolling2 w agg a b) (Line.rolling2 w agg a' b')
  cum : ∀ {g : List V → List V} {a a'}, acc → CausalL g → rv a a' → rv (stdop g nan 0 a) (stdop g nan 0 a')
  pct : ∀ {k : ℕ} {a a'}, acc → rv a a' → rv (pctChange k a) (pctChange k a')
  back : ∀ {v : V} {a a'}, acc → 2 ≤ a.minperiod → 2 ≤ a'.minperiod → rv a a' →
    rv (period (-1) (some v) a) (period (-1) (some v) a')
  fill : ∀ {k : ℕ} {a a'}, acc → rv a a' → rv (period k (some nan) a) (period k (some nan) a')
  loop : ∀ {g : List V → List V} {j : ℕ} {a a'}, acc → CausalL g → rv a a' →
    rv (apply g nan (period j none a)) (apply g nan (period j none a'))
  loopAny : ∀ {g : List V → List V} {j : ℕ} {a a'}, anyLoop → (∀ xs, (g xs).length = xs.length) → rv a a' →
    rv (apply g nan (period j none a)) (apply g nan (period j none a'))
  loopAny2 : ∀ {g : List V → List V → List V} {j : ℕ} {a a' b b'}, anyLoop →
    (∀ xs ys, (g xs ys).length = xs.length) → rv a a' → rv b b' →
    rv (apply2 g nan (period j none a) b) (apply2 g nan (period j none a') b')
  /-- the functions of `_apply` are given the same bars -/
  tails : ∀ {j : ℕ} {a a'}, anyLoop → rv a a' → pyFrom (period j none a).series ((period j none a).minperiod - 1) =
    pyFrom (period j none a').series ((period j none a').minperiod - 1)
  ewm : ∀ {c : EwmCfg} {op : List V → Except Err (List V)} {a a'}, acc → EwmFits c a.minperiod →
    EwmFits c a'.minperiod → EwmFn op →
    rv a a' → RE rv (match ewmNew c a with | .error e => .error e | .ok o => ewmCall c a o op)
      (match ewmNew c a' with | .error e => .error e | .ok o => ewmCall c a' o op)
  dyn : ∀ {pval : ℕ} {seed : Seed} {al al' a a'}, early → (pval = 0 → 2 ≤ a.minperiod ∧ al.minperiod ≤ a.minperiod) →
    (pval : Int) < al.minperiod → rv al al' → rv a a' →
    RE rv (ewmDyn { pval := pval, seed := seed } al a) (ewmDyn { pval := pval, seed := seed } al' a')
  unseeded : ∀ {adj : Bool} {p : ℕ} {a a'}, plain → 1 ≤ p → rv a a' → RE rv (Ind.ewmaG adj p a) (Ind.ewmaG adj p a')
  sar : ∀ {f : List (V × V) → Except Err (List V)} {a a' b b'}, acc → SarLike f → rv a a' → rv b b' →
    RE rv (Ind.applySar f a b) (Ind.applySar f a' b')
  absIdx : ∀ {p : ℕ} {arg : List V → ℕ} {a a'}, early → rv a a' → rv (Ind.absIndex p arg a) (Ind.absIndex p arg a')

namespace LRel
variable (R : LRel V)

section ops
variable {R} {a a' b b' : Line V} {x x' y y' : Line Bool}

theorem add (h : R.rv a a') (g : R.rv b b') : R.rv (a + b) (a' + b') := R.bin h g
theorem sub (h : R.rv a a') (g : R.rv b b') : R.rv (a - b) (a' - b') := R.bin h g
theorem mul (h : R.rv a a') (g : R.rv b b') : R.rv (a * b) (a' * b') := R.bin h g
theorem div (h : R.rv a a') (g : R.rv b b') : R.rv (a / b) (a' / b') := R.bin h g
theorem addS {c : V} (h : R.rv a a') : R.rv (a.addS c) (a'.addS c) := R.binS h
theorem raddS {c : V} (h : R.rv a a') : R.rv (Line.raddS c a) (Line.raddS c a') := by
  unfold Line.raddS; exact R.binS h
theorem subS {c : V} (h : R.rv a a') : R.rv (a.subS c) (a'.subS c) := R.binS h
theorem rsubS {c : V} (h : R.rv a a') : R.rv (Line.rsubS c a) (Line.rsubS c a') := by
  unfold Line.rsubS; exact R.binS h
theorem mulS {c : V} (h : R.rv a a') : R.rv (a.mulS c) (a'.mulS c) := R.binS h
theorem rmulS {c : V} (h : R.rv a a') : R.rv (Line.rmulS c a) (Line.rmulS c a') := by
  unfold Line.rmulS; exact R.binS h
theorem divS {c : V} (h : R.rv a a') : R.rv (a.divS c) (a'.divS c) := R.binS h
theorem rdivS {c : V} (h : R.rv a a') : R.rv (Line.rdivS c a) (Line.rdivS c a') := by
  unfold Line.rdivS; exact R.binS h
theorem ltL (h : R.rv a a') (g : R.rv b b') : R.rb (Line.ltL a b) (Line.ltL a' b') := R.cmp h g
theorem gtL (h : R.rv a a') (g : R.rv b b') : R.rb (Line.gtL a b) (Line.gtL a' b') := R.cmp h g
theorem ltS {c : V} (h : R.rv a a') : R.rb (Line.ltS a c) (Line.ltS a' c) := R.cmpS h
theorem gtS {c : V} (h : R.rv a a') : R.rb (Line.gtS a c) (Line.gtS a' c) := by
  unfold Line.gtS; exact R.cmpS h
theorem andL (h : R.rb x x') (g : R.rb y y') : R.rb (Line.andL x y) (Line.andL x' y') := R.logic h g
theorem mulB (h : R.rv a a') (g : R.rb y y') : R.rv (Line.mulB a y) (Line.mulB a' y') := R.binB h g
theorem rmulSB {c : V} (h : R.rb x x') : R.rv (Line.rmulSB c x) (Line.rmulSB c x') := R.binBS h
theorem abs (h : R.rv a a') : R.rv a.abs a'.abs := R.map h
theorem clipLoS {c : V} (h : R.rv a a') : R.rv (a.clipLoS c) (a'.clipLoS c) := R.map h
theorem clipHiS {c : V} (h : R.rv a a') : R.rv (a.clipHiS c) (a'.clipHiS c) := R.map h
theorem clipLoL (h : R.rv a a') (g : R.rv b b') : R.rv (Line.clipLoL a b) (Line.clipLoL a' b') := R.map2 h g
theorem clipHiL (h : R.rv a a') (g : R.rv b b') : R.rv (Line.clipHiL a b) (Line.clipHiL a' b') := R.map2 h g
theorem agoN {q : ℕ} (h : R.rv a a') : R.rv (ago (-(q : Int)) a) (ago (-(q : Int)) a') := by
  unfold ago
  by_cases hq : (-(q : Int)) = 0
  · rw [if_pos hq, if_pos hq]; exact R.nothing h
  · rw [if_neg hq, if_neg hq, neg_neg]; exact R.shift h
theorem ago1 (h : R.rv a a') : R.rv (ago (-1) a) (ago (-1) a') := agoN (q := 1) h
theorem ago2 (h : R.rv a a') : R.rv (ago (-2) a) (ago (-2) a') := agoN (q := 2) h
theorem ago3 (h : R.rv a a') : R.rv (ago (-3) a) (ago (-3) a') := agoN (q := 3) h
theorem cumsum (hc : R.acc) (h : R.rv a a') : R.rv a.cumsum a'.cumsum := R.cum hc CausalL.cumsum h
theorem highest {p : ℕ} (hp : 1 ≤ p) (h : R.rv a a') : R.rv (Ind.highest p a) (Ind.highest p a') := R.rolling hp h
theorem lowest {p : ℕ} (hp : 1 ≤ p) (h : R.rv a a') : R.rv (Ind.lowest p a) (Ind.lowest p a') := R.rolling hp h
theorem sumN {p : ℕ} (hp : 1 ≤ p) (h : R.rv a a') : R.rv (Ind.sumN p a) (Ind.sumN p a') := R.rolling hp h
theorem mad {p : ℕ} (hp : 1 ≤ p) (h : R.rv a a') : R.rv (Ind.mad p a) (Ind.mad p a') := R.rolling hp h

end ops

end LRel

/-- discharge a goal `R.rv (operations) (operations)` from hypotheses on the operands -/
macro "rl" : tactic => `(tactic| repeat' first
  | assumption
  | with_reducible apply LRel.add | with_reducible apply LRel.sub | with_reducible apply LRel.mul
  | with_reducible apply LRel.div | with_reducible apply LRel.addS | with_reducible apply LRel.raddS
  | with_reducible apply LRel.subS | with_reducible apply LRel.rsubS | with_reducible apply LRel.mulS
  | with_reducible apply LRel.rmulS | with_reducible apply LRel.divS | with_reducible apply LRel.rdivS
  | with_reducible apply LRel.ltL | with_reducible apply LRel.gtL | with_reducible apply LRel.ltS
  | with_reducible apply LRel.gtS | with_reducible apply LRel.andL | with_reducible apply LRel.mulB
  | with_reducible apply LRel.rmulSB | with_reducible apply LRel.abs | with_reducible apply LRel.clipLoS
  | with_reducible apply LRel.clipHiS | with_reducible apply LRel.clipLoL | with_reducible apply LRel.clipHiL
  | with_reducible apply LRel.ago1 | with_reducible apply LRel.ago2 | with_reducible apply LRel.ago3
  | with_reducible apply LRel.agoN | with_reducible apply LRel.cumsum
  | with_reducible apply LRel.highest | with_reducible apply LRel.lowest | with_reducible apply LRel.sumN
  | with_reducible apply LRel.mad
  | with_reducible apply LRel.diff | with_reducible apply LRel.rolling | with_reducible apply LRel.map)

/-! ## averages -/

/-- Parameters for which the average is meant: periods of at least one bar.  `q` is a lower bound for the minimum
period of the line it is applied to (`smacc` with `_pearly` reads one bar before it). -/
def Avg.Ok (acc plain early : Prop) : Avg V → (q p : ℕ) → Prop
  | .sma, _, p => 1 ≤ p
  | .ema _ o, _, p => acc ∧ 1 ≤ p ∧ (o = 0 ∨ p ≤ o)
  | .smma _, _, p => acc ∧ 1 ≤ p
  | .ewma _, _, p => plain ∧ 1 ≤ p
  | .wma, _, p => 1 ≤ p
  | .sumN, _, p => 1 ≤ p
  | .trima, _, p => 1 ≤ p
  | .dema m, _, p => m.Ok acc plain early 1 p
  | .tema m, _, p => m.Ok acc plain early 1 p
  | .trix m, _, p => m.Ok acc plain early 1 p
  | .gdema m _, _, p => m.Ok acc plain early 1 p
  | .t3 _, _, p => acc ∧ 1 ≤ p
  | .t3gd m _, _, p => m.Ok acc plain early 1 p
  | .kama _ _ _ _, _, p => early ∧ 1 ≤ p
  | .smacc _ e _, q, p => acc ∧ 1 ≤ p ∧ (e = true → 2 ≤ p ∧ 2 ≤ q)

theorem EwmFn.mean (al : V) : EwmFn (fun t : List V => .ok (ewmL al t)) :=
  ⟨⟨_, CausalL.ewm al, fun _ _ => rfl⟩⟩

theorem CausalL.consGo {f : V → V} {g : V → List V → List V} (h : ∀ x, CausalL (g x)) :
    CausalL (fun t : List V => match t with | [] => [] | x :: xs => f x :: g x xs) where
  len := by
    intro t
    cases t with
    | nil => rfl
    | cons x xs => simp [(h x).len]
  pre := by
    intro xs ys hxy
    cases xs with
    | nil => exact List.nil_prefix
    | cons x xs =>
      cases ys with
      | nil => exact absurd hxy.length_le (by simp)
      | cons y ys =>
        obtain ⟨rfl, h2⟩ := List.cons_prefix_cons.mp hxy
        exact List.cons_prefix_cons.mpr ⟨rfl, (h _).pre _ _ h2⟩

theorem EwmFn.lfilter (scipy : Bool) (al : V) (be : Option V) :
    EwmFn (fun t : List V => Line.lfilter scipy al be (prepL t)) := by
  have hprep : CausalL (prepL (V := V)) := CausalL.map _
  have hne : ∀ t : List V, t ≠ [] → prepL t ≠ [] := by
    intro t ht h
    have := hprep.len t
    rw [h] at this
    exact ht (List.eq_nil_of_length_eq_zero this.symm)
  cases scipy with
  | true =>
    refine ⟨⟨_, (CausalL.consGo (f := fun x => al * (x / al) + betaOf al be * lit 0)
      (g := fun x => Line.lfilterGo al (betaOf al be) (al * (x / al) + betaOf al be * lit 0))
      (fun x => CausalL.lfilterGo _ _ _)).comp hprep, ?_⟩⟩
    intro t ht
    have := hne t ht
    cases hq : prepL t with
    | nil => exact absurd hq this
    | cons x xs =>
      simp only [Line.lfilter, if_true, spLfilter, lfilterGo]
      try rw [hq]
  | false =>
    refine ⟨⟨_, (CausalL.consGo (f := fun x => x)
      (g := fun x => Line.smAccGo al (betaOf al be) x)
      (fun x => CausalL.smAccGo _ _ _)).comp hprep, ?_⟩⟩
    intro t ht
    have := hne t ht
    cases hq : prepL t with
    | nil => exact absurd hq this
    | cons x xs =>
      simp only [Line.lfilter, Line.smAcc]
      try rw [hq]
      try rfl

section
variable {R : LRel V}

theorem LRel.emaG {seed : Seed} {o p : ℕ} (hc : R.acc) (hp : 1 ≤ p) (ho : o = 0 ∨ p ≤ o) {a a' : Line V}
    (h : R.rv a a') : RE R.rv (Ind.emaG seed o p a) (Ind.emaG seed o p a') := by
  have := R.pos h
  have := R.pos' h
  refine R.ewm (c := { pval := p, poffset := o, seed := seed }) hc ⟨?_, ?_, ?_, ?_, ?_, ?_⟩ ⟨?_, ?_, ?_, ?_, ?_, ?_⟩
    (EwmFn.mean _) h <;>
    first | rfl | exact Or.inl rfl | (simp only; omega)

theorem LRel.smmaG {seed : Seed} {p : ℕ} (hc : R.acc) (hp : 1 ≤ p) {a a' : Line V}
    (h : R.rv a a') : RE R.rv (Ind.smmaG seed p a) (Ind.smmaG seed p a') := by
  have := R.pos h
  have := R.pos' h
  refine R.ewm (c := { pval := p, seed := seed }) hc ⟨?_, ?_, ?_, ?_, ?_, ?_⟩ ⟨?_, ?_, ?_, ?_, ?_, ?_⟩ (EwmFn.mean _) h <;>
    first | rfl | exact Or.inl rfl | (simp only; omega)

theorem LRel.smacc {sp e : Bool} {seed : Seed} {p : ℕ} (hc : R.acc) (hp : 1 ≤ p) {a a' : Line V}
    (he : e = true → 2 ≤ p ∧ 2 ≤ a.minperiod ∧ 2 ≤ a'.minperiod)
    (h : R.rv a a') : RE R.rv (Ind.smacc sp e seed p a) (Ind.smacc sp e seed p a') := by
  have := R.pos h
  have := R.pos' h
  refine R.ewm (c := { pval := p, pearly := if e then 1 else 0, seed := seed }) hc ⟨?_, ?_, ?_, ?_, ?_, ?_⟩
    ⟨?_, ?_, ?_, ?_, ?_, ?_⟩
    (EwmFn.lfilter _ _ _) h <;> cases e <;> simp at he ⊢ <;> omega

theorem LRel.dema {ma : MA V} {p : ℕ} (hm : ∀ a a', R.rv a a' → RE R.rv (ma p a) (ma p a')) {a a' : Line V}
    (h : R.rv a a') : RE R.rv (Ind.dema ma p a) (Ind.dema ma p a') := by
  unfold Ind.dema
  refine (hm _ _ h).bind fun e1 e1' h1 => (hm _ _ h1).bind fun e2 e2' h2 => RE.pure ?_
  rl

theorem LRel.tema {ma : MA V} {p : ℕ} (hm : ∀ a a', R.rv a a' → RE R.rv (ma p a) (ma p a')) {a a' : Line V}
    (h : R.rv a a') : RE R.rv (Ind.tema ma p a) (Ind.tema ma p a') := by
  unfold Ind.tema
  refine (hm _ _ h).bind fun e1 e1' h1 => (hm _ _ h1).bind fun e2 e2' h2 => (hm _ _ h2).bind fun e3 e3' h3 =>
    RE.pure ?_
  rl

theorem LRel.trix {ma : MA V} {p : ℕ} (hm : ∀ a a', R.rv a a' → RE R.rv (ma p a) (ma p a')) {a a' : Line V}
    (h : R.rv a a') : RE R.rv (Ind.trix ma p a) (Ind.trix ma p a') := by
  unfold Ind.trix
  refine (hm _ _ h).bind fun e1 e1' h1 => (hm _ _ h1).bind fun e2 e2' h2 => (hm _ _ h2).bind fun e3 e3' h3 =>
    RE.pure ?_
  rl

theorem LRel.gdema {ma : MA V} {v : V} {p : ℕ} (hm : ∀ a a', R.rv a a' → RE R.rv (ma p a) (ma p a')) {a a' : Line V}
    (h : R.rv a a') : RE R.rv (Ind.gdema ma v p a) (Ind.gdema ma v p a') := by
  unfold Ind.gdema
  refine (hm _ _ h).bind fun e1 e1' h1 => (hm _ _ h1).bind fun e2 e2' h2 => RE.pure ?_
  rl

theorem LRel.sma {p : ℕ} (hp : 1 ≤ p) {a a' : Line V} (h : R.rv a a') : RE R.rv (Ind.sma p a) (Ind.sma p a') :=
  RE.ok (R.rolling hp h)

theorem LRel.trima {p : ℕ} (hp : 1 ≤ p) {a a' : Line V} (h : R.rv a a') : RE R.rv (Ind.trima p a) (Ind.trima p a') := by
  unfold Ind.trima
  by_cases ho : p % 2 = 1
  · simp only [if_pos ho]
    exact (LRel.sma (by omega) h).bind fun e e' h1 => LRel.sma (by omega) h1
  · simp only [if_neg ho]
    exact (LRel.sma (by omega) h).bind fun e e' h1 => LRel.sma (by omega) h1

theorem LRel.t3 {v : V} {p : ℕ} (hc : R.acc) (hp : 1 ≤ p) {a a' : Line V} (h : R.rv a a') :
    RE R.rv (Ind.t3 v p a) (Ind.t3 v p a') := by
  have hm : ∀ a a', R.rv a a' → RE R.rv (Ind.ema p a) (Ind.ema p a') :=
    fun a a' h => LRel.emaG hc hp (Or.inl rfl) h
  unfold Ind.t3
  refine (hm _ _ h).bind fun e1 e1' h1 => (hm _ _ h1).bind fun e2 e2' h2 => (hm _ _ h2).bind fun e3 e3' h3 =>
    (hm _ _ h3).bind fun e4 e4' h4 => (hm _ _ h4).bind fun e5 e5' h5 => (hm _ _ h5).bind fun e6 e6' h6 => RE.pure ?_
  rl

theorem LRel.kama {f s : V} {pv p : ℕ} {seed : Seed} (hc : R.early) (hp : 1 ≤ p) {a a' : Line V} (h : R.rv a a') :
    RE R.rv (Ind.kama f s pv seed p a) (Ind.kama f s pv seed p a') := by
  unfold Ind.kama
  have hpos := (R.pos h)
  have hd : R.rv (Line.diff p a) (Line.diff p a') := R.diff h
  have hv : R.rv (Ind.sumN p (Line.diff pv a).abs) (Ind.sumN p (Line.diff pv a').abs) := by
    rl
  have hmd : (Line.diff p a).minperiod = a.minperiod + p := by
    simp only [Line.diff, stdop, clone]; split <;> omega
  refine R.dyn hc (by omega) ?_ ?_ h
  · have hx : ∀ (w : V → V → V) (u y : Line V), 1 ≤ u.minperiod → u.minperiod ≤ (binop w nan u y).minperiod := by
      intro w u y hu
      simp only [binop, clone]; split <;> omega
    have hy : ∀ (w : V → V) (u : Line V), (mapOp w u).minperiod = u.minperiod := by
      intro w u
      simp only [mapOp, stdop, clone]; split <;> omega
    have hz : ∀ (w : V → V → V) (u : Line V) (c : V), u.minperiod ≤ (binopS w nan u c).minperiod := by
      intro w u c
      simp only [binopS, clone]; split <;> omega
    simp only [hy, Line.addS, Line.mulS, Line.abs]
    refine lt_of_lt_of_le ?_ (le_trans (hz _ _ _) (hz _ _ _))
    rw [hy]
    refine lt_of_lt_of_le ?_ (hx _ _ _ (by omega))
    omega
  · rl

/-- each average of the catalogue preserves the relation -/
theorem Avg.rel (m : Avg V) : ∀ (q p : ℕ) (a a' : Line V), m.Ok R.acc R.plain R.early q p → (q : Int) ≤ a.minperiod →
    (q : Int) ≤ a'.minperiod →
    R.rv a a' → RE R.rv (m.run p a) (m.run p a') := by
  have one : ∀ {a a' : Line V}, R.rv a a' → ((1 : ℕ) : Int) ≤ a.minperiod := fun h => by
    have := (R.pos h); omega
  have one' : ∀ {a a' : Line V}, R.rv a a' → ((1 : ℕ) : Int) ≤ a'.minperiod := fun h => by
    have := R.pos' h; omega
  induction m with
  | sma => intro q p a a' hk hq hq' h; exact LRel.sma hk h
  | ema s o => intro q p a a' hk hq hq' h; exact LRel.emaG hk.1 hk.2.1 hk.2.2 h
  | smma s => intro q p a a' hk hq hq' h; exact LRel.smmaG hk.1 hk.2 h
  | ewma adj => intro q p a a' hk hq hq' h; exact R.unseeded hk.1 hk.2 h
  | wma => intro q p a a' hk hq hq' h; exact RE.ok (by have : 1 ≤ p := hk; rl)
  | sumN => intro q p a a' hk hq hq' h; exact RE.ok (R.rolling hk h)
  | trima => intro q p a a' hk hq hq' h; exact LRel.trima hk h
  | dema m ih => intro q p a a' hk hq hq' h; exact LRel.dema (fun b b' hb => ih 1 p b b' hk (one hb) (one' hb) hb) h
  | tema m ih => intro q p a a' hk hq hq' h; exact LRel.tema (fun b b' hb => ih 1 p b b' hk (one hb) (one' hb) hb) h
  | trix m ih => intro q p a a' hk hq hq' h; exact LRel.trix (fun b b' hb => ih 1 p b b' hk (one hb) (one' hb) hb) h
  | gdema m v ih => intro q p a a' hk hq hq' h; exact LRel.gdema (fun b b' hb => ih 1 p b b' hk (one hb) (one' hb) hb) h
  | t3 v => intro q p a a' hk hq hq' h; exact LRel.t3 hk.1 hk.2 h
  | t3gd m v ih =>
    intro q p a a' hk hq hq' h
    have hm : ∀ b b', R.rv b b' → RE R.rv (Ind.gdema m.run v p b) (Ind.gdema m.run v p b') :=
      fun b b' hb => LRel.gdema (fun b b' hb => ih 1 p b b' hk (one hb) (one' hb) hb) hb
    exact (hm _ _ h).bind fun e e' h1 => (hm _ _ h1).bind fun e e' h2 => hm _ _ h2
  | kama f s pv sd => intro q p a a' hk hq hq' h; exact LRel.kama hk.1 hk.2 h
  | smacc sp e sd =>
    intro q p a a' hk hq hq' h
    refine LRel.smacc hk.1 hk.2.1 ?_ h
    intro he
    have := hk.2.2 he
    omega

end

/-! ## calls -/

/-- Parameters for which the call is meant: periods of at least one bar, averages accordingly; `acc`, `plain`, `early`, `anyLoop`
restrict the calls to those whose operations have the property in question (see `LRel`). -/
def Call.Ok (acc plain early anyLoop : Prop) : Call V → Prop
  | .avg m p => m.Ok acc plain early 1 p
  | .add => True
  | .sub => True
  | .mult => True
  | .div => True
  | .max p => 1 ≤ p
  | .min p => 1 ≤ p
  | .minmax p => 1 ≤ p
  | .maxindex p => 1 ≤ p
  | .minindex p => 1 ≤ p
  | .maxindexAbs p => early
  | .minindexAbs p => early
  | .minmaxindex b p => if b = true then early else 1 ≤ p
  | .avgprice _ => True
  | .typprice _ => True
  | .wclprice _ _ => True
  | .medprice _ => True
  | .macd mf ma ms pf ps pg => mf.Ok acc plain early 1 pf ∧ ma.Ok acc plain early 1 ps ∧ ms.Ok acc plain early 1 pg
  | .apo ma pf ps => ma.Ok acc plain early 1 pf ∧ ma.Ok acc plain early 1 ps
  | .ppo _ ma ms pf ps pg => ma.Ok acc plain early 1 pf ∧ ma.Ok acc plain early 1 ps ∧ ms.Ok acc plain early 1 pg
  | .mom _ => True
  | .roc _ => True
  | .rocp _ => True
  | .rocr _ => True
  | .rocr100 _ => True
  | .rsi ma _ p => ma.Ok acc plain early 1 p
  | .cmo sum p => sum.Ok acc plain early 1 p
  | .mad p => 1 ≤ p
  | .cci ma _ p => ma.Ok acc plain early 1 p ∧ 1 ≤ p
  | .var _ p => 1 ≤ p
  | .stddev _ _ p => 1 ≤ p
  | .bbands _ ma _ p => ma.Ok acc plain early 1 p ∧ 1 ≤ p
  | .stochf ma p pf => 1 ≤ p ∧ ma.Ok acc plain early 1 pf
  | .stochastic ma ms p pf ps => 1 ≤ p ∧ ma.Ok acc plain early 1 pf ∧ ms.Ok acc plain early 1 ps
  | .williamsr p => 1 ≤ p
  | .stochrsi p ph _ => acc ∧ 1 ≤ p ∧ 1 ≤ ph
  | .stochrsiD ma p ph pf _ => acc ∧ 1 ≤ p ∧ 1 ≤ ph ∧ ma.Ok acc plain early 1 pf
  | .midprice p => 1 ≤ p
  | .midpoint p => 1 ≤ p
  | .bop => True
  | .truelow _ => True
  | .truerange _ => True
  | .atr ma _ p => ma.Ok acc plain early 1 p
  | .natr ma _ p => ma.Ok acc plain early 1 p
  | .ultosc p1 p2 p3 _ _ _ => 1 ≤ p1 ∧ 1 ≤ p2 ∧ 1 ≤ p3
  | .mfi p => 1 ≤ p
  | .obv t q => acc ∧ (t = true → 1 ≤ q)
  | .ad => acc
  | .adosc ma pf ps => acc ∧ ma.Ok acc plain early 1 pf ∧ ma.Ok acc plain early 1 ps
  | .aroon _ => True
  | .aroonosc _ => True
  | .linregSlope p => 1 ≤ p
  | .linregAngle _ _ p => 1 ≤ p
  | .linregIntercept _ p => 1 ≤ p
  | .linreg p => 1 ≤ p
  | .tsf p => 1 ≤ p
  | .beta rets _ p => (rets = true → acc) ∧ 1 ≤ p
  | .correl _ p => 1 ≤ p
  | .crossup s => s = false → acc
  | .crossdown s => s = false → acc
  | .crossover s => True
  | .plusDm sm ps q => 1 ≤ q ∧ sm.Ok acc plain early 2 ps
  | .minusDm sm ps q => 1 ≤ q ∧ sm.Ok acc plain early 2 ps
  | .dm sm ps q => 1 ≤ q ∧ sm.Ok acc plain early 2 ps
  | .plusDi sm ps q _ => 1 ≤ q ∧ sm.Ok acc plain early 2 ps
  | .minusDi sm ps q _ => 1 ≤ q ∧ sm.Ok acc plain early 2 ps
  | .di sm ps q _ => 1 ≤ q ∧ sm.Ok acc plain early 2 ps
  | .dx sm ps q _ => 1 ≤ q ∧ sm.Ok acc plain early 2 ps
  | .adx sm ma ps q _ p => 1 ≤ q ∧ sm.Ok acc plain early 2 ps ∧ ma.Ok acc plain early 1 p
  | .adxr sm ma ps q t p pr => 1 ≤ q ∧ sm.Ok acc plain early 2 ps ∧ ma.Ok acc plain early 1 p ∧ 1 ≤ p
  | .sar _ _ => acc
  | .sarext _ => acc
  | .htDcperiod _ => acc
  | .htPhasor _ => acc
  | .htDcphase _ => anyLoop ∧ acc
  | .htSine _ => anyLoop ∧ acc
  | .htTrendline _ => anyLoop ∧ acc
  | .htTrendmode _ => anyLoop ∧ acc
  | .mama _ _ _ _ => acc ∧ early
  | .mathFn _ => True

theorem sarLike_sar (af am : V) : SarLike (Ind.sarize af am) where
  short := by
    intro xs h
    match xs, h with
    | [], _ => rfl
    | [_], _ => rfl
    | _ :: _ :: _, h => simp at h
  scan := ⟨fun a b => Ind.sarGo af am (Ind.sarInit af a.1 a.2 b.1 b.2), fun a b => by
    refine scan_prefix (fun s => Ind.sarGo af am s)
      (fun s x => ((Ind.sarStep af am s x.1 x.2).2, (Ind.sarStep af am s x.1 x.2).1)) ?_ ?_ _
    · intro s; rfl
    · intro s x xs; rfl, fun _ _ _ => rfl⟩

theorem sarLike_sarext (P : Ind.SarExtP V) : SarLike (Ind.sarExtize P) where
  short := by
    intro xs h
    match xs, h with
    | [], _ => rfl
    | [_], _ => rfl
    | _ :: _ :: _, h => simp at h
  scan := ⟨fun a b => Ind.sarExtGo P (Ind.sarExtInit P a.1 a.2 b.1 b.2), fun a b => by
    refine scan_prefix (fun s => Ind.sarExtGo P s)
      (fun s x => ((Ind.sarExtStep P s x.1 x.2).2, (Ind.sarExtStep P s x.1 x.2).1)) ?_ ?_ _
    · intro s; rfl
    · intro s x xs; rfl, fun _ _ _ => rfl⟩

/-! ### the Hilbert loop -/

theorem htGo_length {σ : Type} (step : ℕ → σ → σ) (out : σ → V) : ∀ (k i : ℕ) (s : σ),
    (Ind.htGo step out k i s).length = k
  | 0, _, _ => rfl
  | k + 1, i, s => by simp [Ind.htGo, htGo_length step out k]

theorem htBuf_length {σ : Type} {start len : ℕ} {step : ℕ → σ → σ} {out : σ → V} {s0 : σ} :
    (Ind.htBuf start len step out s0).length = len := by
  simp [Ind.htBuf, htGo_length]; omega

theorem htGo_prefix {σ : Type} {step step' : ℕ → σ → σ} {out : σ → V} : ∀ (k k' i : ℕ) (s : σ), k ≤ k' →
    (∀ j s, i ≤ j → j < i + k → step j s = step' j s) →
    Ind.htGo step out k i s <+: Ind.htGo step' out k' i s
  | 0, _, _, _, _, _ => List.nil_prefix
  | k + 1, 0, _, _, h, _ => absurd h (by omega)
  | k + 1, k' + 1, i, s, h, he => by
    simp only [Ind.htGo]
    rw [← he i s (le_refl _) (by omega)]
    exact (List.prefix_cons_inj _).mpr (htGo_prefix k k' (i + 1) _ (by omega) (fun j s h1 h2 => he j s (by omega) (by omega)))

theorem htBuf_prefix {σ : Type} {start n n' : ℕ} {step step' : ℕ → σ → σ} {out : σ → V} {s0 : σ} (hn : n ≤ n')
    (he : ∀ j s, start ≤ j → j < n → step j s = step' j s) :
    Ind.htBuf start n step out s0 <+: Ind.htBuf start n' step' out s0 := by
  unfold Ind.htBuf
  by_cases hs : n ≤ start
  · rw [Nat.min_eq_right hs, show n - start = 0 from by omega]
    simp only [Ind.htGo, List.append_nil]
    refine List.IsPrefix.trans ?_ (List.prefix_append _ _)
    rw [prefix_iff_get]
    refine ⟨by simp; omega, ?_⟩
    intro i hi
    simp only [List.length_replicate] at hi
    rw [List.getElem?_replicate, List.getElem?_replicate, if_pos hi, if_pos (by omega)]
  · rw [Nat.min_eq_left (by omega), Nat.min_eq_left (by omega)]
    exact (List.prefix_append_right_inj _).mpr (htGo_prefix _ _ _ _ (by omega) (fun j s h1 h2 => he j s h1 (by omega)))

theorem pyGet_prefix {xs ys : List V} (h : xs <+: ys) {i : Int} (h0 : 0 ≤ i) (h1 : i < xs.length) :
    pyGet xs i = pyGet ys i := by
  unfold pyGet
  rw [prefix_iff_get] at h
  rw [if_pos h0, if_pos h0, h.2 _ (by omega)]

theorem htZero_prefix {xs ys : List V} (h : xs <+: ys) (start : ℕ) : Ind.htZero start xs <+: Ind.htZero start ys := by
  have hl := h.length_le
  unfold Ind.htZero pyFill
  rw [prefix_iff_get] at h
  have e0 : ∀ n, pyStart n (0 : Int) = 0 := by intro n; simp [pyStart]
  have e1 : ∀ n, pyStart n (start : Int) = min start n := by intro n; simp [pyStart]
  simp only [e0, e1, List.take_zero, List.nil_append, Nat.sub_zero, Nat.zero_max]
  rw [prefix_iff_get]
  refine ⟨by simp; omega, ?_⟩
  intro i hi
  simp only [List.length_append, List.length_replicate, List.length_drop] at hi
  by_cases hs : i < min start xs.length
  · rw [List.getElem?_append_left (by simpa using hs), List.getElem?_append_left (by simp; omega),
      List.getElem?_replicate, List.getElem?_replicate, if_pos hs, if_pos (by omega)]
  · rw [List.getElem?_append_right (by simp; omega), List.getElem?_append_right (by simp; omega)]
    rw [List.getElem?_drop, List.getElem?_drop]
    simp only [List.length_replicate]
    rw [h.2 _ (by omega)]
    congr 1; omega

theorem htZero_length {xs : List V} {start : ℕ} : (Ind.htZero start xs).length = xs.length := by
  simp [Ind.htZero, pyFill, pyStart]

theorem htStep_prefix {F : HtFns V} {xs ys : List V} (h : xs <+: ys) {i : ℕ} (h6 : 6 ≤ i) (hi : i < xs.length)
    (s : Ind.HtSt V) : Ind.htStep F xs i s = Ind.htStep F ys i s := by
  have e : ∀ adj, Ind.htHt xs adj i = Ind.htHt ys adj i := by
    intro adj
    unfold Ind.htHt Ind.htAt
    rw [pyGet_prefix h (by omega) (by omega), pyGet_prefix h (i := (i : Int) - 2) (by omega) (by omega),
      pyGet_prefix h (i := (i : Int) - 4) (by omega) (by omega), pyGet_prefix h (i := (i : Int) - 6) (by omega) (by omega)]
  simp only [Ind.htStep, e]

theorem CausalL.ht (F : HtFns V) (out : Ind.HtSt V → V) (start : ℕ) (hs : 6 ≤ start) :
    CausalL (fun price => Ind.htBuf start price.length (Ind.htStep F (Ind.htZero start price)) out Ind.HtSt.init) where
  len := fun xs => htBuf_length
  pre := fun xs ys h => htBuf_prefix h.length_le fun j s h1 h2 =>
    htStep_prefix (htZero_prefix h start) (by omega) (by rw [htZero_length]; exact h2) s

/-! ### minimum periods (lower bounds needed by `smacc`) -/

theorem mp_binop_left {α β γ : Type} {f : α → β → γ} {fill : γ} {a : Line α} {b : Line β} (h : 1 ≤ a.minperiod) :
    a.minperiod ≤ (binop f fill a b).minperiod := by
  simp only [binop, clone]; split <;> omega

theorem mp_binop_right {α β γ : Type} {f : α → β → γ} {fill : γ} {a : Line α} {b : Line β} (h : 1 ≤ a.minperiod) :
    b.minperiod ≤ (binop f fill a b).minperiod := by
  simp only [binop, clone]; split <;> omega

theorem mp_mapOp {f : V → V} {a : Line V} : (mapOp f a).minperiod = a.minperiod := by
  simp only [mapOp, stdop, clone]; split <;> omega

theorem mp_diff {k : ℕ} {a : Line V} : (Line.diff k a).minperiod = a.minperiod + k := by
  simp only [Line.diff, stdop, clone]; split <;> omega

theorem mp_ago {k : ℕ} (hk : 1 ≤ k) {a : Line V} : (ago (-(k : Int)) a).minperiod = a.minperiod + k := by
  unfold ago
  rw [if_neg (by omega), neg_neg]
  simp only [Line.shift, stdop, clone]; split <;> omega

theorem mp_stdop2 {f : V → V → V} {a b : Line V} (h : 1 ≤ a.minperiod) :
    a.minperiod ≤ (stdop2 (List.zipWith f) nan a b).minperiod := by
  simp only [stdop2, clone]; split <;> omega

section
variable {R : LRel V}

theorem LRel.htMid {a a' b b' : Line V} (h : R.rv a a') (g : R.rv b b') : R.rv (Ind.htMid a b) (Ind.htMid a' b') := by
  unfold Ind.htMid; rl

/-- the weighted sum before `_period(3)` -/
theorem LRel.ht4 {a a' : Line V} (h : R.rv a a') :
    R.rv ((((Line.rmulS (lit 4) a + Line.rmulS (lit 3) (ago (-1) a)) + Line.rmulS (lit 2) (ago (-2) a)) + ago (-3) a).divS (lit 10))
      ((((Line.rmulS (lit 4) a' + Line.rmulS (lit 3) (ago (-1) a')) + Line.rmulS (lit 2) (ago (-2) a')) + ago (-3) a').divS
        (lit 10)) := by
  rl

theorem LRel.htLoop {F : HtFns V} {out : Ind.HtSt V → V} {start : ℕ} (hs : 6 ≤ start) (hc : R.acc) {a a' : Line V}
    (h : R.rv a a') :
    R.rv (apply (fun price => Ind.htBuf start price.length (Ind.htStep F (Ind.htZero start price)) out Ind.HtSt.init) nan
        (Ind.htSmooth a))
      (apply (fun price => Ind.htBuf start price.length (Ind.htStep F (Ind.htZero start price)) out Ind.HtSt.init) nan
        (Ind.htSmooth a')) :=
  R.loop (j := 3) hc (CausalL.ht F out start hs) (LRel.ht4 h)

theorem LRel.htLoopAny {g : List V → List V} (hg : ∀ xs, (g xs).length = xs.length) (hc : R.anyLoop) {a a' : Line V}
    (h : R.rv a a') : R.rv (apply g nan (Ind.htSmooth a)) (apply g nan (Ind.htSmooth a')) :=
  R.loopAny (j := 3) hc hg (LRel.ht4 h)

theorem LRel.htLoopAny2 {g : List V → List V → List V} (hg : ∀ xs ys, (g xs ys).length = xs.length) (hc : R.anyLoop)
    {a a' : Line V} (h : R.rv a a') : R.rv (apply2 g nan (Ind.htSmooth a) a) (apply2 g nan (Ind.htSmooth a') a') :=
  R.loopAny2 (j := 3) hc hg (LRel.ht4 h) h

theorem LRel.htCheck (F : HtFns V) (hc : R.anyLoop) {a a' : Line V} (h : R.rv a a') : Ind.htCheck F a = Ind.htCheck F a' := by
  have := R.tails (j := 3) hc (LRel.ht4 h)
  unfold Ind.htCheck
  exact congrArg (fun p => Ind.htInts F (Ind.htZero 31 p) (p.length - 31) 31 Ind.HtSt.init) this

theorem LRel.checked {x x' : Except Err Unit} (hx : x = x') {α β : Type} {Q : α → β → Prop} {y : Except Err α} {y' : Except Err β}
    (h : RE Q y y') : RE Q (x >>= fun _ => y) (x' >>= fun _ => y') := by
  subst hx
  exact RE.bind (Q := fun _ _ => True) (fun r hr => ⟨r, hr, trivial⟩) fun _ _ _ => h

theorem mp_clone_apply {g : List V → List V} {a : Line V} : (apply g nan a).minperiod = a.minperiod := by
  simp only [apply, clone]; split <;> omega

theorem mp_dyn {c : EwmCfg} {al a r : Line V} (h : ewmDyn c al a = .ok r) :
    r.minperiod = (if max (a.minperiod + (c.pval - c.pearly - 1)) al.minperiod = 0 then a.minperiod
      else max (a.minperiod + (c.pval - c.pearly - 1)) al.minperiod) := by
  unfold ewmDyn at h
  simp only at h
  split at h
  · cases h
  · unfold ewmCall at h
    simp only at h
    split at h
    · cases h
    · split at h
      · injection h with h; rw [← h]; simp only [clone]
      · cases h

theorem RE.keep {α β : Type} {Q : α → β → Prop} {x : Except Err α} {y : Except Err β} (h : RE Q x y) :
    RE (fun r r' => Q r r' ∧ x = .ok r ∧ y = .ok r') x y := by
  intro r hr
  obtain ⟨r', h1, h2⟩ := h r hr
  exact ⟨r', h1, h2, hr, h1⟩

theorem LRel.mama {F : HtFns V} {at' : V → V} {f s : V} (hc : R.acc) (hd : R.early) {a a' : Line V} (h : R.rv a a') :
    RE (fun r r' => R.rv r.1 r'.1 ∧ R.rv r.2 r'.2) (Ind.mama F at' f s a) (Ind.mama F at' f s a') := by
  unfold Ind.mama
  have hi1 := LRel.htLoop (F := F) (out := fun s => Ind.htAt s.i1 6) (start := 6) (le_refl _) hc h
  have hq1 := LRel.htLoop (F := F) (out := fun s => Ind.htAt s.q1 6) (start := 6) (le_refl _) hc h
  generalize hgi : apply (fun price => Ind.htBuf 6 price.length (Ind.htStep F (Ind.htZero 6 price)) (fun s => Ind.htAt s.i1 6)
    Ind.HtSt.init) nan (Ind.htSmooth a) = i1 at *
  generalize hgi' : apply (fun price => Ind.htBuf 6 price.length (Ind.htStep F (Ind.htZero 6 price)) (fun s => Ind.htAt s.i1 6)
    Ind.HtSt.init) nan (Ind.htSmooth a') = i1' at *
  generalize hgq : apply (fun price => Ind.htBuf 6 price.length (Ind.htStep F (Ind.htZero 6 price)) (fun s => Ind.htAt s.q1 6)
    Ind.HtSt.init) nan (Ind.htSmooth a) = q1 at *
  generalize hgq' : apply (fun price => Ind.htBuf 6 price.length (Ind.htStep F (Ind.htZero 6 price)) (fun s => Ind.htAt s.q1 6)
    Ind.HtSt.init) nan (Ind.htSmooth a') = q1' at *
  have hnum : R.rv (Ind.maskL (period 6 none q1) (binopS (fun x c => eqv x c) true i1 (lit 0)))
      (Ind.maskL (period 6 none q1') (binopS (fun x c => eqv x c) true i1' (lit 0))) :=
    R.mask (j := 6) hq1 (R.cmpS hi1)
  have hph : R.rv (Line.rmulS F.rad2deg (mapOp (fun x => if isNaN x then lit 0 else x) (mapOp at'
        (Ind.maskL (period 6 none q1) (binopS (fun x c => eqv x c) true i1 (lit 0)) / i1))))
      (Line.rmulS F.rad2deg (mapOp (fun x => if isNaN x then lit 0 else x) (mapOp at'
        (Ind.maskL (period 6 none q1') (binopS (fun x c => eqv x c) true i1' (lit 0)) / i1')))) := by
    rl
  have hmpq := (R.pos hq1)
  have hmp2 : 2 ≤ (Line.rmulS F.rad2deg (mapOp (fun x => if isNaN x then lit 0 else x) (mapOp at'
        (Ind.maskL (period 6 none q1) (binopS (fun x c => eqv x c) true i1 (lit 0)) / i1)))).minperiod := by
    have e1 : (period 6 none q1).minperiod = q1.minperiod + 6 := by simp [period]
    have e2 : q1.minperiod + 6 ≤ (Ind.maskL (period 6 none q1) (binopS (fun x c => eqv x c) true i1 (lit 0))).minperiod := by
      rw [← e1]
      simp only [Ind.maskL, stdop2, clone]; split <;> omega
    have e3 : ∀ c : V, ∀ l : Line V, l.minperiod ≤ (Line.rmulS c l).minperiod := by
      intro c l
      simp only [Line.rmulS, binopS, clone]; split <;> omega
    refine le_trans ?_ (e3 _ _)
    rw [mp_mapOp, mp_mapOp]
    exact le_trans (by omega) (mp_binop_left (f := (· / ·)) (fill := (nan : V)) (b := i1)
      (a := Ind.maskL (period 6 none q1) (binopS (fun x c => eqv x c) true i1 (lit 0))) (by omega))
  have hmpq' := R.pos' hq1
  have hmp2' : 2 ≤ (Line.rmulS F.rad2deg (mapOp (fun x => if isNaN x then lit 0 else x) (mapOp at'
        (Ind.maskL (period 6 none q1') (binopS (fun x c => eqv x c) true i1' (lit 0)) / i1')))).minperiod := by
    have e1 : (period 6 none q1').minperiod = q1'.minperiod + 6 := by simp [period]
    have e2 : q1'.minperiod + 6 ≤ (Ind.maskL (period 6 none q1') (binopS (fun x c => eqv x c) true i1' (lit 0))).minperiod := by
      rw [← e1]
      simp only [Ind.maskL, stdop2, clone]; split <;> omega
    have e3 : ∀ c : V, ∀ l : Line V, l.minperiod ≤ (Line.rmulS c l).minperiod := by
      intro c l
      simp only [Line.rmulS, binopS, clone]; split <;> omega
    refine le_trans ?_ (e3 _ _)
    rw [mp_mapOp, mp_mapOp]
    exact le_trans (by omega) (mp_binop_left (f := (· / ·)) (fill := (nan : V)) (b := i1')
      (a := Ind.maskL (period 6 none q1') (binopS (fun x c => eqv x c) true i1' (lit 0))) (by omega))
  have hback := R.back (v := lit 0) hc hmp2 hmp2' hph
  simp only []
  generalize hgp : period (-1) (some (lit 0)) (Line.rmulS F.rad2deg (mapOp (fun x => if isNaN x then lit 0 else x) (mapOp at'
        (Ind.maskL (period 6 none q1) (binopS (fun x c => eqv x c) true i1 (lit 0)) / i1)))) = ph at *
  generalize hgp' : period (-1) (some (lit 0)) (Line.rmulS F.rad2deg (mapOp (fun x => if isNaN x then lit 0 else x) (mapOp at'
        (Ind.maskL (period 6 none q1') (binopS (fun x c => eqv x c) true i1' (lit 0)) / i1')))) = ph' at *
  have hal : R.rv ((Line.rdivS f ((ago (-1) ph - ph).clipLoS (lit 1))).clipLoS s)
      ((Line.rdivS f ((ago (-1) ph' - ph').clipLoS (lit 1))).clipLoS s) := by rl
  have hmpp := (R.pos hback)
  have hmal : 2 ≤ ((Line.rdivS f ((ago (-1) ph - ph).clipLoS (lit 1))).clipLoS s).minperiod := by
    have e3 : ∀ c : V, ∀ l : Line V, l.minperiod ≤ (Line.rdivS c l).minperiod := by
      intro c l
      simp only [Line.rdivS, binopS, clone]; split <;> omega
    have e4 : (ago (-1) ph).minperiod = ph.minperiod + 1 := mp_ago (k := 1) (le_refl _)
    unfold Line.clipLoS
    rw [mp_mapOp]
    refine le_trans ?_ (e3 _ _)
    rw [mp_mapOp]
    exact le_trans (by omega) (mp_binop_left (f := (· - ·)) (fill := (nan : V)) (b := ph) (a := ago (-1) ph) (by omega))
  generalize hga : (Line.rdivS f ((ago (-1) ph - ph).clipLoS (lit 1))).clipLoS s = al at *
  generalize hga' : (Line.rdivS f ((ago (-1) ph' - ph').clipLoS (lit 1))).clipLoS s = al' at *
  refine (R.dyn (pval := 1) (seed := .zero) hd (by omega) (by omega) hal h).keep.bind ?_
  intro m m' hm
  have hmm := mp_dyn hm.2.1
  simp only at hmm
  have hpa := (R.pos h)
  have hmp1 : al.minperiod ≤ m.minperiod := by
    rw [hmm]; split <;> omega
  have e5 : (al.mulS (lit (1 / 2))).minperiod = al.minperiod := by
    simp only [Line.mulS, binopS, clone]; split <;> omega
  refine (R.dyn (pval := 0) (seed := .zero) hd (fun _ => ⟨by omega, by omega⟩) (by omega) (LRel.mulS hal) hm.1).bind ?_
  intro g g' hg
  exact RE.pure ⟨R.fill (k := 20) hc hm.1, R.fill (k := 20) hc hg⟩

theorem LRel.posc {fast : Bool} {ma : MA V} {pf ps : ℕ} {a a' : Line V}
    (h1 : ∀ a a', R.rv a a' → RE R.rv (ma pf a) (ma pf a')) (h2 : ∀ a a', R.rv a a' → RE R.rv (ma ps a) (ma ps a'))
    (h : R.rv a a') :
    RE (fun r r' => R.rv r.1 r'.1 ∧ R.rv r.2 r'.2) (Ind.posc fast ma pf ps a) (Ind.posc fast ma pf ps a') := by
  unfold Ind.posc
  refine (h1 _ _ h).bind fun e1 e1' g1 => (h2 _ _ h).bind fun e2 e2' g2 => RE.pure ?_
  cases fast
  · exact ⟨g1, g2⟩
  · exact ⟨g2, g1⟩

theorem LRel.rsi {ma : MA V} {lb p : ℕ} {a a' : Line V} (h1 : ∀ a a', R.rv a a' → RE R.rv (ma p a) (ma p a'))
    (h : R.rv a a') : RE R.rv (Ind.rsi ma lb p a) (Ind.rsi ma lb p a') := by
  unfold Ind.rsi
  have e1 : R.rv ((Line.diff lb a).clipLoS (lit 0)) ((Line.diff lb a').clipLoS (lit 0)) := by rl
  have e2 : R.rv ((Line.diff lb a).clipHiS (lit 0)).abs ((Line.diff lb a').clipHiS (lit 0)).abs := by rl
  refine (h1 _ _ e1).bind fun u u' g1 => (h1 _ _ e2).bind fun d d' g2 => RE.pure ?_
  rl

theorem LRel.stochrsi {p ph : ℕ} {sc : V} {a a' : Line V} (hc : R.acc) (hp : 1 ≤ p) (hh : 1 ≤ ph)
    (h : R.rv a a') : RE R.rv (Ind.stochrsi p ph sc a) (Ind.stochrsi p ph sc a') := by
  unfold Ind.stochrsi
  refine (LRel.rsi (fun b b' hb => LRel.smmaG hc hp hb) h).bind fun r r' g => RE.pure ?_
  rl

theorem LRel.stochf {ma : MA V} {p pf : ℕ} (hp : 1 ≤ p) {x y z x' y' z' : Line V}
    (h1 : ∀ a a', R.rv a a' → RE R.rv (ma pf a) (ma pf a')) (hx : R.rv x x') (hy : R.rv y y') (hz : R.rv z z') :
    RE (fun r r' => R.rv r.1 r'.1 ∧ R.rv r.2 r'.2) (Ind.stochf ma p pf x y z) (Ind.stochf ma p pf x' y' z') := by
  unfold Ind.stochf
  have hk : R.rv ((Line.rmulS (lit 100) (z - Ind.lowest p y)) / (Ind.highest p x - Ind.lowest p y))
      ((Line.rmulS (lit 100) (z' - Ind.lowest p y')) / (Ind.highest p x' - Ind.lowest p y')) := by rl
  exact (h1 _ _ hk).bind fun d d' g => RE.pure ⟨hk, g⟩

theorem LRel.truerange {q : ℕ} {x y z x' y' z' : Line V} (hx : R.rv x x') (hy : R.rv y y') (hz : R.rv z z') :
    R.rv (Ind.truerange q x y z) (Ind.truerange q x' y' z') := by
  unfold Ind.truerange; rl

theorem mp_truerange {q : ℕ} (hq : 1 ≤ q) {x y z : Line V} (hz : 1 ≤ z.minperiod) :
    2 ≤ (Ind.truerange q x y z).minperiod := by
  unfold Ind.truerange
  have h1 := mp_ago hq (a := z)
  have h2 := mp_stdop2 (f := clipLo) (a := ago (-(q : Int)) z) (b := x) (by omega)
  exact le_trans (le_trans (by omega) h2) (mp_binop_left (f := (· - ·)) (fill := (nan : V)) (a := clipLoL (ago (-(q : Int)) z) x)
    (by unfold Line.clipLoL; omega))

theorem LRel.pdm1 {q : ℕ} {x y x' y' : Line V} (hx : R.rv x x') (hy : R.rv y y') :
    R.rv (Ind.pdm1 q x y) (Ind.pdm1 q x' y') := by
  unfold Ind.pdm1 Ind.dmMoves; simp only []; rl

theorem LRel.mdm1 {q : ℕ} {x y x' y' : Line V} (hx : R.rv x x') (hy : R.rv y y') :
    R.rv (Ind.mdm1 q x y) (Ind.mdm1 q x' y') := by
  unfold Ind.mdm1 Ind.dmMoves; simp only []; rl

theorem mp_pdm1 {q : ℕ} (hq : 1 ≤ q) {x y : Line V} (hx : 1 ≤ x.minperiod) : 2 ≤ (Ind.pdm1 q x y).minperiod := by
  unfold Ind.pdm1 Ind.dmMoves
  simp only []
  have h1 : ((Line.diff q x).clipLoS (lit 0)).minperiod = x.minperiod + q := by
    unfold Line.clipLoS; rw [mp_mapOp, mp_diff]
  exact le_trans (by omega) (mp_binop_left (f := fun (x : V) (y : Bool) => x * ofBool y) (fill := (nan : V))
    (a := (Line.diff q x).clipLoS (lit 0)) (by omega))

theorem mp_mdm1 {q : ℕ} (hq : 1 ≤ q) {x y : Line V} (hy : 1 ≤ y.minperiod) : 2 ≤ (Ind.mdm1 q x y).minperiod := by
  unfold Ind.mdm1 Ind.dmMoves
  simp only []
  have h0 := mp_ago hq (a := y)
  have h2 := mp_binop_left (f := fun (a b : V) => a - b) (fill := (nan : V)) (a := ago (-(q : Int)) y) (b := y) (by omega)
  have h1 : ((ago (-(q : Int)) y - y).clipLoS (lit 0)).minperiod = (ago (-(q : Int)) y - y).minperiod := by
    unfold Line.clipLoS; rw [mp_mapOp]
  have h3 : (ago (-(q : Int)) y).minperiod ≤ (ago (-(q : Int)) y - y).minperiod := h2
  exact le_trans (by omega) (mp_binop_left (f := fun (x : V) (y : Bool) => x * ofBool y) (fill := (nan : V))
    (a := (ago (-(q : Int)) y - y).clipLoS (lit 0)) (by omega))

/-- a smoother of directional movement: related on lines with minimum period at least 2 -/
def LRel.Sm (R : LRel V) (sm : Line V → Except Err (Line V)) : Prop :=
  ∀ a a', 2 ≤ a.minperiod → 2 ≤ a'.minperiod → R.rv a a' → RE R.rv (sm a) (sm a')

variable {sm : Line V → Except Err (Line V)} {x x' y y' z z' : Line V} {q : ℕ} {t : Bool}

theorem LRel.plusDm (hs : R.Sm sm) (hq : 1 ≤ q) (hx : R.rv x x') (hy : R.rv y y') :
    RE R.rv (Ind.plusDm sm q x y) (Ind.plusDm sm q x' y') :=
  hs _ _ (mp_pdm1 hq (R.pos hx)) (mp_pdm1 hq (R.pos' hx)) (LRel.pdm1 hx hy)

theorem LRel.minusDm (hs : R.Sm sm) (hq : 1 ≤ q) (hx : R.rv x x') (hy : R.rv y y') :
    RE R.rv (Ind.minusDm sm q x y) (Ind.minusDm sm q x' y') :=
  hs _ _ (mp_mdm1 hq (R.pos hy)) (mp_mdm1 hq (R.pos' hy)) (LRel.mdm1 hx hy)

theorem LRel.diTrp (hs : R.Sm sm) (hq : 1 ≤ q) (hx : R.rv x x') (hy : R.rv y y') (hz : R.rv z z') :
    RE (fun r r' => R.rv r.first r'.first ∧ r.minperiod = r.first.minperiod + 1 ∧ r'.minperiod = r'.first.minperiod + 1)
      (Ind.diTrp sm q t x y z) (Ind.diTrp sm q t x' y' z') := by
  unfold Ind.diTrp
  refine (hs _ _ (mp_truerange hq (R.pos hz)) (mp_truerange hq (R.pos' hz)) (LRel.truerange hx hy hz)).bind fun r r' h => RE.pure ⟨h, rfl, rfl⟩

theorem LRel.plusDi (hs : R.Sm sm) (hq : 1 ≤ q) (hx : R.rv x x') (hy : R.rv y y') (hz : R.rv z z') :
    RE R.rv (Ind.plusDi sm q t x y z) (Ind.plusDi sm q t x' y' z') := by
  unfold Ind.plusDi
  refine (LRel.plusDm hs hq hx hy).bind fun d d' h => (LRel.diTrp hs hq hx hy hz).bind fun r r' g => RE.pure ?_
  simp only [Line.op, g.2.1, g.2.2]
  exact R.binUp (LRel.rmulS h) g.1

theorem LRel.minusDi (hs : R.Sm sm) (hq : 1 ≤ q) (hx : R.rv x x') (hy : R.rv y y') (hz : R.rv z z') :
    RE R.rv (Ind.minusDi sm q t x y z) (Ind.minusDi sm q t x' y' z') := by
  unfold Ind.minusDi
  refine (LRel.minusDm hs hq hx hy).bind fun d d' h => (LRel.diTrp hs hq hx hy hz).bind fun r r' g => RE.pure ?_
  simp only [Line.op, g.2.1, g.2.2]
  exact R.binUp (LRel.rmulS h) g.1

theorem LRel.dx (hs : R.Sm sm) (hq : 1 ≤ q) (hx : R.rv x x') (hy : R.rv y y') (hz : R.rv z z') :
    RE R.rv (Ind.dx sm q t x y z) (Ind.dx sm q t x' y' z') := by
  unfold Ind.dx
  refine (LRel.plusDi hs hq hx hy hz).bind fun d d' h => (LRel.minusDi hs hq hx hy hz).bind fun r r' g => RE.pure ?_
  rl

theorem LRel.adx {ma : MA V} {p : ℕ} (h1 : ∀ a a', R.rv a a' → RE R.rv (ma p a) (ma p a')) (hs : R.Sm sm) (hq : 1 ≤ q)
    (hx : R.rv x x') (hy : R.rv y y') (hz : R.rv z z') :
    RE R.rv (Ind.adx sm ma q t p x y z) (Ind.adx sm ma q t p x' y' z') := by
  unfold Ind.adx
  exact (LRel.dx hs hq hx hy hz).bind fun d d' h => h1 _ _ h

theorem LRel.adxr {ma : MA V} {p : ℕ} {pr : Option ℕ} (hp : 1 ≤ p) (h1 : ∀ a a', R.rv a a' → RE R.rv (ma p a) (ma p a'))
    (hs : R.Sm sm) (hq : 1 ≤ q) (hx : R.rv x x') (hy : R.rv y y') (hz : R.rv z z') :
    RE R.rv (Ind.adxr sm ma q t p pr x y z) (Ind.adxr sm ma q t p pr x' y' z') := by
  unfold Ind.adxr
  refine (LRel.adx h1 hs hq hx hy hz).bind fun d d' h => RE.pure ?_
  have key : ∀ per : Int, 0 ≤ per → R.rv ((d + ago (-per) d).divS (lit 2)) ((d' + ago (-per) d').divS (lit 2)) := by
    intro per hper
    obtain ⟨k, rfl⟩ := Int.eq_ofNat_of_zero_le hper
    rl
  refine key _ ?_
  split <;> split <;> (try omega)
  all_goals
    rename_i r hr _
    have : r ≠ 0 := fun h0 => hr (by rw [h0])
    omega

theorem LRel.linregBase {m1 : Bool} {p : ℕ} (hp : 1 ≤ p) {a a' : Line V} (h : R.rv a a') :
    R.rv (Ind.linregBase m1 p a).1 (Ind.linregBase m1 p a').1 ∧ R.rv (Ind.linregBase m1 p a).2 (Ind.linregBase m1 p a').2 := by
  unfold Ind.linregBase
  simp only []
  constructor <;> rl

theorem LRel.crossDiff {s : Bool} (hs : s = false → R.acc) (hx : R.rv x x') (hy : R.rv y y') :
    R.rv (Ind.crossDiff s x y) (Ind.crossDiff s x' y') := by
  unfold Ind.crossDiff
  have h1 : R.rv (Line.shift 1 (x - y)) (Line.shift 1 (x' - y')) := R.shift (k := 1) (LRel.sub hx hy)
  cases s with
  | true => exact h1
  | false => exact R.cum (hs rfl) CausalL.replaceZero h1

theorem LRel.ad {v v' : Line V} (hc : R.acc) (hx : R.rv x x') (hy : R.rv y y') (hz : R.rv z z') (hv : R.rv v v') :
    R.rv (Ind.ad x y z v) (Ind.ad x' y' z' v') := by
  unfold Ind.ad; simp only []; rl

theorem LRel.aroonComp {arg : List V → ℕ} {p : ℕ} (hx : R.rv x x') :
    R.rv (Ind.aroonComp arg p x) (Ind.aroonComp arg p x') := by
  unfold Ind.aroonComp; simp only []
  have : 1 ≤ p + 1 := by omega
  rl

theorem LRel.one (h : R.rv x x') : RE (List.Forall₂ R.rv) (Bta.one x) (Bta.one x') :=
  RE.ok (List.Forall₂.cons h List.Forall₂.nil)

theorem LRel.oneE {a a' : Except Err (Line V)} (h : RE R.rv a a') : RE (List.Forall₂ R.rv) (Bta.oneE a) (Bta.oneE a') :=
  h.bind fun _ _ g => RE.pure (List.Forall₂.cons g List.Forall₂.nil)

theorem LRel.pair (h : R.rv x x') (g : R.rv y y') : RE (List.Forall₂ R.rv) (.ok [x, y] : Except Err _) (.ok [x', y']) :=
  RE.ok (List.Forall₂.cons h (List.Forall₂.cons g List.Forall₂.nil))

theorem LRel.twoE {a a' : Except Err (Line V × Line V)} (h : RE (fun r r' => R.rv r.1 r'.1 ∧ R.rv r.2 r'.2) a a') :
    RE (List.Forall₂ R.rv) (Bta.twoE a) (Bta.twoE a') :=
  h.bind fun _ _ g => RE.pure (List.Forall₂.cons g.1 (List.Forall₂.cons g.2 List.Forall₂.nil))

theorem LRel.threeE {a a' : Except Err (Line V × Line V × Line V)}
    (h : RE (fun r r' => R.rv r.1 r'.1 ∧ R.rv r.2.1 r'.2.1 ∧ R.rv r.2.2 r'.2.2) a a') :
    RE (List.Forall₂ R.rv) (Bta.threeE a) (Bta.threeE a') :=
  h.bind fun _ _ g => RE.pure (List.Forall₂.cons g.1 (List.Forall₂.cons g.2.1 (List.Forall₂.cons g.2.2 List.Forall₂.nil)))

end

/-- each indicator of the catalogue preserves the relation; `correl` looks at the second input from the first one's
minimum period on, hence the hypothesis `hc` -/
theorem Call.rel (R : LRel V) (c : Call V) (hk : c.Ok R.acc R.plain R.early R.anyLoop) (x x' : ℕ → Line V)
    (hx : ∀ k, R.rv (x k) (x' k)) (hc : R.acc ∨ (x 1).minperiod ≤ (x 0).minperiod) :
    RE (List.Forall₂ R.rv) (c.run x) (c.run x') := by
  have h0 := hx 0
  have h1 := hx 1
  have h2 := hx 2
  have h3 := hx 3
  have av : ∀ {m : Avg V} {p : ℕ}, m.Ok R.acc R.plain R.early 1 p → ∀ a a', R.rv a a' → RE R.rv (m.run p a) (m.run p a') :=
    fun hm a a' h => Avg.rel _ 1 _ a a' hm (by have := R.pos h; omega) (by have := R.pos' h; omega) h
  have sm : ∀ {m : Avg V} {p : ℕ}, m.Ok R.acc R.plain R.early 2 p → R.Sm (m.run p) :=
    fun hm a a' h2 h2' h => Avg.rel _ 2 _ a a' hm (by omega) (by omega) h
  cases c with
  | avg m p => exact LRel.oneE (av hk _ _ h0)
  | add => exact LRel.one (LRel.add h0 h1)
  | sub => exact LRel.one (LRel.sub h0 h1)
  | mult => exact LRel.one (LRel.mul h0 h1)
  | div => exact LRel.one (LRel.div h0 h1)
  | max p => exact LRel.one (R.rolling hk h0)
  | min p => exact LRel.one (R.rolling hk h0)
  | minmax p => exact LRel.pair (R.rolling hk h0) (R.rolling hk h0)
  | maxindex p => exact LRel.one (R.rolling hk h0)
  | minindex p => exact LRel.one (R.rolling hk h0)
  | maxindexAbs p => exact LRel.one (R.absIdx hk h0)
  | minindexAbs p => exact LRel.one (R.absIdx hk h0)
  | minmaxindex b p =>
    cases b with
    | true =>
      have hk' : R.early := by simpa [Call.Ok] using hk
      exact LRel.pair (R.absIdx hk' h0) (R.absIdx hk' h0)
    | false =>
      have hk' : 1 ≤ p := hk
      exact LRel.pair (R.rolling hk' h0) (R.rolling hk' h0)
  | avgprice d => refine LRel.one ?_; unfold Ind.avgprice; rl
  | typprice d => refine LRel.one ?_; unfold Ind.typprice; rl
  | wclprice w d => refine LRel.one ?_; unfold Ind.wclprice; rl
  | medprice d => refine LRel.one ?_; unfold Ind.medprice; rl
  | macd mf ma ms pf ps pg =>
    refine LRel.threeE ?_
    unfold Ind.macd
    refine (av hk.1 _ _ h0).bind fun a a' ha => (av hk.2.1 _ _ h0).bind fun b b' hb =>
      (av hk.2.2 _ _ (LRel.sub ha hb)).bind fun s s' hs => RE.pure ⟨?_, ?_, ?_⟩ <;> rl
  | apo ma pf ps =>
    refine LRel.oneE ?_
    unfold Ind.apo
    refine (LRel.posc (av hk.1) (av hk.2) h0).bind ?_
    rintro ⟨a, b⟩ ⟨a', b'⟩ ⟨ha, hb⟩
    exact RE.pure (LRel.sub ha hb)
  | ppo fast ma ms pf ps pg =>
    refine LRel.threeE ?_
    unfold Ind.ppo
    refine (LRel.posc (av hk.1) (av hk.2.1) h0).bind ?_
    rintro ⟨a, b⟩ ⟨a', b'⟩ ⟨ha, hb⟩
    simp only [] at ha hb ⊢
    have hp : R.rv (Line.rmulS (lit 100) ((a / b).subS (lit 1))) (Line.rmulS (lit 100) ((a' / b').subS (lit 1))) := by rl
    exact (av hk.2.2 _ _ hp).bind fun s s' hs => RE.pure ⟨hp, hs, LRel.sub hp hs⟩
  | mom p => exact LRel.one (R.diff h0)
  | roc p => refine LRel.one ?_; unfold Ind.roc Ind.rocr; rl
  | rocp p => refine LRel.one ?_; unfold Ind.rocp Ind.rocr; rl
  | rocr p => refine LRel.one ?_; unfold Ind.rocr; rl
  | rocr100 p => refine LRel.one ?_; unfold Ind.rocr100 Ind.rocr; rl
  | rsi ma lb p => exact LRel.oneE (LRel.rsi (av hk) h0)
  | cmo sum p =>
    refine LRel.oneE ?_
    unfold Ind.cmo
    have e1 : R.rv ((Line.diff 1 (x 0)).clipLoS (lit 0)) ((Line.diff 1 (x' 0)).clipLoS (lit 0)) := by rl
    have e2 : R.rv ((Line.diff 1 (x 0)).clipHiS (lit 0)).abs ((Line.diff 1 (x' 0)).clipHiS (lit 0)).abs := by rl
    refine (av hk _ _ e1).bind fun u u' g1 => (av hk _ _ e2).bind fun d d' g2 => RE.pure ?_
    rl
  | mad p => exact LRel.one (R.rolling hk h0)
  | cci ma f p =>
    refine LRel.oneE ?_
    unfold Ind.cci
    have ht : R.rv ((x 0 + x 1 + x 2).divS (lit 3)) ((x' 0 + x' 1 + x' 2).divS (lit 3)) := by rl
    have hp := hk.2
    refine (av hk.1 _ _ ht).bind fun u u' g1 => RE.pure ?_
    rl
  | var d p => exact LRel.one (R.rolling hk h0)
  | stddev sq d p => exact LRel.one (R.rolling hk h0)
  | bbands sq ma d p =>
    refine LRel.threeE ?_
    unfold Ind.bbands Ind.stddev
    have hp := hk.2
    refine (av hk.1 _ _ h0).bind fun u u' g1 => RE.pure ⟨?_, ?_, ?_⟩ <;> rl
  | stochf ma p pf => exact LRel.twoE (LRel.stochf hk.1 (av hk.2) h0 h1 h2)
  | stochastic ma ms p pf ps =>
    refine LRel.twoE ?_
    unfold Ind.stochastic
    refine (LRel.stochf hk.1 (av hk.2.1) h0 h1 h2).bind ?_
    rintro ⟨a, b⟩ ⟨a', b'⟩ ⟨ha, hb⟩
    simp only [] at hb ⊢
    exact (av hk.2.2 _ _ hb).bind fun s s' hs => RE.pure ⟨hb, hs⟩
  | williamsr p =>
    refine LRel.one ?_
    have hp : 1 ≤ p := hk
    unfold Ind.williamsr; simp only []; rl
  | stochrsi p ph s => exact LRel.oneE (LRel.stochrsi hk.1 hk.2.1 hk.2.2 h0)
  | stochrsiD ma p ph pf s =>
    refine LRel.twoE ?_
    unfold Ind.stochrsiD
    exact (LRel.stochrsi hk.1 hk.2.1 hk.2.2.1 h0).bind fun k k' g => (av hk.2.2.2 _ _ g).bind fun d d' g2 =>
      RE.pure ⟨g, g2⟩
  | midprice p => refine LRel.one ?_; have hp : 1 ≤ p := hk; unfold Ind.midprice; rl
  | midpoint p => refine LRel.one ?_; have hp : 1 ≤ p := hk; unfold Ind.midpoint Ind.midprice; rl
  | bop => refine LRel.one ?_; unfold Ind.bop; rl
  | truelow q => refine LRel.one ?_; unfold Ind.truelow; rl
  | truerange q => exact LRel.one (LRel.truerange h0 h1 h2)
  | atr ma q p => exact LRel.oneE (av hk _ _ (LRel.truerange h0 h1 h2))
  | natr ma q p =>
    refine LRel.oneE ?_
    unfold Ind.natr Ind.atr
    refine (av hk _ _ (LRel.truerange h0 h1 h2)).bind fun r r' g => RE.pure ?_
    rl
  | ultosc p1 p2 p3 f1 f2 f3 =>
    refine LRel.one ?_
    obtain ⟨k1, k2, k3⟩ := hk
    unfold Ind.ultosc Ind.truelow Ind.truerange
    simp only []
    rl
  | mfi p =>
    refine LRel.one ?_
    have hp : 1 ≤ p := hk
    unfold Ind.mfi; simp only []; rl
  | obv t q =>
    refine LRel.one ?_
    obtain ⟨k1, k2⟩ := hk
    unfold Ind.obv
    have hd : R.rv (Line.diff q (x 0)) (Line.diff q (x' 0)) := R.diff h0
    cases t with
    | true =>
      simp only [if_true]
      have hp := R.pos h0
      have hp' := R.pos' h0
      have := k2 rfl
      have hb := R.back (v := lit 1) k1 (by rw [mp_diff]; omega) (by rw [mp_diff]; omega) hd
      rl
    | false => simp only [Bool.false_eq_true, if_false]; rl
  | ad => exact LRel.one (LRel.ad hk h0 h1 h2 h3)
  | adosc ma pf ps =>
    refine LRel.oneE ?_
    unfold Ind.adosc
    have ha := LRel.ad hk.1 h0 h1 h2 h3
    refine (av hk.2.1 _ _ ha).bind fun r r' g => (av hk.2.2 _ _ ha).bind fun s s' g2 => RE.pure ?_
    rl
  | aroon p => exact LRel.pair (LRel.aroonComp h1) (LRel.aroonComp h0)
  | aroonosc p => exact LRel.one (LRel.sub (LRel.aroonComp h0) (LRel.aroonComp h1))
  | linregSlope p => exact LRel.one (LRel.linregBase hk h0).1
  | linregAngle a d p => exact LRel.one (LRel.mulS (R.map (LRel.linregBase hk h0).1))
  | linregIntercept t p => exact LRel.one (LRel.linregBase hk h0).2
  | linreg p => exact LRel.one (LRel.add (LRel.linregBase hk h0).2 (LRel.mulS (LRel.linregBase hk h0).1))
  | tsf p => exact LRel.one (LRel.add (LRel.linregBase hk h0).2 (LRel.mulS (LRel.linregBase hk h0).1))
  | beta rets pr p =>
    refine LRel.one ?_
    obtain ⟨k1, k2⟩ := hk
    unfold Ind.beta
    cases rets with
    | true =>
      have e0 := R.pct (k := pr) (k1 rfl) h0
      have e1 := R.pct (k := pr) (k1 rfl) h1
      simp only [if_true]; rl
    | false => simp only [Bool.false_eq_true, if_false]; rl
  | correl sq p => exact LRel.one (R.rolling2 hk hc h0 h1)
  | crossup s =>
    refine LRel.one ?_
    have hd := LRel.crossDiff hk h0 h1
    unfold Ind.crossup Ind.cup; rl
  | crossdown s =>
    refine LRel.one ?_
    have hd := LRel.crossDiff hk h0 h1
    unfold Ind.crossdown Ind.cdown; rl
  | crossover s => exact LRel.oneE RE.error
  | plusDm s ps q => exact LRel.oneE (LRel.plusDm (sm hk.2) hk.1 h0 h1)
  | minusDm s ps q => exact LRel.oneE (LRel.minusDm (sm hk.2) hk.1 h0 h1)
  | dm s ps q =>
    refine LRel.twoE ?_
    unfold Ind.dm
    exact (LRel.plusDm (sm hk.2) hk.1 h0 h1).bind fun d d' g => (LRel.minusDm (sm hk.2) hk.1 h0 h1).bind fun e e' g2 =>
      RE.pure ⟨g, g2⟩
  | plusDi s ps q t => exact LRel.oneE (LRel.plusDi (sm hk.2) hk.1 h0 h1 h2)
  | minusDi s ps q t => exact LRel.oneE (LRel.minusDi (sm hk.2) hk.1 h0 h1 h2)
  | di s ps q t =>
    refine LRel.twoE ?_
    unfold Ind.di
    exact (LRel.plusDi (sm hk.2) hk.1 h0 h1 h2).bind fun d d' g => (LRel.minusDi (sm hk.2) hk.1 h0 h1 h2).bind
      fun e e' g2 => RE.pure ⟨g, g2⟩
  | dx s ps q t => exact LRel.oneE (LRel.dx (sm hk.2) hk.1 h0 h1 h2)
  | adx s ma ps q t p => exact LRel.oneE (LRel.adx (av hk.2.2) (sm hk.2.1) hk.1 h0 h1 h2)
  | adxr s ma ps q t p pr => exact LRel.oneE (LRel.adxr hk.2.2.2 (av hk.2.2.1) (sm hk.2.1) hk.1 h0 h1 h2)
  | sar af am => exact LRel.oneE (R.sar hk (sarLike_sar af am) h0 h1)
  | sarext P => exact LRel.oneE (R.sar hk (sarLike_sarext P) h0 h1)
  | htDcperiod F => exact LRel.one (R.fill (k := 26) hk (LRel.htLoop (le_refl _) hk h0))
  | htPhasor F =>
    exact LRel.pair (R.fill (k := 26) hk (LRel.htLoop (le_refl _) hk h0)) (R.fill (k := 26) hk (LRel.htLoop (le_refl _) hk h0))
  | htDcphase F =>
    exact LRel.checked (LRel.htCheck F hk.1 h0)
      (LRel.one (R.fill (k := 57) hk.2 (LRel.htLoopAny (fun _ => htBuf_length) hk.1 h0)))
  | htSine F =>
    exact LRel.checked (LRel.htCheck F hk.1 h0) (LRel.pair (R.fill (k := 57) hk.2 (LRel.htLoopAny (fun _ => htBuf_length) hk.1 h0))
      (R.fill (k := 57) hk.2 (LRel.htLoopAny (fun _ => htBuf_length) hk.1 h0)))
  | htTrendline F =>
    exact LRel.checked (LRel.htCheck F hk.1 h0)
      (LRel.one (R.fill (k := 57) hk.2 (LRel.htLoopAny2 (fun _ _ => htBuf_length) hk.1 h0)))
  | htTrendmode F =>
    exact LRel.checked (LRel.htCheck F hk.1 h0)
      (LRel.one (R.fill (k := 57) hk.2 (LRel.htLoopAny2 (fun _ _ => htBuf_length) hk.1 h0)))
  | mama F a f s => exact LRel.twoE (LRel.mama hk.1 hk.2 h0)
  | mathFn f => exact LRel.one (R.map h0)

end Bta
