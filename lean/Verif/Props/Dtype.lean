import Verif.Dtype

/-!
# C128: whole numbers and signals in formulas
-/

set_option linter.unusedSectionVars false
set_option linter.unusedVariables false

namespace Bta
open Line

variable {V : Type} [PyFloat V]

namespace Dt

/-- The floats represent whole numbers, and calculate with them, exactly. -/
structure ExactInts (V : Type) [PyFloat V] : Prop where
  add : ∀ a b : ℤ, (lit ((a + b : ℤ) : ℚ) : V) = lit (a : ℚ) + lit (b : ℚ)
  sub : ∀ a b : ℤ, (lit ((a - b : ℤ) : ℚ) : V) = lit (a : ℚ) - lit (b : ℚ)
  mul : ∀ a b : ℤ, (lit ((a * b : ℤ) : ℚ) : V) = lit (a : ℚ) * lit (b : ℚ)
  abs : ∀ a : ℤ, (lit ((|a| : ℤ) : ℚ) : V) = absv (lit (a : ℚ))
  nan : ∀ a : ℤ, isNaN (lit (a : ℚ) : V) = false

theorem exactInts_ext {K : Type} [Field K] [LinearOrder K] [IsStrictOrderedRing K] : ExactInts (Ext K) where
  add a b := by show Ext.fin _ = Ext.fin _; congr 1; push_cast; rfl
  sub a b := by
    show Ext.fin _ = Ext.fin _
    congr 1; push_cast; exact sub_eq_add_neg _ _
  mul a b := by show Ext.fin _ = Ext.fin _; congr 1; push_cast; rfl
  abs a := by show Ext.fin _ = Ext.fin _; congr 1; push_cast; rfl
  nan a := rfl

/-- data of the user: each input holds floats (and may have been calculated) or is a series of whole numbers -/
def Spec.Raw (env : ℕ → TL V) : Prop :=
  ∀ k, (∃ l, env k = .flt l) ∨ (∃ zs : List ℤ, env k = .int (ofSeries zs))

/-- the same data, converted to floats (`series.astype(float)`) -/
def Spec.asFloat (env : ℕ → TL V) : ℕ → TL V := fun k => .flt (env k).toFlt

/-- What is known of a formula without knowing the data: it gives booleans, floats, or numbers of either sort. -/
inductive Kind where
  | bool | num | flt
deriving DecidableEq

/-- the rule for arithmetic between lines -/
def Spec.kindA (op : AOp) : Kind → Kind → Option Kind
  | .bool, .bool => none
  | .bool, .num => none
  | .num, .bool => none
  | .num, .num => if op = .div then some .flt else some .num
  | _, _ => some .flt

/-- the rule for arithmetic with a number -/
def Spec.kindS (op : AOp) (c : Sc V) : Kind → Option Kind
  | .bool => if c.isFlt then some .flt else none
  | .num => if c.isFlt ∨ op = .div then some .flt else some .num
  | .flt => some .flt

/-- Formulas which keep to the rules: a signal (boolean) takes part in arithmetic only with something which is float for
sure (a float number, an average, a quotient, a difference, ...). -/
def Spec.kind : TE V → Option Kind
  | .inp _ => some .num
  | .arith op a b => do kindA op (← kind a) (← kind b)
  | .arithS op _ a c => do kindS op c (← kind a)
  | .cmp _ a b => do
    let _ ← kind a
    let _ ← kind b
    some .bool
  | .cmpS _ a _ => do
    let _ ← kind a
    some .bool
  | .logic _ a b => do
    match ← kind a, ← kind b with
    | .bool, .bool => some .bool
    | _, _ => none
  | .unary _ a => do
    match ← kind a with
    | .bool => none
    | k => some k
  | .cumsum a => do
    match ← kind a with
    | .bool => none
    | k => some k
  | .std _ a => do
    match ← kind a with
    | .bool => none
    | _ => some .flt
  | .win _ a => do
    let _ ← kind a
    some .flt
  | .win2 _ a b => do
    let _ ← kind a
    let _ ← kind b
    some .flt
  | .clip2 _ a b => do
    match ← kind a, ← kind b with
    | .flt, _ => some .flt
    | _, _ => none

/-- whether numbers which may all be whole are calculated with before they meet a float: only there it matters that floats
calculate exactly with whole numbers -/
def Spec.wholeArith : TE V → Bool
  | .inp _ => false
  | .arith op a b => wholeArith a || wholeArith b ||
      (decide (kind a = some .num) && decide (kind b = some .num) && decide (op ≠ .div))
  | .arithS op _ a c => wholeArith a || (decide (kind a = some .num) && !c.isFlt && decide (op ≠ .div))
  | .cmp _ a b => wholeArith a || wholeArith b
  | .cmpS _ a _ => wholeArith a
  | .logic _ a b => wholeArith a || wholeArith b
  | .unary _ a => wholeArith a || decide (kind a = some .num)
  | .cumsum a => wholeArith a || decide (kind a = some .num)
  | .std _ a => wholeArith a
  | .win _ a => wholeArith a
  | .win2 _ a b => wholeArith a || wholeArith b
  | .clip2 _ a b => wholeArith a || wholeArith b

/-- how the two values of a formula correspond -/
def Sim : Kind → TL V → TL V → Prop
  | .bool, x, y => ∃ l, x = .bool l ∧ y = .bool l
  | .flt, x, y => ∃ l, x = .flt l ∧ y = .flt l
  | .num, x, y => ∃ l, y = .flt l ∧ (x = .flt l ∨ ∃ z : List ℤ, x = .int (ofSeries z) ∧ l = ofSeries (z.map ofInt))

theorem Sim.toFlt {k : Kind} {x y : TL V} (h : Sim k x y) : x.toFlt = y.toFlt := by
  cases k with
  | bool => obtain ⟨l, rfl, rfl⟩ := h; rfl
  | flt => obtain ⟨l, rfl, rfl⟩ := h; rfl
  | num =>
    obtain ⟨l, rfl, rfl | ⟨z, rfl, rfl⟩⟩ := h
    · rfl
    · rfl

theorem Sim.num {k : Kind} {x y : TL V} (h : Sim k x y) (hk : k ≠ .bool) : Sim .num x y := by
  cases k with
  | bool => exact absurd rfl hk
  | num => exact h
  | flt => obtain ⟨l, rfl, rfl⟩ := h; exact ⟨l, rfl, Or.inl rfl⟩

/-- outcomes which correspond: both raise the same, or both have values which correspond -/
def SimE (k : Kind) : Except Stop (TL V) → Except Stop (TL V) → Prop
  | .ok x, .ok y => Sim k x y
  | .error e, .error e' => e = e'
  | _, _ => False

theorem SimE.bind {k k' : Kind} {x y : Except Stop (TL V)} {f g : TL V → Except Stop (TL V)} (h : SimE k x y)
    (hf : ∀ a b, Sim k a b → SimE k' (f a) (g b)) : SimE k' (x >>= f) (y >>= g) := by
  cases x <;> cases y
  · exact h
  · exact h.elim
  · exact h.elim
  · exact hf _ _ h

theorem SimE.toFlt {k : Kind} {x y : Except Stop (TL V)} (h : SimE k x y) : x.map TL.toFlt = y.map TL.toFlt := by
  cases x <;> cases y
  · exact congrArg Except.error h
  · exact h.elim
  · exact h.elim
  · exact congrArg Except.ok (Sim.toFlt h)

theorem SimE.flt_eq {x y : Except Stop (TL V)} (h : SimE .flt x y) : x = y := by
  cases x <;> cases y
  · exact congrArg Except.error h
  · exact h.elim
  · exact h.elim
  · obtain ⟨l, rfl, rfl⟩ := h; rfl

theorem lift_map_simE (x : Except Err (Line V)) : SimE .flt ((lift x).map .flt) ((lift x).map .flt) := by
  cases x
  · rfl
  · exact ⟨_, rfl, rfl⟩

theorem pyStart_zero (n : ℕ) : pyStart n 0 = 0 := by simp [pyStart]

omit [PyFloat V] in
theorem storeInt_raw (z : List ℤ) : storeInt (V := V) (ofSeries z) = .ok (.int (ofSeries z)) := by
  have : ¬ 0 < pyStart z.length 0 := by simp [pyStart]
  exact if_neg this

theorem binop_raw {α β γ : Type} (f : α → β → γ) (fill : γ) (a : List α) (b : List β) :
    binop f fill (ofSeries a) (ofSeries b) = ofSeries (List.zipWith f a b) := by
  simp [binop, ofSeries, clone, setFrom, pyFrom, pyStart]

theorem binopS_raw {α β γ : Type} (f : α → β → γ) (fill : γ) (a : List α) (c : β) :
    binopS f fill (ofSeries a) c = ofSeries (a.map fun x => f x c) := by
  simp [binopS, ofSeries, clone, setFrom, pyFrom, pyStart]

theorem stdop_raw {α β : Type} (g : List α → List β) (fill : β) (a : List α) :
    stdop g fill 0 (ofSeries a) = ofSeries (g a) := by
  simp [stdop, ofSeries, clone, setFrom, pyFrom, pyStart]

theorem AOp.hom (E : ExactInts V) (op : AOp) (h : op ≠ .div) (a b : ℤ) :
    (ofInt (op.int a b) : V) = op.flt (ofInt a) (ofInt b) := by
  cases op
  · exact E.add a b
  · exact E.sub a b
  · exact E.mul a b
  · exact absurd rfl h

theorem UOp.hom (E : ExactInts V) (op : UOp) (a : ℤ) : (ofInt (op.int a) : V) = op.flt (ofInt a) := by
  cases op
  · exact E.abs a
  · exact E.mul a a

theorem zipWith_lit (E : ExactInts V) (op : AOp) (h : op ≠ .div) (a b : List ℤ) :
    (List.zipWith op.int a b).map (ofInt (V := V))
      = List.zipWith op.flt (a.map ofInt) (b.map ofInt) := by
  rw [List.map_zipWith, List.zipWith_map]
  have : (fun x y : ℤ => (ofInt (op.int x y) : V)) = fun x y => op.flt (ofInt x) (ofInt y) := by
    funext x y
    exact AOp.hom E op h x y
  rw [this]

theorem cumInt_lit (E : ExactInts V) (z : List ℤ) : ∀ acc : ℤ,
    (cumInt acc z).map (ofInt (V := V)) = cumsumGo (ofInt acc) (z.map ofInt) := by
  induction z with
  | nil => intro acc; rfl
  | cons x xs ih =>
    intro acc
    show ofInt _ :: List.map ofInt (cumInt (acc + x) xs) = if isNaN (ofInt x : V) then _ else _
    have h1 : isNaN (ofInt x : V) = false := E.nan x
    have h2 : (ofInt (acc + x) : V) = ofInt acc + ofInt x := E.add acc x
    rw [h1, ih, h2]
    rfl

theorem arith_sim {op : AOp} {ka kb : Kind} (E : ka = .num → kb = .num → op ≠ .div → ExactInts V) {x x' y y' : TL V} (hx : Sim ka x x') (hy : Sim kb y y')
    {k : Kind} (hk : Spec.kindA op ka kb = some k) : SimE k (arith op x y) (arith op x' y') := by
  have fl : ∀ {x x' y y' : TL V}, x.toFlt = x'.toFlt → y.toFlt = y'.toFlt →
      (x.isFlt || y.isFlt || op == .div) = true → (x'.isFlt || y'.isFlt || op == .div) = true →
      SimE .flt (arithNum op x y) (arithNum op x' y') := by
    intro x x' y y' h1 h2 h3 h4
    rw [arithNum, arithNum, if_pos h3, if_pos h4, h1, h2]
    exact ⟨_, rfl, rfl⟩
  cases ka with
  | bool =>
    cases kb with
    | bool => cases hk
    | num => cases hk
    | flt =>
      cases hk
      obtain ⟨l, rfl, rfl⟩ := hx
      obtain ⟨m, rfl, rfl⟩ := hy
      exact fl rfl rfl rfl rfl
  | flt =>
    have h0 : k = .flt := by cases kb <;> cases hk <;> rfl
    subst h0
    obtain ⟨l, rfl, rfl⟩ := hx
    have e := Sim.toFlt hy
    cases y <;> cases y' <;> exact fl rfl e rfl rfl
  | num =>
    cases kb with
    | bool => cases hk
    | flt =>
      cases hk
      obtain ⟨m, rfl, rfl⟩ := hy
      have e := Sim.toFlt hx
      obtain ⟨l, rfl, rfl | ⟨z, rfl, rfl⟩⟩ := hx
      · exact fl rfl rfl rfl rfl
      · exact fl rfl rfl rfl rfl
    | num =>
      by_cases hop : op = .div
      · subst hop
        cases hk
        obtain ⟨l, rfl, rfl | ⟨z, rfl, rfl⟩⟩ := hx <;> obtain ⟨m, rfl, rfl | ⟨w, rfl, rfl⟩⟩ := hy <;>
          exact fl rfl rfl rfl rfl
      · have hk' : k = .num := by simp [Spec.kindA, hop] at hk; exact hk.symm
        subst hk'
        have up : ∀ {a b : Except Stop (TL V)}, SimE .flt a b → SimE .num a b := by
          intro a b h
          cases a <;> cases b
          · exact h
          · exact h
          · exact h
          · exact Sim.num (k := .flt) h (by simp)
        obtain ⟨l, rfl, rfl | ⟨z, rfl, rfl⟩⟩ := hx <;> obtain ⟨m, rfl, rfl | ⟨w, rfl, rfl⟩⟩ := hy
        · exact up (fl rfl rfl rfl rfl)
        · exact up (fl rfl rfl rfl rfl)
        · exact up (fl rfl rfl rfl rfl)
        · show SimE .num (arithNum op _ _) (arithNum op _ _)
          have h1 : ((TL.int (V := V) (ofSeries z)).isFlt || (TL.int (V := V) (ofSeries w)).isFlt || op == .div) = false := by
            cases op <;> first | rfl | exact absurd rfl hop
          rw [arithNum, h1]
          show SimE .num (storeInt (binop op.int 0 (ofSeries z) (ofSeries w))) _
          rw [binop_raw, storeInt_raw]
          refine ⟨_, rfl, Or.inr ⟨_, rfl, ?_⟩⟩
          show binop op.flt nan (ofSeries _) (ofSeries _) = _
          rw [binop_raw, zipWith_lit (E rfl rfl hop) op hop]

theorem arithS_sim {op : AOp} {rev : Bool} {c : Sc V} {ka : Kind}
    (E : ka = .num → c.isFlt = false → op ≠ .div → ExactInts V) {x x' : TL V} (hx : Sim ka x x')
    {k : Kind} (hk : Spec.kindS op c ka = some k) : SimE k (arithS op rev x c) (arithS op rev x' c) := by
  have fl : ∀ {x x' : TL V}, x.toFlt = x'.toFlt →
      (x.isFlt || c.isFlt || op == .div) = true → (x'.isFlt || c.isFlt || op == .div) = true →
      SimE .flt (arithS op rev x c) (arithS op rev x' c) := by
    intro x x' h1 h3 h4
    rw [arithS, arithS, if_pos h3, if_pos h4, h1]
    exact ⟨_, rfl, rfl⟩
  cases ka with
  | bool =>
    by_cases hc : c.isFlt = true
    · have hk' : k = .flt := by simp [Spec.kindS, hc] at hk; exact hk.symm
      subst hk'
      obtain ⟨l, rfl, rfl⟩ := hx
      exact fl rfl (by simp [hc]) (by simp [hc])
    · simp [Spec.kindS, hc] at hk
  | flt =>
    cases hk
    obtain ⟨l, rfl, rfl⟩ := hx
    exact fl rfl rfl rfl
  | num =>
    by_cases hc : c.isFlt = true ∨ op = .div
    · have hk' : k = .flt := by simp [Spec.kindS, hc] at hk; exact hk.symm
      subst hk'
      have e := Sim.toFlt hx
      have t : ∀ b : Bool, (b || c.isFlt || op == .div) = true := by
        intro b
        rcases hc with h | h
        · simp [h]
        · simp [h]
      exact fl e (t _) (t _)
    · have hk' : k = .num := by simp [Spec.kindS, hc] at hk; exact hk.symm
      subst hk'
      push Not at hc
      obtain ⟨l, rfl, rfl | ⟨z, rfl, rfl⟩⟩ := hx
      · obtain ⟨m, h1, h2⟩ : ∃ m : Line V, arithS op rev (.flt l) c = .ok (.flt m) ∧ True := by
          refine ⟨_, if_pos rfl, trivial⟩
        rw [h1]
        exact ⟨_, rfl, Or.inl rfl⟩
      · have h1 : ((TL.int (V := V) (ofSeries z)).isFlt || c.isFlt || op == .div) = false := by
          have := hc.1
          have := hc.2
          cases op <;> simp_all [TL.isFlt]
        obtain ⟨i, rfl⟩ : ∃ i, c = .int i := by
          cases c with
          | int i => exact ⟨i, rfl⟩
          | flt v => exact absurd rfl hc.1
        rw [arithS, h1]
        show SimE .num (storeInt (binopS (flipIf rev op.int) 0 (ofSeries z) i)) _
        rw [binopS_raw, storeInt_raw]
        refine ⟨_, rfl, Or.inr ⟨_, rfl, ?_⟩⟩
        show binopS (flipIf rev op.flt) nan (ofSeries _) (ofInt i) = _
        rw [binopS_raw, List.map_map, List.map_map]
        congr 1
        refine List.map_congr_left fun a _ => ?_
        cases rev
        · exact (AOp.hom (E rfl rfl hc.2) op hc.2 a i).symm
        · exact (AOp.hom (E rfl rfl hc.2) op hc.2 i a).symm

theorem bind_some {α β : Type} {x : Option α} {f : α → Option β} {b : β} (h : (x >>= f) = some b) :
    ∃ a, x = some a ∧ f a = some b := by
  cases x with
  | none => cases h
  | some a => exact ⟨a, rfl, h⟩

/-- The values of a formula which keeps to the rules correspond. -/
theorem eval_sim (env : ℕ → TL V) (henv : Spec.Raw env) (e : TE V) :
    (Spec.wholeArith e = true → ExactInts V) → ∀ k, Spec.kind e = some k → SimE k (e.eval env) (e.eval (Spec.asFloat env)) := by
  induction e with
  | inp k =>
    intro _ k' hk
    cases hk
    show Sim .num (env k) (Spec.asFloat env k)
    rw [Spec.asFloat]
    rcases henv k with ⟨l, h⟩ | ⟨z, h⟩
    · rw [h]; exact ⟨l, rfl, Or.inl rfl⟩
    · rw [h]; exact ⟨_, rfl, Or.inr ⟨z, rfl, rfl⟩⟩
  | arith op a b iha ihb =>
    intro E k hk
    obtain ⟨ka, ha, hk⟩ := bind_some hk
    obtain ⟨kb, hb, hk⟩ := bind_some hk
    exact SimE.bind (iha (fun h => E (by simp [Spec.wholeArith, h])) ka ha) fun _ _ hx => SimE.bind (ihb (fun h => E (by simp [Spec.wholeArith, h])) kb hb) fun _ _ hy => arith_sim
      (fun h1 h2 h3 => E (by subst h1; subst h2; simp [Spec.wholeArith, ha, hb, h3])) hx hy hk
  | arithS op rev a c iha =>
    intro E k hk
    obtain ⟨ka, ha, hk⟩ := bind_some hk
    exact SimE.bind (iha (fun h => E (by simp [Spec.wholeArith, h])) ka ha) fun _ _ hx => arithS_sim
      (fun h1 h2 h3 => E (by subst h1; simp [Spec.wholeArith, ha, h2, h3])) hx hk
  | cmp f a b iha ihb =>
    intro E k hk
    obtain ⟨ka, ha, hk⟩ := bind_some hk
    obtain ⟨kb, hb, hk⟩ := bind_some hk
    cases hk
    refine SimE.bind (iha (fun h => E (by simp [Spec.wholeArith, h])) ka ha) fun x x' hx => SimE.bind (ihb (fun h => E (by simp [Spec.wholeArith, h])) kb hb) fun y y' hy => ?_
    refine ⟨_, rfl, ?_⟩
    rw [hx.toFlt, hy.toFlt]
  | cmpS f a c iha =>
    intro E k hk
    obtain ⟨ka, ha, hk⟩ := bind_some hk
    cases hk
    refine SimE.bind (iha (fun h => E (by simp [Spec.wholeArith, h])) ka ha) fun x x' hx => ?_
    refine ⟨_, rfl, ?_⟩
    rw [hx.toFlt]
  | logic f a b iha ihb =>
    intro E k hk
    obtain ⟨ka, ha, hk⟩ := bind_some hk
    obtain ⟨kb, hb, hk⟩ := bind_some hk
    refine SimE.bind (iha (fun h => E (by simp [Spec.wholeArith, h])) ka ha) fun x x' hx => SimE.bind (ihb (fun h => E (by simp [Spec.wholeArith, h])) kb hb) fun y y' hy => ?_
    cases ka <;> cases kb <;> cases hk
    obtain ⟨l, rfl, rfl⟩ := hx
    obtain ⟨m, rfl, rfl⟩ := hy
    exact ⟨_, rfl, rfl⟩
  | unary op a iha =>
    intro E k hk
    obtain ⟨ka, ha, hk⟩ := bind_some hk
    refine SimE.bind (iha (fun h => E (by simp [Spec.wholeArith, h])) ka ha) fun x x' hx => ?_
    cases ka with
    | bool => cases hk
    | flt =>
      cases hk
      obtain ⟨l, rfl, rfl⟩ := hx
      exact ⟨_, rfl, rfl⟩
    | num =>
      cases hk
      obtain ⟨l, rfl, rfl | ⟨z, rfl, rfl⟩⟩ := hx
      · exact ⟨_, rfl, Or.inl rfl⟩
      · show SimE .num (storeInt _) _
        rw [stdop_raw, storeInt_raw]
        refine ⟨_, rfl, Or.inr ⟨_, rfl, ?_⟩⟩
        show stdop _ nan 0 (ofSeries _) = _
        rw [stdop_raw, List.map_map, List.map_map]
        congr 1
        exact List.map_congr_left fun a _ => (UOp.hom (E (by simp [Spec.wholeArith, ha])) op a).symm
  | cumsum a iha =>
    intro E k hk
    obtain ⟨ka, ha, hk⟩ := bind_some hk
    refine SimE.bind (iha (fun h => E (by simp [Spec.wholeArith, h])) ka ha) fun x x' hx => ?_
    cases ka with
    | bool => cases hk
    | flt =>
      cases hk
      obtain ⟨l, rfl, rfl⟩ := hx
      exact ⟨_, rfl, rfl⟩
    | num =>
      cases hk
      obtain ⟨l, rfl, rfl | ⟨z, rfl, rfl⟩⟩ := hx
      · exact ⟨_, rfl, Or.inl rfl⟩
      · show SimE .num (storeInt (stdop (cumInt 0) 0 0 (ofSeries z))) _
        rw [stdop_raw, storeInt_raw]
        refine ⟨_, rfl, Or.inr ⟨_, rfl, ?_⟩⟩
        show stdop cumsumL nan 0 (ofSeries _) = _
        rw [stdop_raw, cumInt_lit (E (by simp [Spec.wholeArith, ha]))]
        show ofSeries (cumsumGo (lit 0) _) = ofSeries (cumsumGo (lit ((0 : ℤ) : ℚ)) _)
        rw [Int.cast_zero]
  | std F a iha =>
    intro E k hk
    obtain ⟨ka, ha, hk⟩ := bind_some hk
    refine SimE.bind (iha (fun h => E (by simp [Spec.wholeArith, h])) ka ha) fun x x' hx => ?_
    have e := hx.toFlt
    cases ka with
    | bool => cases hk
    | flt =>
      cases hk
      obtain ⟨l, rfl, rfl⟩ := hx
      exact lift_map_simE _
    | num =>
      cases hk
      obtain ⟨l, rfl, rfl | ⟨z, rfl, rfl⟩⟩ := hx
      · exact lift_map_simE _
      · exact lift_map_simE _
  | win F a iha =>
    intro E k hk
    obtain ⟨ka, ha, hk⟩ := bind_some hk
    cases hk
    refine SimE.bind (iha (fun h => E (by simp [Spec.wholeArith, h])) ka ha) fun x x' hx => ?_
    rw [win, win, hx.toFlt]
    exact lift_map_simE _
  | win2 F a b iha ihb =>
    intro E k hk
    obtain ⟨ka, ha, hk⟩ := bind_some hk
    obtain ⟨kb, hb, hk⟩ := bind_some hk
    cases hk
    refine SimE.bind (iha (fun h => E (by simp [Spec.wholeArith, h])) ka ha) fun x x' hx => SimE.bind (ihb (fun h => E (by simp [Spec.wholeArith, h])) kb hb) fun y y' hy => ?_
    rw [win2, win2, hx.toFlt, hy.toFlt]
    exact lift_map_simE _
  | clip2 F a b iha ihb =>
    intro E k hk
    obtain ⟨ka, ha, hk⟩ := bind_some hk
    obtain ⟨kb, hb, hk⟩ := bind_some hk
    refine SimE.bind (iha (fun h => E (by simp [Spec.wholeArith, h])) ka ha) fun x x' hx => SimE.bind (ihb (fun h => E (by simp [Spec.wholeArith, h])) kb hb) fun y y' hy => ?_
    cases ka <;> cases hk
    obtain ⟨l, rfl, rfl⟩ := hx
    refine ⟨_, ?_, rfl⟩
    rw [hy.toFlt]

/-- **C128** (formulas, `_partial`): for a formula which keeps to the rules, data of whole numbers and the same data as
floats have the same outcome: the same values and minimum period, or the same exception; for any arithmetic of floats, which has
to be exact on whole numbers only if the formula calculates with them (`wholeArith`).  Missing: formulas in which a
signal meets whole numbers (`C128_not_signal`, `C128_not_volume`, `C128_not_count`) and `mavp` (`C128_not_mavp`). -/
theorem C128_formula_partial (e : TE V) (E : Spec.wholeArith e = true → ExactInts V) (k : Kind)
    (hk : Spec.kind e = some k) (env : ℕ → TL V) (henv : Spec.Raw env) :
    (e.eval env).map TL.toFlt = (e.eval (Spec.asFloat env)).map TL.toFlt :=
  (eval_sim env henv e E k hk).toFlt

theorem lift_ok {α : Type} (a : α) : lift (.ok a : Except Err α) = .ok a := rfl
theorem lift_error {α : Type} (e : Err) : lift (.error e : Except Err α) = .error (.raises e) := rfl
theorem bok {ε α β : Type} (a : α) (f : α → Except ε β) : ((Except.ok a : Except ε α) >>= f) = f a := rfl
theorem berr {ε α β : Type} (e : ε) (f : α → Except ε β) : ((Except.error e : Except ε α) >>= f) = .error e := rfl
theorem mok {ε α β : Type} (a : α) (f : α → β) : (Except.ok a : Except ε α).map f = .ok (f a) := rfl
theorem merr {ε α β : Type} (e : ε) (f : α → β) : (Except.error e : Except ε α).map f = .error e := rfl
theorem pok {ε α : Type} (a : α) : (pure a : Except ε α) = .ok a := rfl
theorem arith_ff (op : AOp) (a b : Line V) : arith op (.flt a) (.flt b) = .ok (.flt (bin op.flt a b)) := rfl
theorem arith_fb (op : AOp) (a : Line V) (b : Line Bool) :
    arith op (.flt a) (.bool b) = .ok (.flt (bin op.flt a (TL.bool b).toFlt)) := rfl
theorem arithS_f (op : AOp) (rev : Bool) (a : Line V) (c : Sc V) :
    arithS op rev (.flt a) c = .ok (.flt (binS (flipIf rev op.flt) a c.toFlt)) := rfl
theorem arithS_b (op : AOp) (rev : Bool) (a : Line Bool) (c : V) :
    arithS op rev (.bool a) (.flt c) = .ok (.flt (binS (flipIf rev op.flt) (TL.bool a).toFlt c)) := by
  cases op <;> rfl
theorem std_f (F : Line V → Except Err (Line V)) (a : Line V) : std F (.flt a) = (lift (F a)).map .flt := rfl
theorem win_f (F : Line V → Except Err (Line V)) (a : Line V) : win F (.flt a) = (lift (F a)).map .flt := rfl
theorem win2_f (F : Line V → Line V → Except Err (Line V)) (a b : Line V) :
    win2 F (.flt a) (.flt b) = (lift (F a b)).map .flt := rfl
theorem compare_ff (f : V → V → Bool) (a b : Line V) : compare f (.flt a) (.flt b) = .ok (.bool (cmp f a b)) := rfl
theorem compareS_ff (f : V → V → Bool) (a : Line V) (c : V) : compareS f (.flt a) (.flt c) = .ok (.bool (cmpS f a c)) := rfl

/-- the values of all outputs of an indicator, as floats; or what stops the calculation -/
def Spec.values (env : ℕ → TL V) (es : List (TE V)) : Except Stop (List (Line V)) :=
  es.mapM fun e => (e.eval env).map TL.toFlt

theorem bin_add (a b : Line V) : bin AOp.add.flt a b = a + b := rfl
theorem bin_sub (a b : Line V) : bin AOp.sub.flt a b = a - b := rfl
theorem bin_mul (a b : Line V) : bin AOp.mul.flt a b = a * b := rfl
theorem bin_div (a b : Line V) : bin AOp.div.flt a b = a / b := rfl
theorem bin_rmul (a : Line V) (c : V) : binS (flipIf true AOp.mul.flt) a c = rmulS c a := rfl
theorem bin_mulS (a : Line V) (c : V) : binS (flipIf false AOp.mul.flt) a c = mulS a c := rfl
theorem bin_rdiv (a : Line V) (c : V) : binS (flipIf true AOp.div.flt) a c = rdivS c a := rfl
theorem bin_divS (a : Line V) (c : V) : binS (flipIf false AOp.div.flt) a c = divS a c := rfl
theorem bin_rsub (a : Line V) (c : V) : binS (flipIf true AOp.sub.flt) a c = rsubS c a := rfl
theorem bin_subS (a : Line V) (c : V) : binS (flipIf false AOp.sub.flt) a c = subS a c := rfl
theorem bin_radd (a : Line V) (c : V) : binS (flipIf true AOp.add.flt) a c = raddS c a := rfl
theorem toFlt_flt (a : Line V) : (TL.flt a).toFlt = a := rfl
theorem Sc_flt (c : V) : (Sc.flt c).toFlt = c := rfl
theorem unary_abs (a : Line V) : unary .abs (.flt a) = .ok (.flt a.abs) := rfl
theorem unary_sq (a : Line V) : unary .sq (.flt a) = .ok (.flt (mapOp (fun v => v * v) a)) := rfl
theorem cumsum_f (a : Line V) : cumsumT (.flt a) = .ok (.flt a.cumsum) := rfl
theorem clip2_f (F : Line V → Line V → Line V) (a b : Line V) : clip2 F (.flt a) (.flt b) = .ok (.flt (F a b)) := rfl
theorem logic_bb (f : Bool → Bool → Bool) (a b : Line Bool) :
    logic (V := V) f (.bool a) (.bool b) = .ok (.bool (binop f true a b)) := rfl
theorem map_bool {α β : Type} (f : α → β) (s : List α) (m : Int) (n : Int) : pyFrom (s.map f) n = (pyFrom s n).map f := by
  simp [pyFrom]
theorem bin_mulB (a : Line V) (b : Line Bool) : a * (TL.bool b).toFlt = mulB a b := by
  show binop _ _ _ _ = binop _ _ _ _
  simp only [binop, TL.toFlt, pyFrom, List.length_map, ← List.map_drop, List.zipWith_map_right]
theorem binS_bool (a : Line Bool) (c : V) : rmulS c (TL.bool a).toFlt = rmulSB c a := by
  simp only [rmulS, rmulSB, binopS, TL.toFlt, pyFrom, List.length_map, ← List.map_drop, List.map_map, clone]
  rfl

macro "fs" : tactic => `(tactic| simp only [Spec.values, List.mapM_cons, List.mapM_nil, TE.eval, bok, berr, mok, merr, pok,
  lift_ok, lift_error, arith_ff, arith_fb, arithS_f, arithS_b, std_f, win_f, win2_f, compare_ff, compareS_ff, bin_add, bin_sub,
  bin_mulB, binS_bool, bin_mul, bin_div, bin_rmul, bin_mulS, bin_rdiv, bin_divS, bin_rsub, bin_subS, bin_radd, toFlt_flt, Sc_flt, unary_abs,
  unary_sq, cumsum_f, clip2_f, logic_bb, one, oneE, twoE, threeE, Ind.lowest, Ind.highest, Ind.sumN])

theorem eval_pdm (q : ℕ) (x : ℕ → Line V) :
    (fPdm q).eval (fun k => .flt (x k)) = .ok (.flt (Ind.pdm1 q (x 0) (x 1))) := by
  simp only [fPdm, Ind.pdm1, Ind.dmMoves]; fs; rfl

theorem eval_mdm (q : ℕ) (x : ℕ → Line V) :
    (fMdm q).eval (fun k => .flt (x k)) = .ok (.flt (Ind.mdm1 q (x 0) (x 1))) := by
  simp only [fMdm, Ind.mdm1, Ind.dmMoves]; fs; rfl

theorem eval_tr (q : ℕ) (x : ℕ → Line V) :
    (fTruerange q (fin 0) (fin 1) (fin 2)).eval (fun k => .flt (x k))
      = .ok (.flt (Ind.truerange q (x 0) (x 1) (x 2))) := by
  simp only [fTruerange, Ind.truerange]; fs

theorem eval_pdi (smooth : Line V → Except Err (Line V)) (q : ℕ) (t : Bool) (x : ℕ → Line V) :
    (fDi (fPdm q) smooth q t).eval (fun k => .flt (x k)) = (lift (Ind.plusDi smooth q t (x 0) (x 1) (x 2))).map .flt := by
  simp only [fDi, TE.eval, eval_pdm, eval_tr, bok, win_f, Ind.plusDi, Ind.plusDm, Ind.diTrp]
  cases smooth (Ind.pdm1 q (x 0) (x 1)) with
  | error e => rfl
  | ok a => cases smooth (Ind.truerange q (x 0) (x 1) (x 2)) <;> rfl

theorem eval_mdi (smooth : Line V → Except Err (Line V)) (q : ℕ) (t : Bool) (x : ℕ → Line V) :
    (fDi (fMdm q) smooth q t).eval (fun k => .flt (x k)) = (lift (Ind.minusDi smooth q t (x 0) (x 1) (x 2))).map .flt := by
  simp only [fDi, TE.eval, eval_mdm, eval_tr, bok, win_f, Ind.minusDi, Ind.minusDm, Ind.diTrp]
  cases smooth (Ind.mdm1 q (x 0) (x 1)) with
  | error e => rfl
  | ok a => cases smooth (Ind.truerange q (x 0) (x 1) (x 2)) <;> rfl

theorem eval_dx (smooth : Line V → Except Err (Line V)) (q : ℕ) (t : Bool) (x : ℕ → Line V) :
    (fDx smooth q t).eval (fun k => .flt (x k)) = (lift (Ind.dx smooth q t (x 0) (x 1) (x 2))).map .flt := by
  simp only [fDx, TE.eval, eval_pdi, eval_mdi, Ind.dx]
  cases Ind.plusDi smooth q t (x 0) (x 1) (x 2) with
  | error e => rfl
  | ok a => cases Ind.minusDi smooth q t (x 0) (x 1) (x 2) <;> rfl

theorem form_adxr (sm ma : Avg V) (ps q : ℕ) (t : Bool) (p : ℕ) (per : Int) (x : ℕ → Line V) :
    Spec.values (fun k => .flt (x k)) [fdivS (fadd (.win (ma.run p) (fDx (sm.run ps) q t))
        (.std (okF (ago (-per))) (.win (ma.run p) (fDx (sm.run ps) q t)))) (lit 2)]
      = lift (oneE (do
        let y ← Ind.adx (sm.run ps) ma.run q t p (x 0) (x 1) (x 2)
        return (y + ago (-per) y).divS (lit 2))) := by
  simp only [Ind.adx]
  fs
  simp only [eval_dx]
  cases Ind.dx (sm.run ps) q t (x 0) (x 1) (x 2) with
  | error e => fs
  | ok a =>
    fs
    cases ma.run p a <;> fs

theorem form_flt (c : Call V) (x : ℕ → Line V) :
    Spec.values (fun k => .flt (x k)) (form c) = lift (c.run x) := by
  cases c with
  | avg m p =>
    simp only [form, Call.run]; fs
    cases m.run p (x 0) <;> rfl
  | macd mf ma ms pf ps pg =>
    simp only [form, Call.run, Ind.macd]; fs
    cases mf.run pf (x 0) with
    | error e => rfl
    | ok a =>
    cases ma.run ps (x 0) with
    | error e => rfl
    | ok b =>
    fs
    cases ms.run pg (a - b) <;> rfl
  | apo ma pf ps =>
    simp only [form, Call.run, Ind.apo, Ind.posc]; fs
    cases ma.run pf (x 0) with
    | error e => rfl
    | ok a => cases ma.run ps (x 0) <;> rfl
  | ppo fast ma ms pf ps pg =>
    simp only [form, fPpo, Call.run, Ind.ppo, Ind.posc]
    cases fast <;> simp only [if_true, Bool.false_eq_true, if_false] <;> fs <;>
    · cases ma.run pf (x 0) with
      | error e => rfl
      | ok a =>
      cases ma.run ps (x 0) with
      | error e => rfl
      | ok b =>
      fs
      first
        | (cases ms.run pg (rmulS (lit 100) ((a / b).subS (lit 1))) <;> rfl)
        | (cases ms.run pg (rmulS (lit 100) ((b / a).subS (lit 1))) <;> rfl)
  | rsi ma lb p =>
    simp only [form, fRsi, Call.run, Ind.rsi]; fs
    cases ma.run p ((diff lb (x 0)).clipLoS (lit 0)) with
    | error e => rfl
    | ok a => cases ma.run p ((diff lb (x 0)).clipHiS (lit 0)).abs <;> rfl
  | cmo sum p =>
    simp only [form, fCmo, Call.run, Ind.cmo]; fs
    cases sum.run p ((diff 1 (x 0)).clipLoS (lit 0)) with
    | error e => rfl
    | ok a => cases sum.run p ((diff 1 (x 0)).clipHiS (lit 0)).abs <;> rfl
  | cci ma f p =>
    simp only [form, fTyp, Call.run, Ind.cci]; fs
    cases ma.run p ((x 0 + x 1 + x 2).divS (lit 3)) <;> rfl
  | bbands sq ma d p =>
    simp only [form, Call.run, Ind.bbands]; fs
    cases ma.run p (x 0) <;> rfl
  | stochf ma p pf =>
    simp only [form, fStochK, Call.run, Ind.stochf]; fs
    cases ma.run pf (rmulS (lit 100) (x 2 - rolling p aggMin (x 1)) / (rolling p aggMax (x 0) - rolling p aggMin (x 1))) with
    | error e => rfl
    | ok a => rfl
  | crossup s =>
    cases s <;> simp only [form, fCup, fCrossDiff, Call.run, Ind.crossup, Ind.cup, Ind.crossDiff, if_true, Bool.false_eq_true, if_false] <;> fs <;> rfl
  | mfi p => simp only [form, fFlow, fTyp, Call.run, Ind.mfi]; fs; rfl
  | crossdown s =>
    cases s <;> simp only [form, fCdown, fCrossDiff, Call.run, Ind.crossdown, Ind.cdown, Ind.crossDiff, if_true, Bool.false_eq_true, if_false] <;> fs <;> rfl
  | crossover s =>
    cases s <;> simp only [form, fCup, fCdown, fCrossDiff, Call.run, Ind.crossover, if_true, Bool.false_eq_true, if_false] <;> fs <;> rfl
  | stochastic ma ms p pf ps =>
    simp only [form, fStochK, Call.run, Ind.stochastic, Ind.stochf]; fs
    cases ma.run pf (rmulS (lit 100) (x 2 - rolling p aggMin (x 1)) / (rolling p aggMax (x 0) - rolling p aggMin (x 1))) with
    | error e => rfl
    | ok a => fs; cases ms.run ps a <;> rfl
  | stochrsi p ph s =>
    simp only [form, fStochrsi, fRsi, Call.run, Ind.stochrsi, Ind.rsi]; fs
    cases Ind.smma p ((diff 1 (x 0)).clipLoS (lit 0)) with
    | error e => rfl
    | ok a => cases Ind.smma p ((diff 1 (x 0)).clipHiS (lit 0)).abs <;> rfl
  | stochrsiD ma p ph pf s =>
    simp only [form, fStochrsi, fRsi, Call.run, Ind.stochrsiD, Ind.stochrsi, Ind.rsi]; fs
    cases Ind.smma p ((diff 1 (x 0)).clipLoS (lit 0)) with
    | error e => rfl
    | ok a =>
    cases Ind.smma p ((diff 1 (x 0)).clipHiS (lit 0)).abs with
    | error e => rfl
    | ok b =>
    fs
    generalize (rsubS (lit 100) (rdivS (lit 100) (raddS (lit 1) (a / b)))) = r
    generalize mulS (V := V) _ _ = t
    cases ma.run pf t <;> rfl
  | atr ma q p =>
    simp only [form, fTruerange, Call.run, Ind.atr, Ind.truerange]; fs
    cases ma.run p (clipLoL (ago (-(q : Int)) (x 2)) (x 0) - clipHiL (ago (-(q : Int)) (x 2)) (x 1)) <;> rfl
  | natr ma q p =>
    simp only [form, fTruerange, Call.run, Ind.natr, Ind.atr, Ind.truerange]; fs
    cases ma.run p (clipLoL (ago (-(q : Int)) (x 2)) (x 0) - clipHiL (ago (-(q : Int)) (x 2)) (x 1)) <;> rfl
  | ultosc p1 p2 p3 f1 f2 f3 =>
    simp only [form, fTruerange, fTruelow, Call.run, Ind.ultosc, Ind.truelow, Ind.truerange]; fs
  | adosc ma pf ps =>
    simp only [form, fAd, Call.run, Ind.adosc, Ind.ad]; fs
    cases ma.run pf (((rmulS (lit 2) (x 2) - x 0 - x 1) / (x 0 - x 1)) * x 3).cumsum with
    | error e => rfl
    | ok a => cases ma.run ps (((rmulS (lit 2) (x 2) - x 0 - x 1) / (x 0 - x 1)) * x 3).cumsum <;> rfl
  | minmaxindex b p =>
    cases b <;> rfl
  | obv t q => cases t <;> rfl
  | beta r pr p =>
    cases r <;> simp only [form, fBeta, Call.run, Ind.beta, if_true, Bool.false_eq_true, if_false] <;> fs
  | plusDm sm ps q =>
    simp only [form, Call.run, Ind.plusDm]; fs; simp only [eval_pdm]; fs
    cases sm.run ps (Ind.pdm1 q (x 0) (x 1)) <;> rfl
  | minusDm sm ps q =>
    simp only [form, Call.run, Ind.minusDm]; fs; simp only [eval_mdm]; fs
    cases sm.run ps (Ind.mdm1 q (x 0) (x 1)) <;> rfl
  | htDcphase F => 
    simp only [form, Call.run]; fs
    cases Ind.htCheck F (x 0) <;> rfl
  | htSine F => 
    simp only [form, Call.run]; fs
    cases Ind.htCheck F (x 0) <;> rfl
  | htTrendline F => 
    simp only [form, Call.run]; fs
    cases Ind.htCheck F (x 0) <;> rfl
  | htTrendmode F => 
    simp only [form, Call.run]; fs
    cases Ind.htCheck F (x 0) <;> rfl
  | mama F at' f s =>
    simp only [form, Call.run]; fs
    cases Ind.mama F at' f s (x 0) <;> rfl
  | sar af am => 
    simp only [form, Call.run]; fs
    cases Ind.sar af am (x 0) (x 1) <;> rfl
  | sarext P => 
    simp only [form, Call.run]; fs
    cases Ind.sarext P (x 0) (x 1) <;> rfl
  | dm sm ps q =>
    simp only [form, Call.run, Ind.dm, Ind.plusDm, Ind.minusDm]; fs; simp only [eval_pdm, eval_mdm]; fs
    cases sm.run ps (Ind.pdm1 q (x 0) (x 1)) with
    | error e => rfl
    | ok a => cases sm.run ps (Ind.mdm1 q (x 0) (x 1)) <;> rfl
  | plusDi sm ps q t =>
    simp only [form, Call.run]; fs; simp only [eval_pdi]
    cases Ind.plusDi (sm.run ps) q t (x 0) (x 1) (x 2) <;> rfl
  | minusDi sm ps q t =>
    simp only [form, Call.run]; fs; simp only [eval_mdi]
    cases Ind.minusDi (sm.run ps) q t (x 0) (x 1) (x 2) <;> rfl
  | di sm ps q t =>
    simp only [form, Call.run, Ind.di]; fs; simp only [eval_pdi, eval_mdi]
    cases Ind.plusDi (sm.run ps) q t (x 0) (x 1) (x 2) with
    | error e => rfl
    | ok a => cases Ind.minusDi (sm.run ps) q t (x 0) (x 1) (x 2) <;> rfl
  | dx sm ps q t =>
    simp only [form, Call.run]; fs; simp only [eval_dx]
    cases Ind.dx (sm.run ps) q t (x 0) (x 1) (x 2) <;> rfl
  | adx sm ma ps q t p =>
    simp only [form, Call.run, Ind.adx]; fs; simp only [eval_dx]
    cases Ind.dx (sm.run ps) q t (x 0) (x 1) (x 2) with
    | error e => rfl
    | ok a => fs; cases ma.run p a <;> rfl
  | adxr sm ma ps q t p pr => exact form_adxr sm ma ps q t p _ x
  | _ => rfl

theorem SimE.bool_eq {x y : Except Stop (TL V)} (h : SimE .bool x y) : x = y := by
  cases x <;> cases y
  · exact congrArg Except.error h
  · exact h.elim
  · exact h.elim
  · obtain ⟨l, rfl, rfl⟩ := h; rfl

theorem kind_form (c : Call V) (h : ∀ s, c ≠ .crossover s) : (form c).all (fun e => (Spec.kind e).isSome) = true := by
  cases c with
  | crossover s => exact absurd rfl (h s)
  | minmaxindex b p => cases b <;> rfl
  | ppo fast => cases fast <;> rfl
  | obv t q => cases t <;> rfl
  | beta r => cases r <;> rfl
  | crossup s => cases s <;> rfl
  | crossdown s => cases s <;> rfl
  | _ => rfl

theorem mapM_congr_mem {α β ε : Type} (f g : α → Except ε β) : ∀ l : List α, (∀ a ∈ l, f a = g a) →
    l.mapM f = l.mapM g
  | [], _ => rfl
  | a :: l, h => by
    rw [List.mapM_cons, List.mapM_cons, h a List.mem_cons_self,
      mapM_congr_mem f g l fun b hb => h b (List.mem_cons_of_mem _ hb)]

/-- **C128** (indicators, `_partial`): each indicator of the catalogue (all but `mavp` and `truehigh`, with any parameters and
averages) gives for whole numbers, or a mixture of whole numbers and floats, what it gives for the same data as floats: the
same values and minimum periods, or the same exception; for any arithmetic of floats, which has to be exact on whole numbers only
for those which add, subtract or multiply inputs (`C128_any_floats` for some which do not).  The right hand side is the model used by all other properties.
Missing: `mavp` (`C128_not_mavp`). -/
theorem C128_indicators_partial (c : Call V) (E : (form c).any Spec.wholeArith = true → ExactInts V) (env : ℕ → TL V) (henv : Spec.Raw env) :
    Spec.values env (form c) = lift (c.run fun k => (env k).toFlt) := by
  rw [← form_flt]
  refine mapM_congr_mem _ _ _ fun e he => ?_
  by_cases hc : ∃ s, c = .crossover s
  · obtain ⟨s, rfl⟩ := hc
    have h1 : (fCup (V := V) s).eval env = (fCup s).eval (Spec.asFloat env) :=
      (eval_sim env henv _ (fun _ => E (by cases s <;> rfl)) .bool (by cases s <;> rfl)).bool_eq
    have h2 : (fCdown (V := V) s).eval env = (fCdown s).eval (Spec.asFloat env) :=
      (eval_sim env henv _ (fun _ => E (by cases s <;> rfl)) .bool (by cases s <;> rfl)).bool_eq
    have he' : e = fsub (fCup s) (fCdown s) := by simpa [form] using he
    subst he'
    show Except.map _ (do arith .sub (← (fCup s).eval env) (← (fCdown s).eval env)) = _
    rw [h1, h2]
    rfl
  · have := List.all_eq_true.mp (kind_form c fun s h => hc ⟨s, h⟩) e he
    obtain ⟨k, hk⟩ := Option.isSome_iff_exists.mp this
    exact C128_formula_partial e (fun h => E (List.any_eq_true.mpr ⟨e, he, h⟩)) k hk env henv

/-- **C128** (any floats): averages, their oscillators, momentum, rates of change, extremes, statistics of one series, atr, stochastics,
williamsr, aroon, ultimateoscillator, obv, sar and the Hilbert family need no assumption on the floats. -/
theorem C128_any_floats (env : ℕ → TL V) (henv : Spec.Raw env) (m1 m2 m3 : Avg V) (p q r : ℕ) (t : Bool) (F : HtFns V)
    (sq : V → V) (v w : V) (f1 f2 f3 : V) :
    ∀ c ∈ [Call.avg m1 p, .div, .max p, .min p, .minmax p, .minmaxindex t p, .macd m1 m2 m3 p q r, .apo m1 p q, .ppo t m1 m2 p q r,
        .mom p, .roc p, .rocp p, .rocr p, .rocr100 p, .rsi m1 q p, .cmo m1 p, .mad p, .var q p, .stddev sq q p, .bbands sq m1 v p,
        .stochf m1 p q, .stochastic m1 m2 p q r, .williamsr p, .stochrsi p q v, .midprice p, .midpoint p, .truelow q, .truerange q,
        .atr m1 q p, .natr m1 q p, .ultosc p q r f1 f2 f3, .obv t q, .aroon p, .aroonosc p, .linregSlope p, .linreg p, .tsf p,
        .beta true q p, .correl sq p, .plusDm m1 p q, .dm m1 p q, .di m1 p q t, .dx m1 p q t, .adx m1 m2 p q t r, .sar v w,
        .htDcperiod F, .htPhasor F, .htSine F, .htTrendline F, .mama F sq v w],
      Spec.values env (form c) = lift (c.run fun k => (env k).toFlt) := by
  intro c hc
  refine C128_indicators_partial c (fun h => absurd h ?_) env henv
  have : ∀ c ∈ [Call.avg m1 p, .div, .max p, .min p, .minmax p, .minmaxindex t p, .macd m1 m2 m3 p q r, .apo m1 p q, .ppo t m1 m2 p q r,
        .mom p, .roc p, .rocp p, .rocr p, .rocr100 p, .rsi m1 q p, .cmo m1 p, .mad p, .var q p, .stddev sq q p, .bbands sq m1 v p,
        .stochf m1 p q, .stochastic m1 m2 p q r, .williamsr p, .stochrsi p q v, .midprice p, .midpoint p, .truelow q, .truerange q,
        .atr m1 q p, .natr m1 q p, .ultosc p q r f1 f2 f3, .obv t q, .aroon p, .aroonosc p, .linregSlope p, .linreg p, .tsf p,
        .beta true q p, .correl sq p, .plusDm m1 p q, .dm m1 p q, .di m1 p q t, .dx m1 p q t, .adx m1 m2 p q t r, .sar v w,
        .htDcperiod F, .htPhasor F, .htSine F, .htTrendline F, .mama F sq v w],
      (form c).any Spec.wholeArith = false := by
    cases t <;> (simp only [List.forall_mem_cons]; repeat' constructor) <;> simp
  rw [this c hc]
  simp

/-! ## Where whole numbers and floats differ -/

/-- whether there is a bar in the warm-up -/
def Spec.Warmup (a b : Line V) : Prop := a.series ≠ [] ∧ 2 ≤ max a.minperiod b.minperiod

theorem warm_start {n : ℕ} {m : Int} (hn : n ≠ 0) (hm : 2 ≤ m) : 0 < pyStart n (m - 1) := by
  unfold pyStart
  rw [if_pos (by omega)]
  have : 1 ≤ (m - 1).toNat := by omega
  omega

theorem binop_length {α β γ : Type} (f : α → β → γ) (fill : γ) (a : Line α) (b : Line β)
    (h : a.series.length = b.series.length) : (binop f fill a b).series.length = a.series.length := by
  simp only [binop, clone, setFrom, pyFrom, List.length_append, List.length_replicate, List.length_zipWith,
    List.length_drop, h]
  have : pyStart b.series.length (max a.minperiod b.minperiod - 1) ≤ b.series.length ∨
      b.series.length < pyStart b.series.length (max a.minperiod b.minperiod - 1) := le_or_gt _ _
  unfold pyStart at *
  split <;> omega

theorem binop_minperiod {α β γ : Type} (f : α → β → γ) (fill : γ) (a : Line α) (b : Line β)
    (h : 1 ≤ max a.minperiod b.minperiod) : (binop f fill a b).minperiod = max a.minperiod b.minperiod := by
  show (if _ then _ else _) = _
  rw [if_neg (by omega)]

theorem storeInt_warm {l : Line ℤ} (hn : l.series ≠ []) (hm : 2 ≤ l.minperiod) :
    storeInt (V := V) l = .error (.raises .valueError) :=
  if_pos (warm_start (by simpa using hn) hm)

theorem binopS_length {α β γ : Type} (f : α → β → γ) (fill : γ) (a : Line α) (c : β) :
    (binopS f fill a c).series.length = a.series.length := by
  simp only [binopS, clone, setFrom, pyFrom, List.length_append, List.length_replicate, List.length_map,
    List.length_drop]
  unfold pyStart
  split <;> omega

theorem stdop_length {α β : Type} (g : List α → List β) (hg : ∀ l, (g l).length = l.length) (fill : β) (a : Line α) :
    (stdop g fill 0 a).series.length = a.series.length := by
  simp only [stdop, clone, setFrom, pyFrom, List.length_append, List.length_replicate, hg, List.length_drop]
  unfold pyStart
  split <;> omega

theorem cumInt_length (z : List ℤ) : ∀ acc, (cumInt acc z).length = z.length := by
  induction z with
  | nil => intro acc; rfl
  | cons x xs ih => intro acc; simp [cumInt, ih]

theorem ne_nil_of_length {α β : Type} {l : List α} {l' : List β} (h : l.length = l'.length) (h' : l' ≠ []) : l ≠ [] := by
  intro h0
  subst h0
  exact h' (List.length_eq_zero_iff.mp h.symm)

/-- **C128** (signals, violated): a signal, i.e. the result of a comparison, cannot be used as 0/1 in arithmetic with an int
number: `(close > sma) * 1` raises ValueError whatever the data, if the lines compared have a warm-up.  (For `op`: `+`, `-`
or `*`, the number on either side.) -/
theorem C128_not_signal (op : AOp) (hop : op ≠ .div) (rev : Bool) (f : V → V → Bool) (z : ℤ) (a b : Line V)
    (hlen : a.series.length = b.series.length) (hw : Spec.Warmup a b) (env : ℕ → TL V) (h0 : env 0 = .flt a)
    (h1 : env 1 = .flt b) :
    (TE.arithS op rev (.cmp f (.inp 0) (.inp 1)) (.int z)).eval env = .error (.raises .valueError) := by
  simp only [TE.eval, h0, h1, bok, compare_ff]
  have hd : (op == AOp.div) = false := by cases op <;> first | rfl | exact absurd rfl hop
  rw [arithS]
  simp only [TL.isFlt, Sc.isFlt, hd, Bool.or_self, Bool.false_eq_true, if_false]
  have e1 := binop_length f true a b hlen
  have e2 := binop_minperiod f true a b (by have := hw.2; omega)
  refine storeInt_warm (ne_nil_of_length (l' := a.series) ?_ hw.1) ?_
  · rw [binopS_length]
    show (List.map _ (cmp f a b).series).length = _
    rw [List.length_map, e1]
  · show 2 ≤ (if max (cmp f a b).minperiod 1 = 0 then _ else max (cmp f a b).minperiod 1)
    have := hw.2
    rw [if_neg (by omega), show (cmp f a b).minperiod = _ from e2]
    omega

/-- **C128** (signals and floats): with a float number it works: the result is the number times (plus, ...) 1.0 or 0.0. -/
theorem C128_signal_float (op : AOp) (rev : Bool) (f : V → V → Bool) (c : V) (a b : Line V) (env : ℕ → TL V)
    (h0 : env 0 = .flt a) (h1 : env 1 = .flt b) :
    (TE.arithS op rev (.cmp f (.inp 0) (.inp 1)) (.flt c)).eval env
      = .ok (.flt (binopS (fun s c => if rev then op.flt c (if s then lit 1 else lit 0) else op.flt (if s then lit 1 else lit 0) c)
          nan (cmp f a b) c)) := by
  simp only [TE.eval, h0, h1, bok, compare_ff, arithS_b]
  congr 2
  simp only [binopS, TL.toFlt, pyFrom, List.length_map, ← List.map_drop, List.map_map, clone]
  rfl

/-- **C128** (signals and volume, violated): `(close > sma) * volume` raises ValueError for a volume of whole numbers,
whatever the data; for the same volume as floats it gives the volume where the signal is on, else 0. -/
theorem C128_not_volume (f : V → V → Bool) (a b : Line V) (vol : List ℤ) (hlen : a.series.length = b.series.length)
    (hvol : vol.length = a.series.length) (hw : Spec.Warmup a b) (env : ℕ → TL V) (h0 : env 0 = .flt a)
    (h1 : env 1 = .flt b) (h2 : env 2 = .int (ofSeries vol)) :
    (TE.arith .mul (.cmp f (.inp 0) (.inp 1)) (.inp 2)).eval env = .error (.raises .valueError) ∧
    (TE.arith .mul (.cmp f (.inp 0) (.inp 1)) (.inp 2)).eval (Spec.asFloat env)
      = .ok (.flt (binop (fun s v => (if s then lit 1 else lit 0) * v) nan (cmp f a b)
          (ofSeries (vol.map fun z : ℤ => lit (z : ℚ))))) := by
  have e1 := binop_length f true a b hlen
  have e2 := binop_minperiod f true a b (by have := hw.2; omega)
  constructor
  · simp only [TE.eval, h0, h1, h2, bok, compare_ff]
    show arithNum .mul (.bool (cmp f a b)) (.int (ofSeries vol)) = _
    rw [arithNum]
    show storeInt (binop (AOp.int .mul) 0 _ (ofSeries vol)) = _
    refine storeInt_warm (ne_nil_of_length (l' := a.series) ?_ hw.1) ?_
    · rw [binop_length]
      · show (List.map _ (cmp f a b).series).length = _
        rw [List.length_map, e1]
      · show (List.map _ (cmp f a b).series).length = vol.length
        rw [List.length_map, e1, hvol]
    · have := hw.2
      have e3 : (TL.bool (V := V) (cmp f a b)).toInt.minperiod = max a.minperiod b.minperiod := e2
      rw [binop_minperiod]
      · rw [e3]; omega
      · rw [e3]; omega
  · simp only [TE.eval, Spec.asFloat, h0, h1, h2, bok, toFlt_flt, compare_ff]
    show Except.ok (TL.flt (binop (AOp.flt .mul) nan (TL.bool (cmp f a b)).toFlt (ofSeries (vol.map ofInt)))) = _
    congr 2
    simp only [binop, TL.toFlt, pyFrom, List.length_map, ← List.map_drop, List.zipWith_map_left, clone]
    rfl

/-- **C128** (counting signals, violated): `(close > sma).cumsum()` raises ValueError whatever the data, if the lines
compared have a warm-up. -/
theorem C128_not_count (f : V → V → Bool) (a b : Line V) (hlen : a.series.length = b.series.length)
    (hw : Spec.Warmup a b) (env : ℕ → TL V) (h0 : env 0 = .flt a) (h1 : env 1 = .flt b) :
    (TE.cumsum (.cmp f (.inp 0) (.inp 1))).eval env = .error (.raises .valueError) := by
  simp only [TE.eval, h0, h1, bok, compare_ff]
  have e1 := binop_length f true a b hlen
  have e2 := binop_minperiod f true a b (by have := hw.2; omega)
  show storeInt (stdop (cumInt 0) 0 0 (TL.bool (cmp f a b)).toInt) = _
  refine storeInt_warm (ne_nil_of_length (l' := a.series) ?_ hw.1) ?_
  · rw [stdop_length _ fun l => cumInt_length l 0]
    show (List.map _ (cmp f a b).series).length = _
    rw [List.length_map, e1]
  · show 2 ≤ (if (cmp f a b).minperiod = 0 then _ else (cmp f a b).minperiod) + 0
    have := hw.2
    rw [show (cmp f a b).minperiod = _ from e2, if_neg (by omega)]
    omega

/-! ## mavp -/

theorem mapM_ok {α β ε : Type} {f : α → Except ε β} : ∀ {l : List α} {r : List β}, l.mapM f = .ok r →
    r.length = l.length ∧ ∀ i (h : i < l.length) (h' : i < r.length), f l[i] = .ok r[i]
  | [], r, h => by
    cases h
    exact ⟨rfl, fun i h => absurd h (by simp)⟩
  | a :: l, r, h => by
    rw [List.mapM_cons] at h
    cases hb : f a with
    | error e => rw [hb] at h; cases h
    | ok b =>
      rw [hb] at h
      cases hr : l.mapM f with
      | error e => rw [hr] at h; cases h
      | ok r' =>
        rw [hr] at h
        cases h
        obtain ⟨h1, h2⟩ := mapM_ok hr
        refine ⟨by simp [h1], fun i h h' => ?_⟩
        cases i with
        | zero => exact hb
        | succ i => exact h2 i (by simpa using h) (by simpa using h')

/-- **C128** (mavp, violated): on closes of whole numbers `mavp` delivers the averages cut to whole numbers (towards zero): bar
by bar, the value delivered is the cut one of the same call with the closes as floats. -/
theorem C128_mavp (ma : MA (Ext ℚ)) (minp maxp : ℕ) (talib : Bool) (close : Line ℤ) (periods : List ℕ)
    (m r : Line (Ext ℚ)) (hm : Ind.mavp ma minp maxp talib (TL.int close).toFlt periods = .ok m)
    (hr : mavpInt truncE ma minp maxp talib close periods = .ok r) :
    r.minperiod = m.minperiod ∧ r.series.length = m.series.length ∧
    ∀ i : ℕ, m.minperiod - 1 ≤ (i : Int) → 1 ≤ m.minperiod → ∀ h : i < m.series.length, ∃ q : ℚ,
      m.series[i] = .fin q ∧ r.series[i]? = some (.fin ((if 0 ≤ q then ⌊q⌋ else ⌈q⌉ : ℤ) : ℚ)) := by
  rw [mavpInt, hm, bok] at hr
  cases hz : (pyFrom m.series (m.minperiod - 1)).mapM (truncE (K := ℚ)) with
  | error e => rw [hz] at hr; cases hr
  | ok z =>
    rw [hz, bok] at hr
    cases hr
    obtain ⟨hl, hv⟩ := mapM_ok hz
    have hst : pyStart m.series.length (m.minperiod - 1) ≤ m.series.length := by
      unfold pyStart
      split <;> omega
    have hl' : z.length = m.series.length - pyStart m.series.length (m.minperiod - 1) := by
      rw [hl, pyFrom, List.length_drop]
    refine ⟨rfl, ?_, ?_⟩
    · simp only [setFrom, List.length_append, List.length_replicate, List.length_map, hl']
      omega
    · intro i hi h1 h
      have hs : pyStart m.series.length (m.minperiod - 1) ≤ i := by
        unfold pyStart
        rw [if_pos (by omega)]
        omega
      have hj : i - pyStart m.series.length (m.minperiod - 1) < z.length := by omega
      have := hv (i - pyStart m.series.length (m.minperiod - 1)) (by rw [pyFrom, List.length_drop]; omega) hj
      have hget : (pyFrom m.series (m.minperiod - 1))[i - pyStart m.series.length (m.minperiod - 1)]'(by
          rw [pyFrom, List.length_drop]; omega) = m.series[i] := by
        simp only [pyFrom, List.getElem_drop]
        congr 1
        omega
      rw [hget] at this
      have hr' : (setFrom m.series.length (nan : Ext ℚ) (m.minperiod - 1) (z.map ofInt))[i]?
          = some (ofInt z[i - pyStart m.series.length (m.minperiod - 1)]) := by
        rw [setFrom, List.getElem?_append_right (by simpa using hs)]
        simp only [List.length_replicate, List.getElem?_map, List.getElem?_eq_getElem hj, Option.map_some]
      cases hq : m.series[i] with
      | fin q =>
        refine ⟨q, rfl, ?_⟩
        rw [hr']
        rw [hq] at this
        rw [← Except.ok.inj this]
        rfl
      | nan => rw [hq] at this; cases this
      | pinf => rw [hq] at this; cases this
      | ninf => rw [hq] at this; cases this

/-- **C128** (mavp, violated): the closes 1, 2, 2 have the 2-bar averages 1.5, 2; as whole numbers `mavp` says 1, 2. -/
theorem C128_not_mavp :
    (Ind.mavp Ind.sma 2 30 false (ofSeries [.fin 1, .fin 2, .fin 2] : Line (Ext ℚ)) [2, 2, 2]
      = .ok ⟨[.nan, .fin (3 / 2), .fin 2], 2⟩) ∧
    (mavpInt truncE Ind.sma 2 30 false (ofSeries [1, 2, 2]) [2, 2, 2]
      = .ok (⟨[.nan, .fin 1, .fin 2], 2⟩ : Line (Ext ℚ))) := by
  constructor <;> decide +kernel

/-! ## The hypotheses can be met -/

/-- closes and volume of whole numbers and an average of the closes (minimum period 2) -/
def exEnv : ℕ → TL (Ext ℚ)
  | 0 => .int (ofSeries [1, 3, 2])
  | 1 => .int (ofSeries [10, 20, 30])
  | _ => .flt ⟨[.nan, .fin 2, .fin (5 / 2)], 2⟩

theorem exEnv_raw : Spec.Raw exEnv := by
  intro k
  match k with
  | 0 => exact Or.inr ⟨_, rfl⟩
  | 1 => exact Or.inr ⟨_, rfl⟩
  | _ + 2 => exact Or.inl ⟨_, rfl⟩

/-- a mixture of whole numbers and floats in an indicator (`obv`) -/
example : Spec.values exEnv (form (.obv false 1)) = lift (Call.run (fun k => (exEnv k).toFlt) (.obv false 1)) :=
  C128_indicators_partial _ (fun _ => exactInts_ext) _ exEnv_raw

example : Spec.values exEnv (form (.obv false 1)) = .ok [⟨[.nan, .fin 20, .fin (-10)], 2⟩] := by decide +kernel

/-- a formula of the user: `(close - average) * volume + 1` -/
example : ((TE.arithS .add false (fmul (fsub (fin 0) (fin 2)) (fin 1)) (.int 1)).eval exEnv).map TL.toFlt
    = .ok ⟨[.nan, .fin 21, .fin (-14)], 2⟩ := by decide +kernel

example : Spec.kind (TE.arithS .add false (fmul (fsub (fin 0) (fin 2)) (fin 1)) (.int 1) : TE (Ext ℚ)) = some .num := rfl

/-- whole numbers stay whole as long as there is no warm-up: `close * volume - 1` -/
example : (match (TE.arithS .sub false (fmul (fin 0) (fin 1)) (.int 1)).eval exEnv with
    | .ok (.int l) => l == ofSeries [9, 59, 59]
    | _ => false) = true := by decide +kernel

/-- a signal with a warm-up exists -/
example : Spec.Warmup (ofSeries [.fin 1, .fin 3] : Line (Ext ℚ)) ⟨[.nan, .fin 2], 2⟩ :=
  ⟨by simp [ofSeries], by decide⟩

/-- without a warm-up `(close > volume) * 1` works -/
example : (match (TE.arithS .mul false (.cmp (fun x y => lt x y) (fin 0) (fin 1)) (.int 1)).eval exEnv with
    | .ok (.int l) => l == ofSeries [1, 1, 1]
    | _ => false) = true := by decide +kernel

end Dt
end Bta
