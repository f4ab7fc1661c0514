import Verif.Item
import Verif.Lemmas.Rep
import Verif.Props.LineMore

/-!
# Single bars of a line (C94, C110)

`line[i]` holds the value at bar `i`.  It is not a number, though: it can stand to the right of an operator, where it counts as the
value; whatever else is asked of it raises an exception.
-/

namespace Bta
open PyFloat Line

variable {α β γ V : Type}

/-! ## Lines with a series: the operations are those of the rest of the model -/

theorem any_binop (f : α → β → γ) (fill : γ) (a : Line α) (b : Line β) :
    a.any.binop f fill (.line b.any) = .ok (binop f fill a b).any := rfl

theorem any_binopS (f : α → β → γ) (fill : γ) (a : Line α) (c : β) : a.any.binop f fill (.py c) = .ok (binopS f fill a c).any := rfl

theorem any_stdop (g : List α → List β) (fill : β) (inc : Int) (a : Line α) :
    a.any.stdop g fill inc = .ok (stdop g fill inc a).any := rfl

theorem any_reduce (red : List α → γ) (a : Line α) : a.any.reduce red = .ok (a.reduce red) := rfl

/-- On lines with a series the operations of `AnyLine` are those used everywhere else in the model. -/
theorem C94_lines (f : α → β → γ) (fill : γ) (g : List α → List γ) (inc : Int) (red : List α → γ) (a : Line α) (b : Line β) (c : β) :
    a.any.binop f fill (.line b.any) = .ok (binop f fill a b).any ∧ a.any.binop f fill (.py c) = .ok (binopS f fill a c).any ∧
      a.any.stdop g fill inc = .ok (stdop g fill inc a).any ∧ a.any.reduce red = .ok (a.reduce red) ∧
      a.any.iter = .ok a.series ∧ a.any.len = .ok a.series.length ∧ a.any.series = .ok a.series :=
  ⟨rfl, rfl, rfl, rfl, rfl, rfl, rfl⟩

theorem any_item (a : Line α) (i : Int) : a.any.item i = (a.item i).map fun v => ⟨.number v, a.minperiod⟩ := by
  show (match pyGet a.series i with
    | some v => Except.ok (⟨.number v, a.minperiod⟩ : AnyLine α)
    | none => Except.error Err.indexError) = _
  unfold Line.item
  cases pyGet a.series i <;> rfl

/-- `line[i]` is a line object around the value at bar `i`. -/
theorem C94_item_object (a : Line α) (i : ℕ) (h : i < a.series.length) :
    a.any.item i = .ok ⟨.number a.series[i], a.minperiod⟩ ∧
      a.any.item ((i : Int) - a.series.length) = .ok ⟨.number a.series[i], a.minperiod⟩ := by
  have := (C94_item a i).1 h
  rw [any_item, any_item, this.1, this.2]
  exact ⟨rfl, rfl⟩

/-- To the right of an operator it counts as the value: `a op b[i]` is, bar by bar, `a[j] op v` from the later of the two minimum
periods on and empty before, where `v` is the value of `b` at bar `i`. -/
theorem C94_item_right {a : Line α} {b : Line β} {n m m' : ℕ} {g : ℕ → α} (ha : RepW a n m g) (hb : b.minperiod = (m' : Int))
    (hm' : 1 ≤ m') (f : α → β → γ) (fill : γ) (i : ℕ) (hi : i < b.series.length) {x : AnyLine β} (hx : b.any.item i = .ok x) :
    ∃ r : Line γ, a.any.binop f fill (.line x) = .ok r.any ∧ Rep fill r n (max m m') (fun j => f (g j) b.series[i]) := by
  rw [(C94_item_object b i hi).1] at hx
  cases hx
  have hp := ha.pos
  have hw : RepW (⟨a.series, (max m m' : ℕ)⟩ : Line α) n (max m m') g :=
    ⟨ha.len, rfl, by omega, fun j h1 h2 => ha.val j (by omega) h2⟩
  have hr := rep_binopS (f := f) (fill := fill) (c := b.series[i]) hw
  refine ⟨_, ?_, hr⟩
  show Except.ok (Line.any (clone a (setFrom a.series.length fill (max a.minperiod b.minperiod - 1)
    ((pyFrom a.series (max a.minperiod b.minperiod - 1)).map (f · b.series[i]))) (max a.minperiod b.minperiod))) = _
  rw [ha.mp, hb]
  simp only [binopS, clone]
  rw [show max (m : Int) m' = ((max m m' : ℕ) : Int) by omega, show max (((max m m' : ℕ) : Int)) 1 = ((max m m' : ℕ) : Int) by omega,
    if_neg (by omega), if_neg (by omega)]

/-- Whatever else is asked of `line[i]` raises, for every line, every bar and every operation: an operator with it on the left (or on
the right of a number), `abs`, `round`, `shift` and the other methods, `line[i][j]`, `line[i]()`, `line[i](-1)`, `series` are an
AttributeError; `sum`, `max` and the other reductions and `mpseries` an IndexError; iteration, `len` and the truth value (`if`) a
TypeError. -/
theorem C94_item_negation [PyFloat V] (a : Line V) (i : Int) {x : AnyLine V} (hx : a.any.item i = .ok x) :
    (∀ (γ : Type) (f : V → V → γ) (fill : γ) (o : AnyLine.Other V), x.binop f fill o = .error .attributeError) ∧
      (∀ (γ : Type) (g : List V → List γ) (fill : γ) (inc : Int), x.stdop g fill inc = .error .attributeError) ∧
      (∀ (γ : Type) (red : List V → γ), x.reduce red = .error .indexError) ∧
      (∀ j, x.item j = .error .attributeError) ∧ x.blank = .error .attributeError ∧ x.copy = .error .attributeError ∧
      (∀ k, x.back k = .error .attributeError) ∧ x.series = .error .attributeError ∧ x.mpseries = .error .indexError ∧
      x.iter = .error .typeError ∧ x.len = .error .typeError ∧ x.truth = .error .typeError := by
  rw [any_item] at hx
  cases h : a.item i with
  | error e => rw [h] at hx; cases hx
  | ok v =>
    rw [h] at hx
    cases hx
    exact ⟨fun _ _ _ _ => rfl, fun _ _ _ _ => rfl, fun _ _ => rfl, fun _ => rfl, rfl, rfl, fun _ => rfl, rfl, rfl, rfl, rfl, rfl⟩

/-- Non-vacuity: `line - line[0]` with the values 2, 5, 4; `line[-1] - line` raises. -/
example : ((⟨[.fin 2, .fin 5, .fin 4], 1⟩ : Line (Ext ℚ)).any.item 0 >>= fun x =>
      (⟨[.fin 2, .fin 5, .fin 4], 1⟩ : Line (Ext ℚ)).any.binop (· - ·) .nan (.line x)) =
    .ok (Line.any ⟨[.fin 0, .fin 3, .fin 2], 1⟩) := by decide +kernel

example : ((⟨[.fin 2, .fin 5, .fin 4], 1⟩ : Line (Ext ℚ)).any.item (-1) >>= fun x =>
      x.binop (· - ·) .nan (.line (Line.any ⟨[.fin 2, .fin 5, .fin 4], 1⟩))) = .error .attributeError := by decide +kernel

end Bta
