import Verif.Signs
import Verif.Lemmas.Rep
import Verif.Float

/-!
# Every way of writing an operator (C132)
-/

namespace Spec
open Bta Bta.Signs

variable {V W : Type}

/-- The arithmetic signs `+ - * / // % **`. -/
def arithmetic : List Sign := [.add, .sub, .mul, .truediv, .floordiv, .mod, .pow]

/-- The methods which are documented (pandas) as another way of writing `x sign y`. -/
def sameAs : Sign → List String
  | .add => ["add", "__add__"]
  | .sub => ["sub", "subtract", "__sub__"]
  | .mul => ["mul", "multiply", "__mul__"]
  | .truediv => ["truediv", "div", "divide", "__truediv__"]
  | .floordiv => ["floordiv", "__floordiv__"]
  | .mod => ["mod", "__mod__"]
  | .pow => ["pow", "__pow__"]
  | _ => []

/-- The methods which are documented as another way of writing `y sign x`. -/
def sameAsFlipped : Sign → List String
  | .add => ["radd", "__radd__"]
  | .sub => ["rsub", "__rsub__"]
  | .mul => ["rmul", "__rmul__"]
  | .truediv => ["rtruediv", "rdiv", "__rtruediv__"]
  | .floordiv => ["rfloordiv", "__rfloordiv__"]
  | .mod => ["rmod", "__rmod__"]
  | .pow => ["rpow", "__rpow__"]
  | _ => []

/-- The methods for comparisons. -/
def sameAsCmp : Cmp → List String
  | .lt => ["lt", "__lt__"] | .le => ["le", "__le__"] | .gt => ["gt", "__gt__"]
  | .ge => ["ge", "__ge__"] | .eq => ["eq", "__eq__"] | .ne => ["ne", "__ne__"]

/-- What pandas documents of the methods of a series: each of the names above computes the sign (`num`, `cmp`), with the
operands exchanged for the flipped ones; the series of the result is of floats or of truth values (`nfill`, `cfill` are what
`nan` becomes in them); `a < b` is `b > a` and so on; and a series has no `__div__`, `__rdiv__` (python 2). -/
structure Documented (P : Pandas V W) (num : Sign → V → V → W) (nfill : W) (cmp : Cmp → V → V → W) (cfill : W) : Prop where
  same : ∀ s ∈ arithmetic, ∀ name ∈ sameAs s, P name = some (num s, nfill)
  flipped : ∀ s ∈ arithmetic, ∀ name ∈ sameAsFlipped s, P name = some (fun x y => num s y x, nfill)
  compared : ∀ s, ∀ name ∈ sameAsCmp s, P name = some (cmp s, cfill)
  mirror : ∀ x y, cmp .gt y x = cmp .lt x y ∧ cmp .ge y x = cmp .le x y ∧ cmp .eq y x = cmp .eq x y ∧ cmp .ne y x = cmp .ne x y
  old : P "__div__" = none ∧ P "__rdiv__" = none

/-- What an operand shows to the other one: a number is itself on each bar; a line its values from its minimum period on; an
indicator those of its first output, from the minimum period of the indicator on. -/
def ShownAs : Obj V → ℕ → ℕ → (ℕ → V) → Prop
  | .num c, _, m, g => m = 1 ∧ ∀ i, g i = c
  | .sub (.line l), n, m, g => RepW l n m g
  | .sub (.ind h), n, m, g => RepW ⟨h.first.series, h.minperiod⟩ n m g

/-- What an operand shows as the executing (left) one: a line its values from its minimum period on, an indicator those of its first
output, from the minimum period of this output on. -/
def Leads : Src V → ℕ → ℕ → (ℕ → V) → Prop
  | .line l, n, m, g => RepW l n m g
  | .ind h, n, m, g => RepW h.first n m g

end Spec

namespace Bta
open PyFloat Line Signs Spec

variable {V W : Type} {P : Pandas V W} {num : Sign → V → V → W} {nfill cfill : W} {cmp : Cmp → V → V → W}

theorem _root_.Spec.Documented.mirrored
    (hP : Documented P num nfill cmp cfill) (s : Cmp) (x y : V) : cmp s.mirror y x = cmp s x y := by
  cases s with
  | lt => exact (hP.mirror x y).1
  | le => exact (hP.mirror x y).2.1
  | gt => exact (hP.mirror y x).1.symm
  | ge => exact (hP.mirror y x).2.1.symm
  | eq => exact (hP.mirror x y).2.2.1
  | ne => exact (hP.mirror x y).2.2.2

theorem rep_op {a : Line V} {n m m' : ℕ} {g h : ℕ → V} (ha : RepW a n m g) {y : Obj V} (hy : ShownAs y n m' h) (f : V → V → W) (fill : W) :
    Rep fill (a.op f fill y.operand) n (max m m') (fun i => f (g i) (h i)) := by
  have hp := ha.pos
  match y, hy with
  | .num c, hy =>
    obtain ⟨rfl, hc⟩ := hy
    have := rep_binopS (f := f) (fill := fill) (c := c) ha
    rw [show max m 1 = m by omega, show (fun i => f (g i) (h i)) = fun i => f (g i) c by funext i; rw [hc]]
    exact this
  | .sub (.line l), hy => exact rep_binop ha hy
  | .sub (.ind k), hy => exact rep_binop ha hy

theorem leads_exec {x : Src V} {n m : ℕ} {g : ℕ → V} (hx : Leads x n m g) : RepW x.exec n m g := by
  cases x <;> exact hx

theorem sameAs_binops : ∀ s, ∀ name ∈ sameAs s, name ∈ binops := by
  intro s; cases s <;> decide
theorem sameAsFlipped_binops : ∀ s, ∀ name ∈ sameAsFlipped s, name ∈ binops := by
  intro s; cases s <;> decide
theorem sameAsCmp_binops : ∀ s, ∀ name ∈ sameAsCmp s, name ∈ binops := by
  intro s; cases s <;> decide

theorem binops_special (x : Src V) {name : String} (h : name ∈ binops) : name ∈ x.special := by
  cases x <;> exact List.mem_append_left _ h

theorem not_special (x : Src V) {name : String} (h1 : name ∉ binops ++ lineSpecial) (h2 : name ∉ binops ++ holderSpecial) :
    name ∉ x.special := by
  cases x
  · exact h1
  · exact h2

theorem method_eq (x : Src V) (y : Obj V) {name : String} (h : name ∈ binops) {f : V → V → W} {fill : W} (hP : P name = some (f, fill)) :
    x.method P name y = .ok (x.exec.op f fill y.operand) := by
  unfold Src.method
  rw [if_pos h, hP]

/-- The signs `+ - * / // % **` with a line or an indicator on the left and a number, a line or an indicator on the right: `x sign y`,
`x sign= y` and each of the methods (`x.add(y)`, `x.div(y)`, `x.divide(y)`, ...) are one and the same line: bar by bar the sign of
the values of both, from the later of the minimum periods on. -/
theorem C132_signs (hP : Documented P num nfill cmp cfill) {s : Sign} (hs : s ∈ arithmetic) {x : Src V} {y : Obj V} {n m m' : ℕ}
    {g h : ℕ → V} (hx : Leads x n m g) (hy : ShownAs y n m' h) :
    ∃ r : Line W, Rep nfill r n (max m m') (fun i => num s (g i) (h i)) ∧ binary P s x y = .ok r ∧ assign P s x y = .ok r ∧
      ∀ name ∈ sameAs s, x.method P name y = .ok r := by
  replace hx := leads_exec hx
  have h1 : s.left ∈ sameAs s := by revert s; decide
  have h2 : s.inplace ∉ x.special := not_special x (by revert s; decide) (by revert s; decide)
  have hm : ∀ name ∈ sameAs s, x.method P name y = .ok (x.exec.op (num s) nfill y.operand) := fun name hn =>
    method_eq x y (sameAs_binops s name hn) (hP.same s hs name hn)
  have hb : binary P s x y = .ok (x.exec.op (num s) nfill y.operand) := by
    unfold binary
    rw [if_pos (binops_special x (sameAs_binops s _ h1))]
    exact hm _ h1
  refine ⟨_, rep_op hx hy _ _, hb, ?_, hm⟩
  unfold assign
  rw [if_neg h2]
  exact hb

/-- With a number on the left (`c sign x`) and as methods with `r` (`x.rsub(c)`, `x.rdiv(c)`, ...): the number is the left operand of
the sign; the methods do the same for lines and indicators. -/
theorem C132_reflected (hP : Documented P num nfill cmp cfill) {s : Sign} (hs : s ∈ arithmetic) {x : Src V} {n m : ℕ} {g : ℕ → V}
    (hx : Leads x n m g) :
    (∀ c : V, ∃ r : Line W, Rep nfill r n m (fun i => num s c (g i)) ∧ reflected P s c x = .ok r ∧
      ∀ name ∈ sameAsFlipped s, x.method P name (.num c) = .ok r) ∧
    ∀ (y : Obj V) (m' : ℕ) (h : ℕ → V), ShownAs y n m' h → ∃ r : Line W, Rep nfill r n (max m m') (fun i => num s (h i) (g i)) ∧
      ∀ name ∈ sameAsFlipped s, x.method P name y = .ok r := by
  replace hx := leads_exec hx
  have h1 : s.right ∈ sameAsFlipped s := by revert s; decide
  have hm : ∀ (y : Obj V), ∀ name ∈ sameAsFlipped s,
      x.method P name y = .ok (x.exec.op (fun x y => num s y x) nfill y.operand) := fun y name hn =>
    method_eq x y (sameAsFlipped_binops s name hn) (hP.flipped s hs name hn)
  have hp := hx.pos
  refine ⟨fun c => ?_, fun y m' h hy => ⟨_, rep_op hx hy _ _, hm y⟩⟩
  have hr := rep_op hx (y := .num c) (m' := 1) (h := fun _ => c) ⟨rfl, fun _ => rfl⟩ (fun x y => num s y x) nfill
  rw [show max m 1 = m by omega] at hr
  refine ⟨_, hr, ?_, hm (.num c)⟩
  unfold reflected
  rw [if_pos (binops_special x (sameAsFlipped_binops s _ h1))]
  exact hm _ _ h1

/-- Comparisons `< <= > >= == !=`: the sign, the methods, and `c sign x` with a number on the left. -/
theorem C132_compare (hP : Documented P num nfill cmp cfill) (s : Cmp) {x : Src V} {n m : ℕ} {g : ℕ → V} (hx : Leads x n m g) :
    (∀ (y : Obj V) (m' : ℕ) (h : ℕ → V), ShownAs y n m' h → ∃ r : Line W, Rep cfill r n (max m m') (fun i => cmp s (g i) (h i)) ∧
      compare P false s x y = .ok r ∧ ∀ name ∈ sameAsCmp s, x.method P name y = .ok r) ∧
    ∀ c : V, ∃ r : Line W, Rep cfill r n m (fun i => cmp s c (g i)) ∧ compareNum P s c x = .ok r := by
  replace hx := leads_exec hx
  have h1 : ∀ s : Cmp, s.left ∈ sameAsCmp s := by intro s; cases s <;> decide
  have hm : ∀ (s : Cmp) (y : Obj V), ∀ name ∈ sameAsCmp s,
      x.method P name y = .ok (x.exec.op (cmp s) cfill y.operand) := fun s y name hn =>
    method_eq x y (sameAsCmp_binops s name hn) (hP.compared s name hn)
  have hp := hx.pos
  refine ⟨fun y m' h hy => ⟨_, rep_op hx hy _ _, hm s y _ (h1 s), hm s y⟩, fun c => ?_⟩
  have hr := rep_op hx (y := .num c) (m' := 1) (h := fun _ => c) ⟨rfl, fun _ => rfl⟩ (cmp s.mirror) cfill
  rw [show max m 1 = m by omega, show (fun i => cmp s.mirror (g i) c) = fun i => cmp s c (g i) from
    funext fun i => hP.mirrored s c (g i)] at hr
  exact ⟨_, hr, hm s.mirror (.num c) _ (h1 s.mirror)⟩

/-- If the class of the right indicator is derived from that of the left one, python asks the right one: the values are the same, but the
minimum period is that of its first output and of the left *indicator*. -/
theorem C132_compare_derived (hP : Documented P num nfill cmp cfill) (s : Cmp) {x y : Src V} {n m m' : ℕ} {g h : ℕ → V}
    (hx : ShownAs (.sub x) n m g) (hy : Leads y n m' h) :
    ∃ r : Line W, Rep cfill r n (max m' m) (fun i => cmp s (g i) (h i)) ∧ compare P true s x (.sub y) = .ok r := by
  replace hy := leads_exec hy
  have hr := rep_op hy hx (cmp s.mirror) cfill
  rw [show (fun i => cmp s.mirror (h i) (g i)) = fun i => cmp s (g i) (h i) from funext fun i => hP.mirrored s _ _] at hr
  have h1 : ∀ s : Cmp, s.left ∈ sameAsCmp s := by intro s; cases s <;> decide
  exact ⟨_, hr, method_eq y _ (sameAsCmp_binops _ _ (h1 s.mirror)) (hP.compared _ _ (h1 s.mirror))⟩

/-- What cannot be written, although a pandas series knows it: `-x`, `+x`, `~x`, `round(x)` are a TypeError for every line and
indicator; `abs(x)` is for indicators (not for lines), and so is `hash(x)` (an indicator cannot be the key of a dictionary). -/
theorem C132_unary_negation (l : Line V) (k : Holder V) :
    (∀ x : Src V, ∀ u ∈ [Unary.neg, .pos, .invert, .round], unary u x = .error .typeError) ∧
      unary .abs (.line l) = .ok () ∧ unary .abs (.ind k) = .error .typeError ∧
      unary .hash (.line l) = .ok () ∧ unary .hash (.ind k) = .error .typeError := by
  refine ⟨fun x u hu => ?_, if_pos ?_, if_neg ?_, if_pos ?_, if_neg ?_⟩
  · refine if_neg (not_special x ?_ ?_)
    · revert u; decide
    · revert u; decide
  · show _ ∈ binops ++ lineSpecial; decide
  · show _ ∉ binops ++ holderSpecial; decide
  · show _ ∈ binops ++ lineSpecial; decide
  · show _ ∉ binops ++ holderSpecial; decide

/-- `&`, `|`, `^` exist for a line or indicator on the left only: with a number on the left they are a TypeError, whatever pandas can
do. `@` and `divmod` do not exist at all. -/
theorem C132_signs_negation (P : Pandas V W) (x : Src V) :
    (∀ s ∈ [Sign.and, .or, .xor], ∀ c, reflected P s c x = .error .typeError) ∧
      ∀ s ∈ [Sign.matmul, .divmod], ∀ y, binary P s x y = .error .typeError ∧ ∀ c, reflected P s c x = .error .typeError := by
  have hr : ∀ s ∈ [Sign.and, .or, .xor, .matmul, .divmod], ∀ z : Src V, s.right ∉ z.special := fun s hs z =>
    not_special z (by revert s; decide) (by revert s; decide)
  have hl : ∀ s ∈ [Sign.matmul, .divmod], s.left ∉ x.special := fun s hs =>
    not_special x (by revert s; decide) (by revert s; decide)
  have e1 : ∀ s ∈ [Sign.and, .or, .xor], s ∈ [Sign.and, .or, .xor, .matmul, .divmod] := by decide
  have e2 : ∀ s ∈ [Sign.matmul, .divmod], s ∈ [Sign.and, .or, .xor, .matmul, .divmod] := by decide
  refine ⟨fun s hs c => if_neg (hr s (e1 s hs) x), fun s hs y => ⟨?_, fun c => if_neg (hr s (e2 s hs) x)⟩⟩
  unfold binary
  rw [if_neg (hl s hs)]
  match y with
  | .num _ => rfl
  | .sub z => exact if_neg (hr s (e2 s hs) z)

/-- `x & y`, `x | y`, `x ^ y` are what pandas does, bar by bar. -/
theorem C132_logic {s : Sign} (hs : s ∈ [Sign.and, .or, .xor]) {f : V → V → W} {fill : W} (hP : P s.left = some (f, fill)) {x : Src V}
    {y : Obj V} {n m m' : ℕ} {g h : ℕ → V} (hx : Leads x n m g) (hy : ShownAs y n m' h) :
    ∃ r : Line W, Rep fill r n (max m m') (fun i => f (g i) (h i)) ∧ binary P s x y = .ok r := by
  replace hx := leads_exec hx
  have h1 : s.left ∈ binops := by clear hP; revert s; decide
  refine ⟨_, rep_op hx hy f fill, ?_⟩
  unfold binary
  rw [if_pos (binops_special x h1)]
  exact method_eq x y h1 hP

/-- The methods `__div__` and `__rdiv__` exist, but each use is an AttributeError. -/
theorem C132_div_negation (hP : Documented P num nfill cmp cfill) (x : Src V) (y : Obj V) :
    "__div__" ∈ x.special ∧ "__rdiv__" ∈ x.special ∧ x.method P "__div__" y = .error .attributeError ∧
      x.method P "__rdiv__" y = .error .attributeError := by
  have h1 : "__div__" ∈ binops := by decide
  have h2 : "__rdiv__" ∈ binops := by decide
  refine ⟨binops_special x h1, binops_special x h2, ?_, ?_⟩
  · unfold Src.method; rw [if_pos h1, hP.old.1]
  · unfold Src.method; rw [if_pos h2, hP.old.2]

/-! ## Non-vacuity -/

namespace Signs

/-- signs of exact values, for the examples -/
def exNum : Sign → Ext ℚ → Ext ℚ → Ext ℚ ⊕ Bool
  | .add, x, y => .inl (x + y)
  | .sub, x, y => .inl (x - y)
  | .mul, x, y => .inl (x * y)
  | .truediv, x, y => .inl (x / y)
  | _, x, _ => .inl x

/-- comparisons of exact values, for the examples -/
def exCmp : Cmp → Ext ℚ → Ext ℚ → Ext ℚ ⊕ Bool
  | .lt, x, y => .inr (lt x y)
  | .le, x, y => .inr (le x y)
  | .gt, x, y => .inr (lt y x)
  | .ge, x, y => .inr (le y x)
  | .eq, x, y => .inr (decide (x = y))
  | .ne, x, y => .inr (decide (x ≠ y))

/-- a series as documented, for the examples -/
def exP : Pandas (Ext ℚ) (Ext ℚ ⊕ Bool) := fun name =>
  match arithmetic.find? (fun s => name ∈ sameAs s), arithmetic.find? (fun s => name ∈ sameAsFlipped s),
    [Cmp.lt, .le, .gt, .ge, .eq, .ne].find? (fun s => name ∈ sameAsCmp s) with
  | some s, _, _ => some (exNum s, .inl .nan)
  | _, some s, _ => some (fun x y => exNum s y x, .inl .nan)
  | _, _, some s => some (exCmp s, .inr true)
  | _, _, _ => none

end Signs

example : Documented exP exNum (.inl .nan) exCmp (.inr true) where
  same := by
    have h : ∀ s ∈ arithmetic, ∀ name ∈ sameAs s, arithmetic.find? (fun s => name ∈ sameAs s) = some s := by decide
    intro s hs name hn
    simp only [exP, h s hs name hn]
  flipped := by
    have h : ∀ s ∈ arithmetic, ∀ name ∈ sameAsFlipped s, arithmetic.find? (fun s => name ∈ sameAs s) = none ∧
      arithmetic.find? (fun s => name ∈ sameAsFlipped s) = some s := by decide
    intro s hs name hn
    simp only [exP, (h s hs name hn).1, (h s hs name hn).2]
  compared := by
    have h : ∀ s, ∀ name ∈ sameAsCmp s, arithmetic.find? (fun s => name ∈ sameAs s) = none ∧
      arithmetic.find? (fun s => name ∈ sameAsFlipped s) = none ∧
      [Cmp.lt, .le, .gt, .ge, .eq, .ne].find? (fun s => name ∈ sameAsCmp s) = some s := by
      intro s; cases s <;> decide
    intro s name hn
    simp only [exP, (h s name hn).1, (h s name hn).2.1, (h s name hn).2.2]
  mirror := by
    intro x y
    refine ⟨?_, ?_, ?_, ?_⟩ <;> simp only [exCmp, eq_comm, ne_comm]
  old := by constructor <;> rfl

example : reflected exP .sub (.fin 10) (.line ⟨[.fin 1, .fin 2], 1⟩) = .ok ⟨[.inl (.fin 9), .inl (.fin 8)], 1⟩ := by decide +kernel
example : compareNum exP .lt (.fin 1) (.line ⟨[.fin 1, .fin 2], 1⟩) = .ok ⟨[.inr false, .inr true], 1⟩ := by decide +kernel

end Bta
