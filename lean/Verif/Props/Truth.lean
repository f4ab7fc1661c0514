import Verif.Truth
import Verif.Props.Lines2

/-!
# Conditions on lines in python (C115)
-/

set_option linter.unusedSectionVars false
set_option linter.unusedVariables false

namespace Bta

variable {V : Type} [PyFloat V] {α : Type}

/-! ## Specification -/

/-- The bars of an object: those of the line, or of the first output. -/
def Spec.barsOf : Obj α → List α
  | .line l => l.series
  | .ind h => h.first.series

/-- The minimum period from which an object has data. -/
def Spec.startOf : Obj α → Int
  | .line l => l.minperiod
  | .ind h => h.minperiod

/-- An object over `n` bars as operations and indicators make them: minimum periods from 1 on, and the minimum period of an
indicator covers its first output. -/
def Obj.Over (n : ℕ) : Obj α → Prop
  | .line l => l.series.length = n ∧ 1 ≤ l.minperiod
  | .ind h => h.first.series.length = n ∧ 1 ≤ h.first.minperiod ∧ h.first.minperiod ≤ h.minperiod

/-- What one expects of a condition which is written with several comparisons: a line whose value in a bar is whether all of the
comparisons hold in this bar (from the largest minimum period of the objects on). -/
def Spec.AllHold (n : ℕ) (r : Line Bool) (objs : List (Obj α)) (pairs : List (Obj α × (α → α → Bool) × Obj α)) : Prop :=
  r.series.length = n ∧ ∀ i, i < n → (∀ o ∈ objs, Spec.startOf o ≤ (i : Int) + 1) →
    r.series[i]? = some (pairs.all fun p =>
      match (Spec.barsOf p.1)[i]?, (Spec.barsOf p.2.2)[i]? with
      | some u, some v => p.2.1 u v
      | _, _ => false)

/-! ## Lemmas -/

theorem Obj.Over.bars {n : ℕ} {x : Obj α} (h : x.Over n) : (Spec.barsOf x).length = n := by
  cases x with
  | line l => exact h.1
  | ind h' => exact h.1

/-- One comparison. -/
theorem Obj.cmp_spec {n : ℕ} (f : α → α → Bool) (x y : Obj α) (hx : x.Over n) (hy : y.Over n) :
    (x.cmp f y).series.length = n ∧ 1 ≤ (x.cmp f y).minperiod ∧
    (x.cmp f y).minperiod ≤ max (Spec.startOf x) (Spec.startOf y) ∧
    ∀ i, i < n → Spec.startOf x ≤ (i : Int) + 1 → Spec.startOf y ≤ (i : Int) + 1 →
      (x.cmp f y).series[i]? = some (match (Spec.barsOf x)[i]?, (Spec.barsOf y)[i]? with
        | some u, some v => f u v
        | _, _ => false) := by
  have key : ∀ (a b : Line α), a.series.length = n → b.series.length = n → 1 ≤ a.minperiod → 1 ≤ b.minperiod →
      (Line.binop f true a b).series.length = n ∧ 1 ≤ (Line.binop f true a b).minperiod ∧
      (Line.binop f true a b).minperiod ≤ max a.minperiod b.minperiod ∧
      ∀ i, i < n → a.minperiod ≤ (i : Int) + 1 → b.minperiod ≤ (i : Int) + 1 →
        (Line.binop f true a b).series[i]? = some (match a.series[i]?, b.series[i]? with
          | some u, some v => f u v
          | _, _ => false) := by
    intro a b ha hb ma mb
    obtain ⟨h1, h2, h3, _⟩ := C05_binop f true a b (ha.trans hb.symm) ma mb
    refine ⟨h1.trans ha, by omega, by omega, fun i hi hia hib => ?_⟩
    rw [h3 i (by omega) (by omega), List.getElem?_eq_getElem (by omega), List.getElem?_eq_getElem (by omega)]
  cases x with
  | line a =>
    cases y with
    | line b => exact key a b hx.1 hy.1 hx.2 hy.2
    | ind h => exact key a ⟨h.first.series, h.minperiod⟩ hx.1 hy.1 hx.2 (le_trans hy.2.1 hy.2.2)
  | ind k =>
    have hk : k.first.minperiod ≤ k.minperiod := hx.2.2
    have ext : ∀ b : Line α, b.series.length = n → 1 ≤ b.minperiod →
        (Line.binop f true k.first b).series.length = n ∧ 1 ≤ (Line.binop f true k.first b).minperiod ∧
        (Line.binop f true k.first b).minperiod ≤ max k.minperiod b.minperiod ∧
        ∀ i, i < n → k.minperiod ≤ (i : Int) + 1 → b.minperiod ≤ (i : Int) + 1 →
          (Line.binop f true k.first b).series[i]? = some (match k.first.series[i]?, b.series[i]? with
            | some u, some v => f u v
            | _, _ => false) := by
      intro b hb mb
      obtain ⟨h1, h2, h3, h4⟩ := key k.first b hx.1 hb hx.2.1 mb
      exact ⟨h1, h2, by omega, fun i hi h5 h6 => h4 i hi (by omega) h6⟩
    cases y with
    | line b => exact ext b hy.1 hy.2
    | ind h => exact ext ⟨h.first.series, h.minperiod⟩ hy.1 (le_trans hy.2.1 hy.2.2)

theorem Obj.truth_line {l : Line α} (h : 0 < l.series.length) : (Obj.line l).truth = true := by
  have : l.series.length ≠ 0 := by omega
  simp only [Obj.truth, Obj.len, this, ne_eq, not_false_eq_true, decide_true]

theorem Obj.truth_over {n : ℕ} (hn : 0 < n) {x : Obj α} (h : x.Over n) : x.truth = true := by
  cases x with
  | line l => exact Obj.truth_line (by rw [h.1]; exact hn)
  | ind k => simp [Obj.truth, Obj.len]

theorem Obj.truth_cmp {n : ℕ} (hn : 0 < n) (f : α → α → Bool) {x y : Obj α} (hx : x.Over n) (hy : y.Over n) :
    (Obj.line (x.cmp f y)).truth = true :=
  Obj.truth_line (by rw [(Obj.cmp_spec f x y hx hy).1]; exact hn)

/-! ## Truth -/

/-- **C115** (negation; all data with at least one bar): in a chained comparison all comparisons but the last are ignored:
`x < y < z` is the line `y < z`. -/
theorem C115_chain_lost {n : ℕ} (hn : 0 < n) (x : Obj α) (f : α → α → Bool) (y : Obj α) (g : α → α → Bool) (z : Obj α)
    (rest : List ((α → α → Bool) × Obj α)) (hx : x.Over n) (hy : y.Over n) :
    pyChain x f y ((g, z) :: rest) = pyChain y g z rest := by
  rw [pyChain, Obj.truth_cmp hn f hx hy, if_pos rfl]

/-- **C115** (negation; all conditions with at least one bar): `x and y` is `y`, `x or y` is `x`, `not x` is `False`,
`u if x else v` is `u`, `all` and `any` are `True` - without a look at any value. -/
theorem C115_truth_lost {n : ℕ} (hn : 0 < n) (x y : Obj Bool) (hx : x.Over n) (l : List (Obj Bool)) (hl : ∀ o ∈ l, o.Over n)
    (hne : l ≠ []) {β : Type} (u v : β) :
    pyAnd x y = y ∧ pyOr x y = x ∧ pyNot x = false ∧ pyIf x u v = u ∧ pyAll l = true ∧ pyAny l = true := by
  have h := Obj.truth_over hn hx
  refine ⟨by simp [pyAnd, h], by simp [pyOr, h], by simp [pyNot, h], by simp [pyIf, h], ?_, ?_⟩
  · rw [pyAll, List.all_eq_true]
    exact fun o ho => Obj.truth_over hn (hl o ho)
  · obtain ⟨o, l, rfl⟩ := List.exists_cons_of_ne_nil hne
    rw [pyAny, List.any_eq_true]
    exact ⟨o, List.mem_cons_self, Obj.truth_over hn (hl o List.mem_cons_self)⟩

/-- **C115** what python takes for the truth of a line is whether it has bars, and an indicator is always true, also without bars; so `not`, `if`, `and`
and `or` on an empty line are those of an empty list. -/
theorem C115_truth_is_length (l : Line α) (h : Holder α) {β : Type} (u v : β) (y : Obj α) :
    pyNot (.line l) = decide (l.series = []) ∧ pyNot (.ind h) = false ∧
    (l.series = [] → pyIf (.line l) u v = v ∧ pyAnd (.line l) y = .line l ∧ pyOr (.line l) y = y ∧ pyAll [.line l] = false ∧ pyAny [.line l] = false) ∧
    (l.series ≠ [] → pyIf (.line l) u v = u ∧ pyAnd (.line l) y = y ∧ pyOr (.line l) y = .line l) ∧ pyIf (.ind h) u v = u := by
  have e : (Obj.ind h).truth = true := by simp [Obj.truth, Obj.len]
  have t : (Obj.line l).truth = !decide (l.series = []) := by
    simp [Obj.truth, Obj.len]
  refine ⟨by rw [pyNot, t, Bool.not_not], by rw [pyNot, e]; rfl, fun hl => ?_, fun hl => ?_, by simp [pyIf, e]⟩
  · have t : (Obj.line l).truth = false := by rw [t, hl]; rfl
    simp [pyIf, pyAnd, pyOr, pyAll, pyAny, t]
  · have t : (Obj.line l).truth = true := by rw [t, decide_eq_false hl]; rfl
    simp [pyIf, pyAnd, pyOr, t]

theorem pyExt_last {n : ℕ} (hn : 0 < n) (f : V → V → Bool) (l : List (Obj V)) : ∀ (x : Obj V), x.Over n →
    (∀ o ∈ l, o.Over n) →
    l.foldl (fun m y => if (Obj.line (y.cmp f m)).truth then y else m) x = (x :: l).getLast (by simp) := by
  induction l with
  | nil => intro x _ _; rfl
  | cons y l ih =>
    intro x hx hl
    have hy := hl y List.mem_cons_self
    rw [List.foldl_cons, Obj.truth_cmp hn f hy hx, if_pos rfl, ih y hy (fun o ho => hl o (List.mem_cons_of_mem _ ho))]
    exact (List.getLast_cons (by simp)).symm

/-- **C115** (negation; all lines and indicators with at least one bar): the builtins `max` and `min` return their last
argument, whatever the values are. -/
theorem C115_builtin_lost {n : ℕ} (hn : 0 < n) (x : Obj V) (l : List (Obj V)) (hx : x.Over n) (hl : ∀ o ∈ l, o.Over n) :
    pyMax x l = (x :: l).getLast (by simp) ∧ pyMin x l = (x :: l).getLast (by simp) :=
  ⟨pyExt_last hn _ l x hx hl, pyExt_last hn _ l x hx hl⟩

/-- **C115** (negation; all lines and indicators with at least one bar): every object counts as element of every list of
lines which is not empty. -/
theorem C115_in_lost {n : ℕ} (hn : 0 < n) (x : Nat × Obj V) (l : List (Nat × Obj V)) (hx : x.2.Over n)
    (hl : ∀ o ∈ l, o.2.Over n) : pyIn x l = !l.isEmpty := by
  cases l with
  | nil => rfl
  | cons o l =>
    simp only [pyIn, List.any_cons, Obj.truth_cmp hn _ (hl o List.mem_cons_self) hx, Bool.or_true, Bool.true_or,
      List.isEmpty_cons, Bool.not_false]

/-! ## What can be written instead -/

/-- **C115** (partial: `&` and not the chain; all data): `(x < y) & (y < z)` has in each bar from the largest minimum period on
the value one expects of `x < y < z` - for any comparisons of any lines and indicators. -/
theorem C115_and_partial {n : ℕ} (f g : α → α → Bool) (x y z : Obj α) (hx : x.Over n) (hy : y.Over n) (hz : z.Over n) :
    Spec.AllHold n (Line.andL (x.cmp f y) (y.cmp g z)) [x, y, z] [(x, f, y), (y, g, z)] := by
  obtain ⟨h1, h2, h3, h4⟩ := Obj.cmp_spec f x y hx hy
  obtain ⟨k1, k2, k3, k4⟩ := Obj.cmp_spec g y z hy hz
  obtain ⟨r1, r2, r3, _⟩ := C05_binop (fun a b => a && b) true (x.cmp f y) (y.cmp g z) (h1.trans k1.symm) h2 k2
  refine ⟨r1.trans h1, fun i hi hm => ?_⟩
  have mx : Spec.startOf x ≤ (i : Int) + 1 := hm x (by simp)
  have my : Spec.startOf y ≤ (i : Int) + 1 := hm y (by simp)
  have mz : Spec.startOf z ≤ (i : Int) + 1 := hm z (by simp)
  have e1 := h4 i hi mx my
  have e2 := k4 i hi my mz
  have hi1 : i < (x.cmp f y).series.length := by omega
  have hi2 : i < (y.cmp g z).series.length := by omega
  rw [List.getElem?_eq_getElem hi1, Option.some.injEq] at e1
  rw [List.getElem?_eq_getElem hi2, Option.some.injEq] at e2
  show (Line.binop (fun a b => a && b) true (x.cmp f y) (y.cmp g z)).series[i]? = _
  rw [r3 i hi1 (by omega), e1, e2]
  simp only [List.all_cons, List.all_nil, Bool.and_true]

/-- **C115** (negation): the chain itself does not have this value, whatever the objects are, as soon as there is a delivered
bar in which the first comparison fails and the second holds. -/
theorem C115_chain_wrong {n : ℕ} (f g : α → α → Bool) (x y z : Obj α) (hx : x.Over n) (hy : y.Over n) (hz : z.Over n)
    (i : ℕ) (hi : i < n) (hm : ∀ o ∈ [x, y, z], Spec.startOf o ≤ (i : Int) + 1) (u v w : α)
    (hu : (Spec.barsOf x)[i]? = some u) (hv : (Spec.barsOf y)[i]? = some v) (hw : (Spec.barsOf z)[i]? = some w)
    (h1 : f u v = false) (h2 : g v w = true) :
    ¬ Spec.AllHold n (pyChain x f y [(g, z)]) [x, y, z] [(x, f, y), (y, g, z)] := by
  rintro ⟨-, h⟩
  have hc := C115_chain_lost (by omega) x f y g z [] hx hy
  have e1 := h i hi hm
  rw [hc, pyChain, (Obj.cmp_spec g y z hy hz).2.2.2 i hi (hm y (by simp)) (hm z (by simp))] at e1
  simp [hu, hv, hw, h1, h2] at e1

/-- Bars with `low`, `close`, `high`: in the second one the close is below the low, and `low <= close <= high` says True;
`max(low, high)` is `high`, `max(high, low)` is `low`. -/
example :
    let num : List ℚ → Obj (Ext ℚ) := fun l => .line ⟨l.map Ext.fin, 1⟩
    let low := num [1, 5, 3]
    let close := num [2, 4, 9]
    let high := num [3, 6, 8]
    low.Over 3 ∧ close.Over 3 ∧ high.Over 3 ∧
    (pyChain low (fun a b => le a b) close [(fun a b => le a b, high)]).series = [true, true, false] ∧
    (Line.andL (low.cmp (fun a b => le a b) close) (close.cmp (fun a b => le a b) high)).series = [true, false, false] ∧
    Spec.barsOf (pyMax low [high]) = [.fin 3, .fin 6, .fin 8] ∧ Spec.barsOf (pyMax high [low]) = [.fin 1, .fin 5, .fin 3] ∧
    pyIn (0, low) [(1, high)] = true := by
  refine ⟨⟨rfl, by decide⟩, ⟨rfl, by decide⟩, ⟨rfl, by decide⟩, ?_⟩
  decide +kernel

/-- An indicator with two outputs as object. -/
example : (Obj.ind (Holder.ofOutputs (⟨[true, false], 1⟩ : Line Bool) [⟨[true, true], 2⟩])).Over 2 := by
  refine ⟨rfl, ?_, ?_⟩ <;> simp [Holder.ofOutputs]

end Bta
