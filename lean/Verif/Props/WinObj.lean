import Verif.WinObj
import Verif.Props.Lines2

/-!
# Histories of a window object (C07)
-/

set_option linter.unusedSectionVars false

namespace Bta
open Line

variable {V : Type} [PyFloat V]

/-- how often an attribute is read before `_seeded` is -/
def _root_.Spec.periodReads : List (WinEv V) → ℕ
  | [] => 0
  | .get _ :: h => Spec.periodReads h + 1
  | .seeded :: _ => 0
  | .call _ :: h => Spec.periodReads h

/-- the minimum period after `k` reads with a window which needs `g` bars more than the line (`a`: at least so many) -/
def _root_.Spec.readPeriod (m g a : ℤ) (k : ℕ) : ℤ :=
  if k = 0 then m else if 0 ≤ g then max (m + g) a + (k - 1) * g else max (m + k * g) a

theorem readPeriod_succ (m g a : ℤ) (k : ℕ) : Spec.readPeriod (max (m + g) a) g a k = Spec.readPeriod m g a (k + 1) := by
  unfold Spec.readPeriod
  rw [if_neg (Nat.succ_ne_zero k)]
  by_cases h : 0 ≤ g
  · simp only [if_pos h]
    by_cases hk : k = 0
    · subst hk; simp
    · rw [if_neg hk, max_eq_left (by have := le_max_right (m + g) a; omega)]
      push_cast; ring
  · simp only [if_neg h]
    by_cases hk : k = 0
    · subst hk; simp
    · rw [if_neg hk]
      obtain ⟨j, rfl⟩ : ∃ j, k = j + 1 := ⟨k - 1, by omega⟩
      have e : (0 : ℤ) ≤ (j : ℤ) * -g := by have : (0 : ℤ) ≤ j := by omega
                                            exact mul_nonneg this (by omega)
      push_cast
      have e1 : ((j : ℤ) + 1) * g = j * g + g := by ring
      have e2 : ((j : ℤ) + 1 + 1) * g = j * g + g + g := by ring
      have e3 : (j : ℤ) * -g = -(j * g) := by ring
      rw [e1, e2]
      omega

/-- all the object holds but the minimum period and the mark -/
def Win.rest (w : Win V) : Line V × Option ℤ × ℤ × ℤ × ℤ × List V := (w.line, w.pval, w.pearly, w.alphaP, w.minidx, w.trailer)

theorem Win.get_rest (w : Win V) : w.get.rest = w.rest := by
  unfold Win.get
  split
  · rfl
  · split <;> rfl

theorem Win.step_rest (w : Win V) (e : WinEv V) : (w.step e).rest = w.rest := by
  cases e with
  | get f => exact w.get_rest
  | seeded => rfl
  | call op => rfl

theorem Win.after_rest (h : List (WinEv V)) : ∀ w : Win V, (w.after h).rest = w.rest := by
  induction h with
  | nil => intro w; rfl
  | cons e h ih => intro w; exact (ih _).trans (w.step_rest e)

theorem Win.after_seeded (h : List (WinEv V)) : ∀ w : Win V, w.seeded = true → (w.after h).minperiod = w.minperiod := by
  induction h with
  | nil => intro w _; rfl
  | cons e h ih =>
    intro w hw
    have e1 : (w.step e).seeded = true ∧ (w.step e).minperiod = w.minperiod := by
      cases e with
      | get f =>
        simp only [Win.step, Win.get]
        split
        · exact ⟨hw, rfl⟩
        · rw [if_pos hw]; exact ⟨hw, rfl⟩
      | seeded => exact ⟨rfl, rfl⟩
      | call op => exact ⟨hw, rfl⟩
    exact (ih _ e1.1).trans e1.2

theorem Win.after_none (h : List (WinEv V)) : ∀ w : Win V, w.pval = none → (w.after h).minperiod = w.minperiod := by
  induction h with
  | nil => intro w _; rfl
  | cons e h ih =>
    intro w hw
    have e1 : (w.step e).pval = none ∧ (w.step e).minperiod = w.minperiod := by
      cases e with
      | get f =>
        have : w.step (.get f) = w := by simp only [Win.step, Win.get, hw]
        rw [this]; exact ⟨hw, rfl⟩
      | seeded => exact ⟨hw, rfl⟩
      | call op => exact ⟨hw, rfl⟩
    exact (ih _ e1.1).trans e1.2

theorem Win.after_some {p : ℤ} (h : List (WinEv V)) : ∀ w : Win V, w.pval = some p → w.seeded = false →
    (w.after h).minperiod = Spec.readPeriod w.minperiod (p - w.pearly - 1) w.alphaP (Spec.periodReads h) := by
  induction h with
  | nil => intro w _ _; rfl
  | cons e h ih =>
    intro w hp hs
    cases e with
    | get f =>
      have e1 : w.step (.get f) = { w with minperiod := max (w.minperiod + (p - w.pearly - 1)) w.alphaP } := by
        simp only [Win.step, Win.get, hp, hs, Bool.false_eq_true, if_false]
      show ((w.step (.get f)).after h).minperiod = _
      rw [e1]
      refine (ih { w with minperiod := max (w.minperiod + (p - w.pearly - 1)) w.alphaP } hp hs).trans ?_
      exact readPeriod_succ w.minperiod _ _ _
    | seeded =>
      show ((w.step .seeded).after h).minperiod = _
      rw [Win.after_seeded _ _ rfl]
      rfl
    | call op => exact ih w hp hs

/-- the minimum period of a result of an object, after a history, when the window takes `pval` bars -/
def _root_.Spec.minperiodOf (w : Win V) (h : List (WinEv V)) : ℤ :=
  match w.pval with
  | none => w.minperiod
  | some p => Spec.readPeriod w.minperiod (p - w.pearly - 1) w.alphaP (Spec.periodReads h)

/-- two outcomes of a call which are the same but for the minimum period -/
def _root_.Spec.SameBut (r r' : Except Err (Line V)) (m' : ℤ) : Prop :=
  match r with
  | .error e => r' = .error e
  | .ok l => r' = .ok ⟨l.series, m'⟩

/-- **C07** (every history). Let an object just made be kept while any attributes are read, whether pandas has them or not, in any order, whether
the operations got are called at once, later, or not at all, with `_seeded` read or not: an operation called then raises if it raises on an
object of which only one attribute was read; else it has the values it has there, and the minimum period of `Spec.minperiodOf`: it grows with
each attribute read before, not with the calls. -/
theorem C07_histories (w : Win V) (hs : w.seeded = false) (h : List (WinEv V)) (op : List V → Except Err (List V))
    (hm : Spec.minperiodOf w h ≠ 0) : Spec.SameBut (w.get.call op) ((w.after h).call op) (Spec.minperiodOf w h) := by
  have h1 := Win.after_rest h w
  have h2 := w.get_rest
  have e : (w.after h).minperiod = Spec.minperiodOf w h := by
    unfold Spec.minperiodOf
    cases hp : w.pval with
    | none => exact Win.after_none h w hp
    | some p => exact Win.after_some h w hp hs
  simp only [Win.rest, Prod.mk.injEq] at h1 h2
  obtain ⟨a1, -, -, -, a2, a3⟩ := h1
  obtain ⟨b1, -, -, -, b2, b3⟩ := h2
  unfold Win.call
  rw [a1, a2, a3, b1, b2, b3]
  cases op w.trailer with
  | error e => exact rfl
  | ok r =>
    simp only
    split
    · simp only [Spec.SameBut, e]
      simp only [clone, if_neg hm]
    · exact rfl

/-- **C07** (every history, when the result is right). The minimum period after a history with at least one attribute read and without
`_seeded` is the one of a fresh object exactly if the window takes one bar, or no period is known (`expanding()`), or only one attribute was
read. For all windows which take at least one bar. -/
theorem C07_right_partial (a : Line V) (pval : Option ℤ) (hp : ∀ p, pval = some p → 1 ≤ p) (ha : 1 ≤ a.minperiod) (h : List (WinEv V))
    (hr : 1 ≤ Spec.periodReads h) :
    Spec.minperiodOf (Win.new pval a) h = (Win.new pval a).get.minperiod ↔ pval = none ∨ pval = some 1 ∨ Spec.periodReads h = 1 := by
  cases pval with
  | none => simp [Spec.minperiodOf, Win.new, Win.get]
  | some p =>
    have h1 := hp p rfl
    have e1 : (Win.new (some p) a).get.minperiod = a.minperiod + (p - 1) := by
      simp only [Win.get, Win.new, Bool.false_eq_true, if_false]
      omega
    have e2 : Spec.minperiodOf (Win.new (some p) a) h = a.minperiod + (p - 1) + (Spec.periodReads h - 1) * (p - 1) := by
      simp only [Spec.minperiodOf, Win.new, Spec.readPeriod, sub_zero]
      rw [if_neg (by omega), if_pos (show 0 ≤ p - 1 by omega), max_eq_left (by omega)]
    rw [e1, e2]
    constructor
    · intro h
      have h0 : ((Spec.periodReads ‹List (WinEv V)› : ℤ) - 1) * (p - 1) = 0 := by omega
      rcases mul_eq_zero.mp h0 with h0 | h0
      · exact Or.inr (Or.inr (by omega))
      · exact Or.inr (Or.inl (by rw [show p = 1 from by omega]))
    · rintro (h | h | h)
      · exact absurd h (by simp)
      · rw [show p = 1 from Option.some.inj h]; simp
      · rw [h]; simp

/-- the results of the operations of a line are those of a fresh object of which one attribute is read -/
theorem Win.rolling_eq (w : ℕ) (agg : List V → V) (a : Line V) :
    (Win.new (some (w : ℤ)) a).get.call (fun t => .ok (rollL w agg t)) = .ok (Line.rolling w agg a) := by
  have hl : (rollL w agg (pyFrom a.series (a.minperiod - 1))).length =
      a.series.length - pyStart a.series.length (a.minperiod - 1) := by
    simp [rollL, pyFrom]
  unfold Win.call
  simp only [Win.new, Win.get, Bool.false_eq_true, if_false]
  rw [if_pos hl]
  simp only [Line.rolling, sub_zero]
  rw [show a.minperiod + ((w : ℤ) - 1) = a.minperiod + w - 1 from by ring]

theorem Win.expanding_eq (p : PArg) (agg : List V → V) (a : Line V) :
    (Win.new (p.get.map Int.ofNat) a).get.call (fun t => .ok (expandL p.val agg t)) = .ok (Line.expanding agg p a) := by
  have hl : (expandL p.val agg (pyFrom a.series (a.minperiod - 1))).length =
      a.series.length - pyStart a.series.length (a.minperiod - 1) := by
    simp [expandL, pyFrom]
  cases p with
  | kw k =>
    refine (if_pos hl).trans ?_
    simp only [Win.new, Win.get, PArg.get, Option.map, Bool.false_eq_true, if_false, Line.expanding, sub_zero]
    rw [show a.minperiod + (Int.ofNat k - 1) = a.minperiod + k - 1 from by simp only [Int.ofNat_eq_natCast]; ring]
  | default => exact if_pos hl
  | pos k => exact if_pos hl

theorem Win.ewm_eq (c : EwmCfg) (alpha : V) (a : Line V) :
    (Win.newEwm c a >>= fun w => w.get.call fun t => .ok (ewmL alpha t)) = Line.ewmMean c alpha a := by
  unfold Win.newEwm Line.ewmMean
  cases ewmNew c a with
  | error e => rfl
  | ok o => rfl

/-- **C07** (fresh objects). An object made for each operation, as the indicators of the library do, gives the operations of a line: windows,
expanding windows and exponential averages. -/
theorem C07_fresh_partial (a : Line V) :
    (∀ (w : ℕ) (agg : List V → V), (Win.new (some (w : ℤ)) a).get.call (fun t => .ok (rollL w agg t)) = .ok (Line.rolling w agg a)) ∧
    (∀ (p : PArg) (agg : List V → V),
      (Win.new (p.get.map Int.ofNat) a).get.call (fun t => .ok (expandL p.val agg t)) = .ok (Line.expanding agg p a)) ∧
    ∀ (c : EwmCfg) (alpha : V), (Win.newEwm c a >>= fun w => w.get.call fun t => .ok (ewmL alpha t)) = Line.ewmMean c alpha a :=
  ⟨fun w agg => Win.rolling_eq w agg a, fun p agg => Win.expanding_eq p agg a, fun c alpha => Win.ewm_eq c alpha a⟩

/-- **C07** (negation, exponential averages): the `k`-th of the averages got from one `_ewm` object of period `p` declares `k (p - 1)` bars
more than the line. -/
theorem C07_ewm_inflates (a : Line V) (ha : 1 ≤ a.minperiod) (p : ℕ) (hp : 1 ≤ p) (seed : Seed) (w : Win V)
    (hw : Win.newEwm { pval := p, seed := seed } a = .ok w) (h : List (WinEv V)) (hr : 1 ≤ Spec.periodReads h) (alpha : V) (r : Line V)
    (hc : (w.after h).call (fun t => .ok (ewmL alpha t)) = .ok r) : r.minperiod = a.minperiod + Spec.periodReads h * ((p : ℤ) - 1) := by
  have hm : Spec.minperiodOf w h = a.minperiod + Spec.periodReads h * ((p : ℤ) - 1) ∧ w.seeded = false := by
    unfold Win.newEwm at hw
    split at hw
    · exact absurd hw (by simp)
    · cases hw
      refine ⟨?_, rfl⟩
      simp only [Spec.minperiodOf, Spec.readPeriod]
      rw [if_neg (by omega), if_pos (show (0 : ℤ) ≤ (p : ℤ) - 0 - 1 by omega), max_eq_left (by omega)]
      ring
  have hpos : (0 : ℤ) ≤ Spec.periodReads h * ((p : ℤ) - 1) := mul_nonneg (by omega) (by omega)
  have := C07_histories w hm.2 h (fun t => .ok (ewmL alpha t)) (by rw [hm.1]; omega)
  rw [hc] at this
  unfold Spec.SameBut at this
  split at this
  · exact absurd this (by simp)
  · cases this
    exact hm.1

/-! ### Cases -/

private def x5 : Line (Ext ℚ) := ofSeries [.fin 1, .fin 3, .fin 2, .fin 5, .fin 4]
private def win3 : Win (Ext ℚ) := Win.new (some 3) x5

/-- `w = x.rolling(window=3); w.mean; w.nothing; w.sum()`: the sum declares 7 bars and holds the values of three -/
example : (win3.after [.get true, .get false, .get true]).call (fun t => .ok (rollL 3 aggSum t)) =
      .ok ⟨[.nan, .nan, .fin 6, .fin 10, .fin 11], 7⟩ ∧
    win3.get.call (fun t => .ok (rollL 3 aggSum t)) = .ok ⟨[.nan, .nan, .fin 6, .fin 10, .fin 11], 3⟩ ∧
    Spec.minperiodOf win3 [.get true, .get false, .get true] = 7 := by decide +kernel

example : (win3.after [.seeded, .get true]).call (fun t => .ok (rollL 3 aggSum t)) =
      .ok ⟨[.nan, .nan, .fin 6, .fin 10, .fin 11], 1⟩ := by decide +kernel

example : (Win.newEwm { pval := 3 } x5 >>= fun w => (w.after [.get true, .get true]).call fun t => .ok (ewmL (.fin (1 / 2)) t)) =
    .ok ⟨[.nan, .nan, .fin 2, .fin (7 / 2), .fin (15 / 4)], 5⟩ := by decide +kernel

end Bta
