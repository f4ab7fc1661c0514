import Verif.Lemmas.Rounding
import Verif.Lemmas.Rep
import Verif.Ind.Core

/-!
# Signs and bounds in rounded arithmetic
-/

set_option linter.unusedSectionVars false
set_option linter.unusedVariables false

namespace Spec
open Bta

/-- a value which is missing, or a number from `lo` to `hi` -/
def Within (lo hi : ℚ) (v : Ext ℚ) : Prop := v = .nan ∨ ∃ x, v = .fin x ∧ lo ≤ x ∧ x ≤ hi

/-- a value which is missing, or not negative (it may be infinite) -/
def NotNegative (v : Ext ℚ) : Prop := v = .nan ∨ Ext.Le (.fin 0) v

/-- each bar of the line, in the warm-up or not, has the property -/
def EachBar {α : Type} (P : α → Prop) (l : Line α) : Prop := ∀ v ∈ l.series, P v

end Spec

namespace Bta
open Line Spec

namespace Ext

theorem not_nan_of_le {a b : Ext ℚ} (h : Ext.Le a b) : a ≠ nan ∧ b ≠ nan := by
  constructor <;> rintro rfl
  · cases b <;> exact nomatch h
  · cases a <;> exact nomatch h

theorem le_refl' {a : Ext ℚ} (h : a ≠ nan) : Ext.Le a a := by
  cases a <;> first | exact le_fin'.mpr le_rfl | rfl | exact absurd rfl h

theorem nonneg_cases {a : Ext ℚ} (h : Ext.Le (fin 0) a) : a = pinf ∨ ∃ x, a = fin x ∧ 0 ≤ x := by
  cases a with
  | fin x => exact Or.inr ⟨x, rfl, le_fin'.mp h⟩
  | pinf => exact Or.inl rfl
  | _ => exact nomatch h

theorem within_of_le {lo hi : ℚ} {v : Ext ℚ} (h1 : Ext.Le (fin lo) v) (h2 : Ext.Le v (fin hi)) : Within lo hi v := by
  cases v with
  | fin x => exact Or.inr ⟨x, rfl, le_fin'.mp h1, le_fin'.mp h2⟩
  | pinf => exact nomatch h2
  | ninf => exact nomatch h1
  | nan => exact Or.inl rfl

theorem nn_add {a b : Ext ℚ} (ha : Ext.Le (fin 0) a) (hb : Ext.Le (fin 0) b) : Ext.Le (fin 0) (Ext.add a b) := by
  rcases nonneg_cases ha with rfl | ⟨x, rfl, hx⟩ <;> rcases nonneg_cases hb with rfl | ⟨y, rfl, hy⟩ <;> first | rfl | skip
  exact le_fin'.mpr (by linarith)

theorem infSign_nn {x : ℚ} (h : 0 ≤ x) : infSign x = nan ∨ Ext.Le (fin 0) (infSign x) := by
  rcases h.lt_or_eq with h | rfl
  · rw [infSign_pos h]; exact Or.inr rfl
  · rw [infSign_zero]; exact Or.inl rfl

theorem nn_mul {a b : Ext ℚ} (ha : Ext.Le (fin 0) a) (hb : Ext.Le (fin 0) b) : NotNegative (Ext.mul a b) := by
  rcases nonneg_cases ha with rfl | ⟨x, rfl, hx⟩ <;> rcases nonneg_cases hb with rfl | ⟨y, rfl, hy⟩
  · exact Or.inr rfl
  · exact infSign_nn hy
  · exact infSign_nn hx
  · exact Or.inr (le_fin'.mpr (mul_nonneg hx hy))

theorem nn_div {a b : Ext ℚ} (ha : Ext.Le (fin 0) a) (hb : Ext.Le (fin 0) b) : NotNegative (Ext.div a b) := by
  rcases nonneg_cases ha with rfl | ⟨x, rfl, hx⟩ <;> rcases nonneg_cases hb with rfl | ⟨y, rfl, hy⟩
  · exact Or.inl rfl
  · right
    show Ext.Le _ (if y < 0 then ninf else pinf)
    rw [if_neg (not_lt.mpr hy)]; rfl
  · exact Or.inr (le_fin'.mpr (le_refl _))
  · show NotNegative (if y = 0 then infSign x else fin (x / y))
    split
    · exact infSign_nn hx
    · exact Or.inr (le_fin'.mpr (div_nonneg hx hy))

/-- the ratio of a part to the whole -/
theorem ratio {a b : Ext ℚ} (h1 : Ext.Le (Ext.neg b) a) (h2 : Ext.Le a b) : Ext.div a b = nan ∨ (Ext.Le (fin (-1)) (Ext.div a b) ∧ Ext.Le (Ext.div a b) (fin 1)) := by
  cases b with
  | nan => exact absurd rfl (not_nan_of_le h2).2
  | ninf => exfalso; revert h1 h2; cases a <;> simp [Ext.Le, Ext.le, Ext.lt, Ext.eqv, Ext.neg]
  | pinf =>
    cases a with
    | fin x => exact Or.inr ⟨le_fin'.mpr (by norm_num), le_fin'.mpr (by norm_num)⟩
    | _ => exact Or.inl rfl
  | fin y =>
    cases a with
    | fin x =>
      have h1 := le_fin'.mp h1
      have h2 := le_fin'.mp h2
      have hy : 0 ≤ y := by linarith
      show (if y = 0 then infSign x else fin (x / y)) = nan ∨ (Ext.Le _ (if y = 0 then infSign x else fin (x / y)) ∧ Ext.Le (if y = 0 then infSign x else fin (x / y)) _)
      rcases hy.lt_or_eq with hy | rfl
      · rw [if_neg hy.ne']
        right
        constructor
        · rw [le_fin', le_div_iff₀ hy]; linarith
        · rw [le_fin', div_le_iff₀ hy]; linarith
      · have : x = 0 := by linarith
        subst this
        left; simp
    | nan => exact absurd rfl (not_nan_of_le h2).1
    | pinf => exact nomatch h2
    | ninf => exact nomatch h1

end Ext

variable {R : Rounding}

instance (R : Rounding) : DecidableEq (Flt R) := inferInstanceAs (DecidableEq (Ext ℚ))

namespace Rounding

theorem notNan (x : ℚ) : R.fl x ≠ .nan := (Ext.not_nan_of_le (R.mono x x le_rfl)).1

theorem round_mono {a b : Ext ℚ} (h : Ext.Le a b) : Ext.Le (R.round a) (R.round b) := by
  cases a with
  | fin x => cases b with
    | fin y => exact R.mono x y (Ext.le_fin'.mp h)
    | pinf => exact Ext.le_pinf (R.notNan x)
    | ninf => exact nomatch h
    | nan => exact nomatch h
  | pinf => cases b <;> first | rfl | exact nomatch h
  | ninf => cases b with
    | fin y => exact Ext.ninf_le (R.notNan y)
    | nan => exact nomatch h
    | _ => rfl
  | nan => cases b <;> exact nomatch h

theorem fl_nat {q : ℚ} (k : ℕ) (h : q = k) (hk : k ≤ 2 ^ 24) : R.fl q = .fin q := by rw [h]; exact R.nat k hk
theorem fl_negnat {q : ℚ} (k : ℕ) (h : -q = k) (hk : k ≤ 2 ^ 24) : R.fl q = .fin q := by
  have := R.neg (-q)
  rw [neg_neg, R.fl_nat k h hk] at this
  rw [this]; simp [Ext.neg]

@[simp] theorem fl_zero : R.fl 0 = .fin 0 := R.fl_nat 0 (by simp) (by norm_num)
@[simp] theorem fl_one : R.fl 1 = .fin 1 := R.fl_nat 1 (by simp) (by norm_num)
@[simp] theorem fl_hundred : R.fl 100 = .fin 100 := R.fl_nat 100 (by simp) (by norm_num)
@[simp] theorem fl_negone : R.fl (-1) = .fin (-1) := R.fl_negnat 1 (by simp) (by norm_num)
@[simp] theorem fl_neghundred : R.fl (-100) = .fin (-100) := R.fl_negnat 100 (by norm_num) (by norm_num)

theorem le_round {k : ℚ} (hk : R.fl k = .fin k) {a : Ext ℚ} (h : Ext.Le (.fin k) a) : Ext.Le (.fin k) (R.round a) := by
  have := R.round_mono h
  rw [show R.round (.fin k) = R.fl k from rfl, hk] at this
  exact this

theorem round_le {k : ℚ} (hk : R.fl k = .fin k) {a : Ext ℚ} (h : Ext.Le a (.fin k)) : Ext.Le (R.round a) (.fin k) := by
  have := R.round_mono h
  rw [show R.round (.fin k) = R.fl k from rfl, hk] at this
  exact this

theorem round_nn {v : Ext ℚ} (h : NotNegative v) : NotNegative (R.round v) := by
  rcases h with rfl | h
  · exact Or.inl rfl
  · exact Or.inr (R.le_round R.fl_zero h)

theorem round_within {lo hi : ℚ} (hlo : R.fl lo = .fin lo) (hhi : R.fl hi = .fin hi) {v : Ext ℚ} (h : Within lo hi v) :
    Within lo hi (R.round v) := by
  rcases h with rfl | ⟨x, rfl, h1, h2⟩
  · exact Or.inl rfl
  · exact Ext.within_of_le (R.le_round hlo (Ext.le_fin'.mpr h1)) (R.round_le hhi (Ext.le_fin'.mpr h2))

end Rounding

/-! ## operations keep values which are not negative -/

theorem nn_nan : NotNegative .nan := Or.inl rfl
theorem nn_lit {q : ℚ} (h : 0 ≤ q) : NotNegative (lit q : Flt R) := Or.inr (R.le_round (a := .fin q) R.fl_zero (Ext.le_fin'.mpr h))

section nn
variable {a b : Flt R}

theorem nn_add (ha : NotNegative a) (hb : NotNegative b) : NotNegative (a + b : Flt R) := by
  refine R.round_nn (v := Ext.add a b) ?_
  rcases ha with rfl | ha
  · left; cases b <;> rfl
  rcases hb with rfl | hb
  · left; cases a <;> rfl
  exact Or.inr (Ext.nn_add ha hb)

theorem nn_mul (ha : NotNegative a) (hb : NotNegative b) : NotNegative (a * b : Flt R) := by
  refine R.round_nn (v := Ext.mul a b) ?_
  rcases ha with rfl | ha
  · left; cases b <;> rfl
  rcases hb with rfl | hb
  · left; cases a <;> rfl
  exact Ext.nn_mul ha hb

theorem nn_div (ha : NotNegative a) (hb : NotNegative b) : NotNegative (a / b : Flt R) := by
  refine R.round_nn (v := Ext.div a b) ?_
  rcases ha with rfl | ha
  · left; cases b <;> rfl
  rcases hb with rfl | hb
  · left; cases a <;> rfl
  exact Ext.nn_div ha hb

theorem nn_absv (a : Flt R) : NotNegative (absv a : Flt R) := by
  cases a with
  | fin x => exact Or.inr (Ext.le_fin'.mpr (abs_nonneg x))
  | nan => exact Or.inl rfl
  | _ => exact Or.inr rfl

theorem nn_clipLo (a : Flt R) : NotNegative (clipLo a (lit 0) : Flt R) := by
  unfold clipLo
  split
  · rename_i h
    rw [Bool.or_eq_true] at h
    rcases h with h | h
    · have e : (lit 0 : Flt R) = Ext.fin 0 := R.fl_zero
      rw [e] at h
      exact Or.inr h
    · left
      cases a <;> first | rfl | exact nomatch h
  · exact nn_lit le_rfl

end nn

/-! ## bars of line operations -/

section bars
variable {α β γ : Type}

theorem mem_pyFrom {x : α} {s : List α} {i : ℤ} (h : x ∈ pyFrom s i) : x ∈ s := List.mem_of_mem_drop h
theorem mem_pySlice {x : α} {s : List α} {i j : ℤ} (h : x ∈ pySlice s i j) : x ∈ s := List.mem_of_mem_take (List.mem_of_mem_drop h)

theorem mem_setFrom {x fill : α} {n : ℕ} {i : ℤ} {r : List α} (h : x ∈ setFrom n fill i r) : x = fill ∨ x ∈ r := by
  unfold setFrom at h
  rcases List.mem_append.mp h with h | h
  · exact Or.inl (List.eq_of_mem_replicate h)
  · exact Or.inr h

theorem mem_zipWith' {f : α → β → γ} {xs : List α} {ys : List β} {v : γ} (h : v ∈ List.zipWith f xs ys) :
    ∃ x ∈ xs, ∃ y ∈ ys, v = f x y := by
  obtain ⟨i, hi, rfl⟩ := List.getElem_of_mem h
  rw [List.length_zipWith] at hi
  exact ⟨xs[i], List.getElem_mem _, ys[i], List.getElem_mem _, by rw [List.getElem_zipWith]⟩

theorem each_binop {P : α → Prop} {Q : β → Prop} {S : γ → Prop} {f : α → β → γ} {fill : γ} {a : Line α} {b : Line β}
    (hf : S fill) (h : ∀ x y, P x → Q y → S (f x y)) (ha : EachBar P a) (hb : EachBar Q b) : EachBar S (binop f fill a b) := by
  intro v hv
  rcases mem_setFrom (show v ∈ setFrom _ _ _ _ from hv) with rfl | hv
  · exact hf
  · obtain ⟨x, hx, y, hy, rfl⟩ := mem_zipWith' hv
    exact h x y (ha x (mem_pyFrom hx)) (hb y (mem_pyFrom hy))

theorem each_binopS {P : α → Prop} {S : γ → Prop} {f : α → β → γ} {fill : γ} {a : Line α} {c : β}
    (hf : S fill) (h : ∀ x, P x → S (f x c)) (ha : EachBar P a) : EachBar S (binopS f fill a c) := by
  intro v hv
  rcases mem_setFrom (show v ∈ setFrom _ _ _ _ from hv) with rfl | hv
  · exact hf
  · obtain ⟨x, hx, rfl⟩ := List.mem_map.mp hv
    exact h x (ha x (mem_pyFrom hx))

theorem each_mapOp {V : Type} [PyFloat V] {P S : V → Prop} {f : V → V} {a : Line V}
    (hf : S nan) (h : ∀ x, P x → S (f x)) (ha : EachBar P a) : EachBar S (mapOp f a) := by
  intro v hv
  rcases mem_setFrom (show v ∈ setFrom _ _ _ _ from hv) with rfl | hv
  · exact hf
  · obtain ⟨x, hx, rfl⟩ := List.mem_map.mp hv
    exact h x (ha x (mem_pyFrom hx))

theorem each_true {a : Line α} : EachBar (fun _ => True) a := fun _ _ => trivial

theorem each_rolling {V : Type} [PyFloat V] {S : V → Prop} {w : ℕ} {agg : List α → V} {a : Line α} (hw : 1 ≤ w)
    (hf : S nan) (h : ∀ win : List α, win.length = w → (∀ x ∈ win, x ∈ a.series) → S (agg win)) : EachBar S (rolling w agg a) := by
  intro v hv
  rcases mem_setFrom (show v ∈ setFrom _ _ _ _ from hv) with rfl | hv
  · exact hf
  · unfold rollL at hv
    obtain ⟨i, hi, rfl⟩ := List.mem_map.mp hv
    rw [List.mem_range] at hi
    split
    · exact hf
    · refine h _ ?_ fun x hx => mem_pyFrom (List.mem_of_mem_take (List.mem_of_mem_drop (show x ∈ List.drop _ (List.take _ _) from hx)))
      unfold window
      rw [List.length_drop, List.length_take]
      omega

end bars

/-! ## the exponential averages of values which are not negative -/

theorem nn_sumV {xs : List (Flt R)} (h : ∀ x ∈ xs, NotNegative x) : NotNegative (sumV xs : Flt R) := by
  unfold sumV
  have : ∀ (xs : List (Flt R)) (acc : Flt R), NotNegative acc → (∀ x ∈ xs, NotNegative x) → NotNegative (xs.foldl (· + ·) acc : Flt R) := by
    intro xs
    induction xs with
    | nil => intro acc h _; exact h
    | cons x xs ih =>
      intro acc h h'
      exact ih _ (nn_add h (h' x List.mem_cons_self)) fun y hy => h' y (List.mem_cons_of_mem _ hy)
  exact this xs _ (nn_lit le_rfl) h

theorem nn_meanSkipNa {xs : List (Flt R)} (h : ∀ x ∈ xs, NotNegative x) : NotNegative (meanSkipNa xs : Flt R) := by
  unfold meanSkipNa
  simp only
  split
  · exact nn_nan
  · exact nn_div (nn_sumV fun x hx => h x (List.mem_filter.mp hx).1) (nn_lit (by positivity))

theorem nn_ewmGo {alpha : Flt R} (h1 : NotNegative alpha) (h2 : NotNegative (lit 1 - alpha : Flt R)) (xs : List (Flt R)) :
    ∀ avg wt : Flt R, NotNegative avg → NotNegative wt → (∀ x ∈ xs, NotNegative x) → ∀ v ∈ ewmGo alpha avg wt xs, NotNegative v := by
  induction xs with
  | nil => intro avg wt _ _ _ v hv; exact nomatch hv
  | cons x xs ih =>
    intro avg wt ha hw hx v hv
    have hx0 := hx x List.mem_cons_self
    have hx1 : ∀ y ∈ xs, NotNegative y := fun y hy => hx y (List.mem_cons_of_mem _ hy)
    unfold ewmGo at hv
    have hw' := nn_mul hw h2
    split at hv
    · rcases List.mem_cons.mp hv with rfl | hv
      · exact hx0
      · exact ih _ _ hx0 hw hx1 v hv
    · simp only at hv
      split at hv
      · rcases List.mem_cons.mp hv with rfl | hv
        · exact ha
        · exact ih _ _ ha hw' hx1 v hv
      · have hn : NotNegative (if eqv avg x then avg else (wt * (lit 1 - alpha) * avg + alpha * x) / (wt * (lit 1 - alpha) + alpha) : Flt R) := by
          split
          · exact ha
          · exact nn_div (nn_add (nn_mul hw' ha) (nn_mul h1 hx0)) (nn_add hw' h1)
        rcases List.mem_cons.mp hv with rfl | hv
        · exact hn
        · exact ih _ _ hn (nn_lit (by norm_num)) hx1 v hv

theorem nn_prepL {xs : List (Flt R)} (h : ∀ x ∈ xs, NotNegative x) : ∀ x ∈ prepL xs, NotNegative x := by
  intro v hv
  obtain ⟨x, hx, rfl⟩ := List.mem_map.mp hv
  split
  · exact h x hx
  · exact nn_nan

theorem nn_ewmL {alpha : Flt R} (h1 : NotNegative alpha) (h2 : NotNegative (lit 1 - alpha : Flt R)) {xs : List (Flt R)} (h : ∀ x ∈ xs, NotNegative x) :
    ∀ v ∈ ewmL alpha xs, NotNegative v := by
  have h3 := nn_prepL h
  unfold ewmL
  cases hp : prepL xs with
  | nil => intro v hv; exact nomatch hv
  | cons x ys =>
    rw [hp] at h3
    intro v hv
    rcases List.mem_cons.mp hv with rfl | hv
    · exact h3 v List.mem_cons_self
    · exact nn_ewmGo h1 h2 ys _ _ (h3 x List.mem_cons_self) (nn_lit (by norm_num)) (fun y hy => h3 y (List.mem_cons_of_mem _ hy)) v hv

theorem nn_ewmPrefix {a : Line (Flt R)} {seed : Seed} {p1 pidx p2 : ℤ} {r : List (Flt R)} (ha : EachBar NotNegative a)
    (h : ewmPrefix a seed p1 pidx p2 = .ok r) : ∀ v ∈ r, NotNegative v := by
  have rep : ∀ {n : ℕ} {c v : Flt R}, NotNegative c → v ∈ List.replicate n c → NotNegative v := by
    intro n c v hc hv; rw [List.eq_of_mem_replicate hv]; exact hc
  have last : ∀ {n : ℕ} {c : Flt R} {r : List (Flt R)}, NotNegative c →
      (if (List.replicate n (nan : Flt R)).isEmpty then Except.error Err.indexError
        else .ok ((List.replicate n (nan : Flt R)).dropLast ++ [c])) = .ok r → ∀ v ∈ r, NotNegative v := by
    intro n c r hc h v hv
    split at h
    · exact nomatch h
    · injection h with h
      rw [← h] at hv
      rcases List.mem_append.mp hv with hv | hv
      · exact rep nn_nan (List.mem_of_mem_dropLast hv)
      · rw [List.mem_singleton.mp hv]; exact hc
  unfold ewmPrefix at h
  cases seed with
  | avg => exact last (nn_meanSkipNa fun x hx => ha x (mem_pySlice hx)) h
  | last =>
    simp only at h
    cases hg : pyGet a.series pidx with
    | none => rw [hg] at h; exact nomatch h
    | some v =>
      rw [hg] at h
      refine last (ha v ?_) h
      unfold pyGet at hg
      split at hg
      · exact List.mem_of_getElem? hg
      · split at hg
        · exact List.mem_of_getElem? hg
        · exact nomatch hg
  | sum => exact last (by unfold sumSkipNa; exact nn_sumV fun x hx => ha x (mem_pySlice (List.mem_filter.mp hx).1)) h
  | none =>
    injection h with h
    intro v hv; rw [← h] at hv; exact rep nn_nan hv
  | zero => exact last (nn_lit le_rfl) h
  | zfill =>
    injection h with h
    intro v hv; rw [← h] at hv; exact rep (nn_lit le_rfl) hv

theorem nn_ewmMean {c : EwmCfg} {alpha : Flt R} {a r : Line (Flt R)} (h1 : NotNegative alpha) (h2 : NotNegative (lit 1 - alpha : Flt R))
    (ha : EachBar NotNegative a) (h : ewmMean c alpha a = .ok r) : EachBar NotNegative r := by
  unfold ewmMean at h
  cases hn : ewmNew c a with
  | error e => rw [hn] at h; exact nomatch h
  | ok o =>
    rw [hn] at h
    have ht : ∀ x ∈ o.trailer, NotNegative x := by
      unfold ewmNew at hn
      simp only at hn
      cases hp : ewmPrefix a c.seed (c.p2 a.minperiod - c.pval) (c.p2 a.minperiod - 1) (c.p2 a.minperiod) with
      | error e => rw [hp] at hn; exact nomatch hn
      | ok q =>
        rw [hp] at hn
        injection hn with hn
        intro x hx
        rw [← hn] at hx
        rcases List.mem_append.mp hx with hx | hx
        · exact nn_ewmPrefix ha hp x hx
        · exact ha x (mem_pyFrom hx)
    unfold ewmCall at h
    simp only at h
    split at h
    · injection h with h
      intro v hv
      rw [← h] at hv
      rcases mem_setFrom (show v ∈ setFrom _ _ _ _ from hv) with rfl | hv
      · exact nn_nan
      · exact nn_ewmL h1 h2 ht v hv
    · exact nomatch h

/-- the weight of the smoothed averages is from 0 to 1 -/
theorem alphaOfCom_nn {com : Flt R} (h : Ext.Le (.fin 0) com) :
    NotNegative (alphaOfCom com : Flt R) ∧ NotNegative (lit 1 - alphaOfCom com : Flt R) := by
  have e1 : (lit 1 : Flt R) = Ext.fin 1 := R.fl_one
  have h1 : Ext.Le (.fin 1) (lit 1 + com : Flt R) := by
    rw [e1]
    refine R.le_round (a := Ext.add (.fin 1) com) R.fl_one ?_
    rcases Ext.nonneg_cases h with rfl | ⟨x, rfl, hx⟩
    · rfl
    · exact Ext.le_fin'.mpr (by linarith)
  have h2 : Within 0 1 (alphaOfCom com : Flt R) := by
    unfold alphaOfCom
    refine R.round_within R.fl_zero R.fl_one (v := Ext.div (lit 1 : Flt R) (lit 1 + com : Flt R)) ?_
    have h0 : Ext.Le (.fin 0) (lit 1 + com : Flt R) := Ext.Le.trans (b := .fin 1) (Ext.le_fin'.mpr (by norm_num)) h1
    generalize (lit 1 + com : Flt R) = w at h0 h1
    rw [e1]
    rcases Ext.nonneg_cases h0 with h' | ⟨y, h', hy⟩
    · rw [h']; exact Or.inr ⟨0, rfl, le_rfl, by norm_num⟩
    · rw [h'] at h1 ⊢
      have := Ext.le_fin'.mp h1
      refine Or.inr ⟨1 / y, ?_, by positivity, ?_⟩
      · show (if y = 0 then Ext.infSign 1 else Ext.fin (1 / y)) = _
        rw [if_neg (by linarith)]
      · rw [div_le_one (by linarith)]; exact this
  refine ⟨h2.imp id fun ⟨x, e, h, _⟩ => by rw [e]; exact Ext.le_fin'.mpr h, ?_⟩
  refine R.round_nn (v := Ext.add (lit 1 : Flt R) (Ext.neg (alphaOfCom com : Flt R))) ?_
  rw [e1]
  rcases h2 with h | ⟨x, e, h3, h4⟩
  · rw [h]; exact Or.inl rfl
  · rw [e]; exact Or.inr (Ext.le_fin'.mpr (by linarith))

end Bta
