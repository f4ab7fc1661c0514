import Verif.Spec.Formula
import Verif.Lemmas.Calc
import Mathlib.Algebra.Order.Ring.Rat
import Mathlib.Tactic.IntervalCases

/-!
# Missing data (C87)

A missing value (NaN) in the data is neither hidden nor spread: the result of a formula is missing where, and without
divisions only where, a value read for it is missing.
-/

set_option linter.unusedSectionVars false
set_option linter.unusedVariables false

namespace Bta

open Line PyFloat

variable {K : Type} [Field K] [LinearOrder K] [IsStrictOrderedRing K]

/-- the value of a formula at one bar, given the values of the inputs -/
def Formula.den (v : ℕ → ℕ → Ext K) : Formula K → ℕ → Ext K
  | .input k, i => v k i
  | .op o a b, i => o.fn (a.den v i) (b.den v i)
  | .opS o a c, i => o.fn (a.den v i) (.fin c)
  | .rop o c a, i => o.fn (.fin c) (a.den v i)
  | .abs a, i => absv (a.den v i)
  | .clipLo a c, i => Bta.clipLo (a.den v i) (.fin c)
  | .clipHi a c, i => Bta.clipHi (a.den v i) (.fin c)
  | .clipLoL a b, i => Bta.clipLo (a.den v i) (b.den v i)
  | .clipHiL a b, i => Bta.clipHi (a.den v i) (b.den v i)
  | .shift s a, i => a.den v (i - s)
  | .diff s a, i => a.den v i - a.den v (i - s)
  | .rolling w fn a, i => fn.fn (wnd (a.den v) (w + 1) i)

/-- the minimum period of a formula -/
def Formula.per (m : ℕ → ℕ) : Formula K → ℕ
  | .input k => m k
  | .op _ a b | .clipLoL a b | .clipHiL a b => max (a.per m) (b.per m)
  | .opS _ a _ | .rop _ _ a | .abs a | .clipLo a _ | .clipHi a _ => a.per m
  | .shift s a | .diff s a => a.per m + s
  | .rolling w _ a => a.per m + (w + 1) - 1

theorem Formula.rep {env : ℕ → Line (Ext K)} {n : ℕ} {m : ℕ → ℕ} {v : ℕ → ℕ → Ext K}
    (h : ∀ k, RepW (env k) n (m k) (v k)) (f : Formula K) : RepW (f.eval env) n (f.per m) (f.den v) := by
  induction f with
  | input k => exact h k
  | op o a b iha ihb => cases o <;> exact (rep_binop iha ihb).toRepW
  | opS o a c ih => cases o <;> exact (rep_binopS ih).toRepW
  | rop o c a ih => cases o <;> exact (rep_binopS ih).toRepW
  | abs a ih => exact (rep_mapOp ih).toRepW
  | clipLo a c ih => exact (rep_clipLoS ih _).toRepW
  | clipHi a c ih => exact (rep_clipHiS ih _).toRepW
  | clipLoL a b iha ihb => exact (rep_clipLoL iha ihb).toRepW
  | clipHiL a b iha ihb => exact (rep_clipHiL iha ihb).toRepW
  | shift s a ih => exact (rep_shift ih).toRepW
  | diff s a ih => exact (rep_diff ih).toRepW
  | rolling w fn a ih => exact (rep_rolling (by omega) ih).toRepW

theorem Arith.nan_left (o : Arith) (x : Ext K) : o.fn .nan x = .nan := by cases o <;> simp [Arith.fn]
theorem Arith.nan_right (o : Arith) (x : Ext K) : o.fn x .nan = .nan := by cases o <;> simp [Arith.fn]

theorem clipLo_nan_left (x : Ext K) : clipLo (Ext.nan : Ext K) x = .nan := by
  unfold clipLo; rw [Ext.isNaN_nan, Bool.or_true, if_pos rfl]
theorem clipHi_nan_left (x : Ext K) : clipHi (Ext.nan : Ext K) x = .nan := by
  unfold clipHi; rw [Ext.isNaN_nan, Bool.or_true, if_pos rfl]
theorem clipLo_nan_right (x : Ext K) : clipLo x (Ext.nan : Ext K) = .nan := by
  unfold clipLo
  cases x <;> rfl
theorem clipHi_nan_right (x : Ext K) : clipHi x (Ext.nan : Ext K) = .nan := by
  unfold clipHi
  cases x <;> rfl

theorem WinFn.nan_mem (fn : WinFn) {l : List (Ext K)} (h : Ext.nan ∈ l) : fn.fn l = .nan := by
  have : ¬ (l.all isFin = true) := by
    intro hc
    rw [List.all_eq_true] at hc
    simpa using hc _ h
  cases fn <;> simp only [WinFn.fn, aggSum, aggMean, aggMax, aggMin, whenAllFin, if_neg this] <;> rfl

theorem Formula.den_nan {v : ℕ → ℕ → Ext K} {k j : ℕ} (hv : v k j = .nan) (f : Formula K) :
    ∀ i, f.Reads i k j → f.den v i = .nan := by
  induction f with
  | input k' => rintro i ⟨rfl, rfl⟩; exact hv
  | op o a b iha ihb =>
    rintro i (h | h)
    · simp only [Formula.den, iha i h, Arith.nan_left]
    · simp only [Formula.den, ihb i h, Arith.nan_right]
  | opS o a c ih => intro i h; simp only [Formula.den, ih i h, Arith.nan_left]
  | rop o c a ih => intro i h; simp only [Formula.den, ih i h, Arith.nan_right]
  | abs a ih => intro i h; simp only [Formula.den, ih i h]; rfl
  | clipLo a c ih => intro i h; simp only [Formula.den, ih i h, clipLo_nan_left]
  | clipHi a c ih => intro i h; simp only [Formula.den, ih i h, clipHi_nan_left]
  | clipLoL a b iha ihb =>
    rintro i (h | h)
    · simp only [Formula.den, iha i h, clipLo_nan_left]
    · simp only [Formula.den, ihb i h, clipLo_nan_right]
  | clipHiL a b iha ihb =>
    rintro i (h | h)
    · simp only [Formula.den, iha i h, clipHi_nan_left]
    · simp only [Formula.den, ihb i h, clipHi_nan_right]
  | shift s a ih => rintro i ⟨_, h⟩; exact ih _ h
  | diff s a ih =>
    rintro i (h | ⟨_, h⟩)
    · simp only [Formula.den, ih i h, Ext.nan_sub]
    · simp only [Formula.den, ih _ h, Ext.sub_nan]
  | rolling w fn a ih =>
    rintro i ⟨d, hd, hi, h⟩
    refine WinFn.nan_mem fn ?_
    rw [← ih _ h]
    by_cases hw : w ≤ i
    · refine List.mem_map.mpr ⟨w - d, List.mem_range.mpr (by omega), ?_⟩
      exact congrArg _ (by omega)
    · refine List.mem_map.mpr ⟨i - d, List.mem_range.mpr (by omega), ?_⟩
      exact congrArg _ (by omega)

/-- **C87** (nothing is hidden) Whatever the formula and the data: where the result is delivered, it is missing at each bar
for which a missing value is read. -/
theorem C87_missing_stays_missing (f : Formula K) (env : ℕ → Line (Ext K)) (n : ℕ)
    (hn : ∀ k, (env k).series.length = n) (hm : ∀ k, 1 ≤ (env k).minperiod)
    {i k j : ℕ} (hi : i < n) (hd : (f.eval env).minperiod ≤ (i : Int) + 1)
    (hr : f.Reads i k j) (hj : (env k).series[j]? = some .nan) :
    (f.eval env).series[i]? = some .nan := by
  have hrep : ∀ k, RepW (env k) n ((env k).minperiod.toNat) (fun i => (env k).series.getD i .nan) := fun k =>
    { len := hn k
      mp := by have := hm k; omega
      pos := by have := hm k; omega
      val := fun i _ h => by
        rw [List.getD_eq_getElem?_getD]
        have : i < (env k).series.length := by rw [hn k]; exact h
        rw [List.getElem?_eq_getElem this]; rfl }
  have H := f.rep hrep
  have hmp := H.mp
  rw [H.val i (by omega) hi]
  congr 1
  exact Formula.den_nan (by simp only [List.getD_eq_getElem?_getD, hj]; rfl) f i hr

/-! ### nothing is spread -/

/-- the value is a finite number -/
def IsNum (x : Ext K) : Prop := ∃ r, x = .fin r

theorem sumV_num {l : List (Ext K)} (h : ∀ x ∈ l, IsNum x) : IsNum (sumV l) := by
  unfold sumV
  have : ∀ (l : List (Ext K)) (acc : Ext K), IsNum acc → (∀ x ∈ l, IsNum x) → IsNum (l.foldl (· + ·) acc) := by
    intro l
    induction l with
    | nil => intro acc ha _; exact ha
    | cons x xs ih =>
      intro acc ⟨r, hr⟩ hx
      obtain ⟨s, hs⟩ := hx x (by simp)
      exact ih _ ⟨r + s, by rw [hr, hs]; rfl⟩ (fun y hy => hx y (by simp [hy]))
  exact this l _ ⟨_, rfl⟩ h

theorem foldl_pick {p : Ext K → Ext K → Ext K} (hp : ∀ a b, p a b = a ∨ p a b = b) :
    ∀ (l : List (Ext K)) (acc : Ext K), IsNum acc → (∀ x ∈ l, IsNum x) → IsNum (l.foldl p acc) := by
  intro l
  induction l with
  | nil => intro acc ha _; exact ha
  | cons x xs ih =>
    intro acc ha hx
    refine ih _ ?_ (fun y hy => hx y (by simp [hy]))
    rcases hp acc x with h | h <;> rw [h]
    · exact ha
    · exact hx x (by simp)

theorem WinFn.num (fn : WinFn) {l : List (Ext K)} (hl : l ≠ []) (h : ∀ x ∈ l, IsNum x) : IsNum (fn.fn l) := by
  have hall : l.all isFin = true := by
    rw [List.all_eq_true]
    intro x hx
    obtain ⟨r, rfl⟩ := h x hx
    rfl
  have hlen : ((l.length : ℚ)) ≠ 0 := by
    have := List.length_pos_iff.mpr hl
    exact_mod_cast this.ne'
  cases fn with
  | sum => simp only [WinFn.fn, aggSum, whenAllFin, if_pos hall]; exact sumV_num h
  | mean =>
    simp only [WinFn.fn, aggMean, whenAllFin, if_pos hall]
    obtain ⟨r, hr⟩ := sumV_num h
    rw [hr]
    exact ⟨_, Ext.fin_div_lit r hlen⟩
  | max =>
    simp only [WinFn.fn, aggMax, whenAllFin, if_pos hall]
    match l, hl with
    | x :: xs, _ =>
      refine foldl_pick (fun a b => ?_) xs x (h x (by simp)) (fun y hy => h y (by simp [hy]))
      unfold maxV; split <;> simp
  | min =>
    simp only [WinFn.fn, aggMin, whenAllFin, if_pos hall]
    match l, hl with
    | x :: xs, _ =>
      refine foldl_pick (fun a b => ?_) xs x (h x (by simp)) (fun y hy => h y (by simp [hy]))
      unfold minV; split <;> simp

theorem Arith.num {o : Arith} (ho : o ≠ .div) {x y : Ext K} (hx : IsNum x) (hy : IsNum y) : IsNum (o.fn x y) := by
  obtain ⟨a, rfl⟩ := hx
  obtain ⟨b, rfl⟩ := hy
  cases o with
  | add => exact ⟨a + b, rfl⟩
  | sub => exact ⟨a - b, Ext.fin_sub a b⟩
  | mul => exact ⟨a * b, rfl⟩
  | div => exact absurd rfl ho

theorem Formula.den_num {n : ℕ} {m : ℕ → ℕ} {v : ℕ → ℕ → Ext K} (hm : ∀ k, 1 ≤ m k) (f : Formula K) (hf : f.NoDiv) :
    ∀ i, f.per m ≤ i + 1 → (∀ k j, f.Reads i k j → IsNum (v k j)) → IsNum (f.den v i) := by
  have hpos : ∀ f : Formula K, 1 ≤ f.per m := by
    intro f
    induction f with
    | input k => exact hm k
    | op _ a b iha ihb | clipLoL a b iha ihb | clipHiL a b iha ihb => exact le_trans iha (le_max_left _ _)
    | opS _ a _ ih | rop _ _ a ih | abs a ih | clipLo a _ ih | clipHi a _ ih => exact ih
    | shift s a ih | diff s a ih => exact le_trans ih (Nat.le_add_right _ _)
    | rolling w _ a ih => simp only [Formula.per]; omega
  induction f with
  | input k => intro i _ h; exact h k i ⟨rfl, rfl⟩
  | op o a b iha ihb =>
    intro i hi h
    simp only [Formula.per] at hi
    exact Arith.num hf.1 (iha hf.2.1 i (by omega) (fun k j hr => h k j (.inl hr)))
      (ihb hf.2.2 i (by omega) (fun k j hr => h k j (.inr hr)))
  | opS o a c ih => intro i hi h; exact Arith.num hf.1 (ih hf.2 i hi h) ⟨c, rfl⟩
  | rop o c a ih => intro i hi h; exact Arith.num hf.1 ⟨c, rfl⟩ (ih hf.2 i hi h)
  | abs a ih =>
    intro i hi h
    obtain ⟨r, hr⟩ := ih hf i hi h
    exact ⟨|r|, by simp only [Formula.den, hr]; rfl⟩
  | clipLo a c ih =>
    intro i hi h
    obtain ⟨r, hr⟩ := ih hf i hi h
    exact ⟨_, by simp only [Formula.den, hr]; exact clipLo_fin _ _⟩
  | clipHi a c ih =>
    intro i hi h
    obtain ⟨r, hr⟩ := ih hf i hi h
    exact ⟨_, by simp only [Formula.den, hr]; exact clipHi_fin _ _⟩
  | clipLoL a b iha ihb =>
    intro i hi h
    simp only [Formula.per] at hi
    obtain ⟨r, hr⟩ := iha hf.1 i (by omega) (fun k j hr => h k j (.inl hr))
    obtain ⟨s, hs⟩ := ihb hf.2 i (by omega) (fun k j hr => h k j (.inr hr))
    exact ⟨_, by simp only [Formula.den, hr, hs]; exact clipLo_fin _ _⟩
  | clipHiL a b iha ihb =>
    intro i hi h
    simp only [Formula.per] at hi
    obtain ⟨r, hr⟩ := iha hf.1 i (by omega) (fun k j hr => h k j (.inl hr))
    obtain ⟨s, hs⟩ := ihb hf.2 i (by omega) (fun k j hr => h k j (.inr hr))
    exact ⟨_, by simp only [Formula.den, hr, hs]; exact clipHi_fin _ _⟩
  | shift s a ih =>
    intro i hi h
    simp only [Formula.per] at hi
    have := hpos a
    exact ih hf (i - s) (by omega) (fun k j hr => h k j ⟨by omega, hr⟩)
  | diff s a ih =>
    intro i hi h
    simp only [Formula.per] at hi
    have := hpos a
    obtain ⟨r, hr⟩ := ih hf i (by omega) (fun k j hr => h k j (.inl hr))
    obtain ⟨t, ht⟩ := ih hf (i - s) (by omega) (fun k j hr => h k j (.inr ⟨by omega, hr⟩))
    exact ⟨r - t, by simp only [Formula.den, hr, ht, Ext.fin_sub]⟩
  | rolling w fn a ih =>
    intro i hi h
    simp only [Formula.per] at hi
    have := hpos a
    refine WinFn.num fn (by simp [wnd]) ?_
    intro x hx
    obtain ⟨q, hq, rfl⟩ := List.mem_map.mp hx
    have hq := List.mem_range.mp hq
    refine ih hf _ (by omega) (fun k j hr => h k j ⟨w - q, by omega, by omega, ?_⟩)
    rwa [show i - (w - q) = i + 1 - (w + 1) + q from by omega]

/-- **C87** (nothing is spread) Without divisions the result is a number at each delivered bar for which only numbers are
read, whatever is missing at other bars. -/
theorem C87_nothing_spread (f : Formula K) (hf : f.NoDiv) (env : ℕ → Line (Ext K)) (n : ℕ)
    (hn : ∀ k, (env k).series.length = n) (hm : ∀ k, 1 ≤ (env k).minperiod)
    {i : ℕ} (hi : i < n) (hd : (f.eval env).minperiod ≤ (i : Int) + 1)
    (hr : ∀ k j, f.Reads i k j → ∃ r, (env k).series[j]? = some (.fin r)) :
    ∃ r, (f.eval env).series[i]? = some (.fin r) := by
  have hrep : ∀ k, RepW (env k) n ((env k).minperiod.toNat) (fun i => (env k).series.getD i .nan) := fun k =>
    { len := hn k
      mp := by have := hm k; omega
      pos := by have := hm k; omega
      val := fun i _ h => by
        rw [List.getD_eq_getElem?_getD]
        have : i < (env k).series.length := by rw [hn k]; exact h
        rw [List.getElem?_eq_getElem this]; rfl }
  have H := f.rep hrep
  have hmp := H.mp
  obtain ⟨r, h⟩ := Formula.den_num (n := n) (m := fun k => (env k).minperiod.toNat)
    (v := fun k i => (env k).series.getD i .nan) (fun k => by have := hm k; omega) f hf i (by omega)
    (fun k j h => by
      obtain ⟨r, e⟩ := hr k j h
      exact ⟨r, by simp only [List.getD_eq_getElem?_getD, e]; rfl⟩)
  exact ⟨r, by rw [H.val i (by omega) hi, h]⟩

/-! ### a concrete case: five bars with one missing, momentum clipped at 0 and averaged over two bars -/

/-- the data of the example: bar 1 is missing -/
def missEx : ℕ → Line (Ext ℚ) := fun _ => ⟨[.fin 1, .nan, .fin 4, .fin 9, .fin 7, .fin 8], 1⟩
/-- `x.diff(periods=1).clip(lower=0).rolling(window=2).mean()` -/
def missF : Formula ℚ := .rolling 1 .mean (.clipLo (.diff 1 (.input 0)) 0)

/-- the hypotheses of `C87_missing_stays_missing` hold for bar 3, which reads the missing bar 1 -/
example : (missF.eval missEx).minperiod ≤ (3 : Int) + 1 ∧ (missEx 0).series[1]? = some .nan ∧ missF.Reads 3 0 1 :=
  ⟨by decide +kernel, rfl, 1, by decide, by decide, .inr ⟨by decide, rfl, rfl⟩⟩

/-- what is delivered: missing up to bar 3, numbers from bar 4 on -/
example : (missF.eval missEx).series = [.nan, .nan, .nan, .nan, .fin (5/2), .fin (1/2)] := by decide +kernel

/-- the hypotheses of `C87_nothing_spread` hold for bar 4 -/
example : ∃ r, (missF.eval missEx).series[4]? = some (.fin r) := by
  refine C87_nothing_spread missF trivial missEx 6 (fun _ => rfl) (fun _ => le_refl _) (by decide) (by decide +kernel) ?_
  rintro k j ⟨d, h1, h2, ⟨rfl, rfl⟩ | ⟨h3, rfl, rfl⟩⟩
  · interval_cases d <;> exact ⟨_, rfl⟩
  · interval_cases d <;> exact ⟨_, rfl⟩

end Bta
