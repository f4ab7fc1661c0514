import Verif.Holder
import Mathlib.Tactic.SplitIfs
import Mathlib.Algebra.Order.Ring.Rat

/-!
# Editing a line in place (`_period`, `_setval`) and the minimum period of an indicator instance

C82: what the two methods with which an indicator edits a freshly calculated line do to each bar; C83: the minimum period
of the instance.
-/

set_option linter.unusedSectionVars false
set_option linter.unusedVariables false

namespace Bta

open Line PyFloat

variable {α : Type}

theorem pyFill_length (s : List α) (i j : Int) (v : α) : (pyFill s i j v).length = s.length := by
  have h1 : pyStart s.length i ≤ s.length := by unfold pyStart; split <;> omega
  have h2 : pyStart s.length j ≤ s.length := by unfold pyStart; split <;> omega
  unfold pyFill
  simp only [List.length_append, List.length_take, List.length_replicate, List.length_drop]
  omega

theorem pyFill_get (s : List α) (i j : Int) (v : α) (k : ℕ) (hk : k < s.length) :
    (pyFill s i j v)[k]? = if pyStart s.length i ≤ k ∧ k < pyStart s.length j then some v else s[k]? := by
  have h1 : pyStart s.length i ≤ s.length := by unfold pyStart; split <;> omega
  have h2 : pyStart s.length j ≤ s.length := by unfold pyStart; split <;> omega
  unfold pyFill
  simp only []
  generalize pyStart s.length i = a at h1 ⊢
  generalize pyStart s.length j = b at h2 ⊢
  by_cases c1 : k < a
  · rw [if_neg (by omega), List.append_assoc, List.getElem?_append_left (by simp; omega), List.getElem?_take_of_lt c1]
  · by_cases c2 : k < b
    · rw [if_pos ⟨by omega, c2⟩, List.getElem?_append_left (by simp; omega), List.getElem?_append_right (by simp; omega),
        List.getElem?_replicate]
      simp only [List.length_take]
      rw [if_pos (by omega)]
    · rw [if_neg (by omega), List.getElem?_append_right (by simp; omega), List.getElem?_drop]
      congr 1
      simp only [List.length_append, List.length_take, List.length_replicate]
      omega

/-- `s[i:j]` for `0 ≤ i`, `0 ≤ j`: bar `k` belongs to the slice iff `i ≤ k < j`. -/
theorem pyFill_get_nonneg (s : List α) {i j : Int} (hi : 0 ≤ i) (hj : 0 ≤ j) (v : α) (k : ℕ) (hk : k < s.length) :
    (pyFill s i j v)[k]? = if i ≤ k ∧ (k : Int) < j then some v else s[k]? := by
  rw [pyFill_get s i j v k hk]
  unfold pyStart
  rw [if_pos hi, if_pos hj]
  refine if_congr ?_ rfl rfl
  omega

/-- **C82** (`_period`, growth) With a positive increment the first `inc` bars which had a value are overwritten with `val`
(if one is given); each other bar keeps its value; the minimum period grows by the increment. -/
theorem C82_period_grow (a : Line α) (ha : 1 ≤ a.minperiod) (inc : Int) (hinc : 0 < inc) (val : Option α) :
    (period inc val a).minperiod = a.minperiod + inc ∧ (period inc val a).series.length = a.series.length ∧
    ∀ k < a.series.length, (period inc val a).series[k]? =
      if val.isSome ∧ a.minperiod ≤ (k : Int) + 1 ∧ (k : Int) + 1 < a.minperiod + inc then val else a.series[k]? := by
  unfold period
  rw [if_neg (by omega)]
  cases val with
  | none => exact ⟨rfl, rfl, fun k hk => by simp⟩
  | some v =>
    simp only []
    rw [if_neg (by omega)]
    refine ⟨trivial, pyFill_length _ _ _ _, fun k hk => ?_⟩
    rw [pyFill_get_nonneg _ (by omega) (by omega) _ _ hk]
    refine if_congr ?_ rfl rfl
    simp only [Option.isSome_some, true_and]
    omega

/-- **C82** (`_period`, shrinking) With a negative increment the `-inc` bars before the first value are overwritten with `val`
and from then on count as values. -/
theorem C82_period_shrink (a : Line α) (inc : Int) (hinc : inc < 0) (ha : 1 ≤ a.minperiod + inc) (val : Option α) :
    (period inc val a).minperiod = a.minperiod + inc ∧ (period inc val a).series.length = a.series.length ∧
    ∀ k < a.series.length, (period inc val a).series[k]? =
      if val.isSome ∧ a.minperiod + inc ≤ (k : Int) + 1 ∧ (k : Int) + 1 < a.minperiod then val else a.series[k]? := by
  unfold period
  rw [if_neg (by omega)]
  cases val with
  | none => exact ⟨rfl, rfl, fun k hk => by simp⟩
  | some v =>
    simp only []
    rw [if_pos (by omega)]
    refine ⟨trivial, pyFill_length _ _ _ _, fun k hk => ?_⟩
    rw [pyFill_get_nonneg _ (by omega) (by omega) _ _ hk]
    refine if_congr ?_ rfl rfl
    simp only [Option.isSome_some, true_and]
    omega

/-- **C82** (`_period`, no increment) `_period(0, val=v)` and `_period(1, rolling=True, val=v)` do nothing at all, although
the code after the test is prepared for setting a value without an increment ("maybe no period inc only setval"). -/
theorem C82_period_zero (a : Line α) (val : Option α) : period 0 val a = a := by unfold period; rw [if_pos rfl]

/-- **C82** (`_setval`, a number of bars) `_setval(i0, cnt, v)` overwrites the `cnt` bars from the `i0`-th one with a value
(counted from 0) onwards — one bar for `cnt = 0` —, leaves the other bars and the minimum period as they are. -/
theorem C82_setval (a : Line α) (ha : 1 ≤ a.minperiod) (i0 cnt : ℕ) (hne : ¬ (i0 = 0 ∧ cnt = 0)) (v : α) :
    (setval i0 cnt v a).minperiod = a.minperiod ∧ (setval i0 cnt v a).series.length = a.series.length ∧
    ∀ k < a.series.length, (setval i0 cnt v a).series[k]? =
      if a.minperiod + i0 ≤ (k : Int) + 1 ∧ (k : Int) + 1 < a.minperiod + i0 + max cnt 1 then some v else a.series[k]? := by
  unfold setval
  rw [if_neg (by omega)]
  simp only []
  rw [if_pos (by omega : (0 : Int) ≤ cnt)]
  have hj : a.minperiod - 1 + (i0 : Int) + (if (cnt : Int) = 0 then 1 else (cnt : Int)) = a.minperiod - 1 + i0 + max cnt 1 := by
    split <;> omega
  rw [hj]
  refine ⟨trivial, pyFill_length _ _ _ _, fun k hk => ?_⟩
  rw [pyFill_get_nonneg _ (by omega) (by omega) _ _ hk]
  refine if_congr ?_ rfl rfl
  omega

/-- **C82** (`_setval`, up to a bar counted from the end) `_setval(i0, -e, v)` overwrites from the `i0`-th bar with a value
up to and without the last `e` bars. -/
theorem C82_setval_end (a : Line α) (ha : 1 ≤ a.minperiod) (i0 e : ℕ) (he : 1 ≤ e) (v : α) :
    (setval i0 (-(e : Int)) v a).minperiod = a.minperiod ∧ (setval i0 (-(e : Int)) v a).series.length = a.series.length ∧
    ∀ k < a.series.length, (setval i0 (-(e : Int)) v a).series[k]? =
      if a.minperiod + i0 ≤ (k : Int) + 1 ∧ k + e < a.series.length then some v else a.series[k]? := by
  unfold setval
  rw [if_neg (by omega)]
  simp only []
  rw [if_neg (by omega : ¬ (0 : Int) ≤ -(e : Int))]
  refine ⟨trivial, pyFill_length _ _ _ _, fun k hk => ?_⟩
  rw [pyFill_get _ _ _ _ _ hk]
  refine if_congr ?_ rfl rfl
  unfold pyStart
  rw [if_pos (by omega), if_neg (by omega)]
  omega

/-- **C82** (negation) Called without positions `_setval(val=v)`, meant to fill the line from the first value onwards, never
changes anything: the slice it assigns to ends at bar 0. -/
theorem C82_setval_default (a : Line α) (v : α) : setval 0 0 v a = a := by
  obtain ⟨s, m⟩ := a
  unfold setval
  rw [if_pos ⟨rfl, rfl⟩]
  have : pyFill s (m - 1) 0 v = s := by
    unfold pyFill
    have h0 : pyStart s.length 0 = 0 := by unfold pyStart; simp
    rw [h0]
    simp
  simp only [this]

/-- C82, a case: three bars with a value from bar 1 on -/
example : setval 1 0 (9 : ℕ) ⟨[0, 1, 2, 3], 2⟩ = ⟨[0, 1, 9, 3], 2⟩ ∧ setval 0 2 (9 : ℕ) ⟨[0, 1, 2, 3], 2⟩ = ⟨[0, 9, 9, 3], 2⟩ ∧
    setval 1 (-1) (9 : ℕ) ⟨[0, 1, 2, 3], 2⟩ = ⟨[0, 1, 9, 3], 2⟩ ∧ period 2 (some 9) (⟨[0, 1, 2, 3], 2⟩ : Line ℕ) = ⟨[0, 9, 9, 3], 4⟩ ∧
    period (-1) (some 9) (⟨[0, 1, 2, 3], 2⟩ : Line ℕ) = ⟨[9, 1, 2, 3], 1⟩ := by decide +kernel

/-! ## C83: the minimum period of the instance -/

theorem foldl_max_spec (rest : List (Line α)) (m0 : Int) :
    m0 ≤ rest.foldl (fun m l => max m l.minperiod) m0 ∧ (∀ l ∈ rest, l.minperiod ≤ rest.foldl (fun m l => max m l.minperiod) m0) ∧
    (rest.foldl (fun m l => max m l.minperiod) m0 = m0 ∨ ∃ l ∈ rest, l.minperiod = rest.foldl (fun m l => max m l.minperiod) m0) := by
  induction rest generalizing m0 with
  | nil => simp
  | cons x xs ih =>
    obtain ⟨h1, h2, h3⟩ := ih (max m0 x.minperiod)
    simp only [List.foldl_cons, List.mem_cons, forall_eq_or_imp, exists_eq_or_imp]
    refine ⟨le_trans (le_max_left _ _) h1, ⟨le_trans (le_max_right _ _) h1, h2⟩, ?_⟩
    rcases h3 with h | h
    · rw [h]
      rcases le_total m0 x.minperiod with c | c
      · right; left; omega
      · left; omega
    · right; right; exact h

/-- **C83** The minimum period of an indicator instance is that of its slowest output: no output needs more bars, and
some output needs exactly as many. -/
theorem C83_instance (first : Line α) (rest : List (Line α)) :
    (∀ l ∈ first :: rest, l.minperiod ≤ (Holder.ofOutputs first rest).minperiod) ∧
    ∃ l ∈ first :: rest, l.minperiod = (Holder.ofOutputs first rest).minperiod := by
  obtain ⟨h1, h2, h3⟩ := foldl_max_spec rest first.minperiod
  simp only [List.mem_cons, forall_eq_or_imp, exists_eq_or_imp]
  refine ⟨⟨h1, h2⟩, ?_⟩
  rcases h3 with h | h
  · exact .inl h.symm
  · exact .inr h

/-- **C83** Hence in each bar counted by the instance (`i + 1 ≥ minperiod`) each output is beyond its own warm-up, and one bar
earlier some output is not. -/
theorem C83_all_ready (first : Line α) (rest : List (Line α)) (i : Int) :
    (Holder.ofOutputs first rest).minperiod ≤ i + 1 ↔ ∀ l ∈ first :: rest, l.minperiod ≤ i + 1 := by
  obtain ⟨h1, l, hl, h2⟩ := C83_instance first rest
  exact ⟨fun h l hl => le_trans (h1 l hl) h, fun h => h2 ▸ h l hl⟩

/-- C83, a case: `macd` scaled down -/
example : (Holder.ofOutputs (⟨[], 26⟩ : Line ℕ) [⟨[], 34⟩, ⟨[], 34⟩]).minperiod = 34 := by decide +kernel

end Bta
