import Verif.Props.LineMore

/-!
# Bars by label (C110)

The index of a line is a list of labels, one for each bar.
-/

namespace Bta
open Line

variable {α : Type}

/-- **C110** (violated as stated: `line.loc[label]` is the value at the bar with this label): if the labels are no numbers, for
instance dates, each access to a bar of the index by its label, and each slice between two of them, is a TypeError. -/
theorem C110_raises {L : Type} (a : Line α) (index : List L) (l l' : L) (_ : l ∈ index) (_ : l' ∈ index) :
    a.accessor (.label l) = .error .typeError ∧ a.accessor (.labels l l') = .error .typeError := ⟨rfl, rfl⟩

/-- **C110**: if the labels are integers, `loc` takes them as positions: for a line with different values at different bars it
delivers the value at the label of bar `i` exactly if this label is `i`, or `i` counted from the back. -/
theorem C110_numbers (a : Line α) (hd : a.series.Nodup) (index : List Int) (i : ℕ) (hi : i < a.series.length)
    (hx : index.length = a.series.length) :
    a.accessor (L := Empty) (.int (index[i]'(by omega))) = .ok (.inl a.series[i]) ↔
      index[i]'(by omega) = i ∨ index[i]'(by omega) = (i : Int) - a.series.length := by
  have hi' : i < index.length := by omega
  generalize index[i]'hi' = l
  have key : ∀ (j : ℕ) (hj : j < a.series.length), a.series[j] = a.series[i] ↔ j = i :=
    fun j hj => hd.getElem_inj_iff
  simp only [accessor, Line.item, pyGet]
  by_cases h0 : 0 ≤ l
  · rw [if_pos h0]
    obtain ⟨j, rfl⟩ := Int.eq_ofNat_of_zero_le h0
    rw [Int.toNat_natCast]
    by_cases hj : j < a.series.length
    · rw [List.getElem?_eq_getElem hj]
      simp only [Except.map, Except.ok.injEq, Sum.inl.injEq, key j hj]
      omega
    · rw [List.getElem?_eq_none (by omega)]
      simp only [Except.map, reduceCtorEq, false_iff]
      omega
  · rw [if_neg h0]
    by_cases h1 : 0 ≤ (a.series.length : Int) + l
    · rw [if_pos h1]
      obtain ⟨j, hj'⟩ := Int.eq_ofNat_of_zero_le h1
      rw [hj', Int.toNat_natCast]
      have hj : j < a.series.length := by omega
      rw [List.getElem?_eq_getElem hj]
      simp only [Except.map, Except.ok.injEq, Sum.inl.injEq, key j hj]
      omega
    · rw [if_neg h1]
      simp only [Except.map, reduceCtorEq, false_iff]
      omega

/-- **C110**: slices with `loc`, which include their last label in pandas, lack the last bar even if the labels are the
positions. -/
theorem C110_slice (a : Line α) (i j : ℕ) (hij : i ≤ j) (hj : j < a.series.length) :
    ∃ r : Line α, a.accessor (L := Empty) (.ints (some i) (some j)) = .ok (.inr r) ∧
      r.series = (a.series.take j).drop i ∧ r.series.length = j - i ∧
      (a.series.take (j + 1)).drop i = r.series ++ [a.series[j]] := by
  have e : (a.slice (some (i : Int)) (some (j : Int))).series = (a.series.take j).drop i := by
    simp only [Line.slice, Option.getD_some, pySlice, pyStart_nat]
    rw [Nat.min_eq_left (by omega), Nat.min_eq_left (by omega)]
  refine ⟨_, rfl, e, ?_, ?_⟩
  · rw [e, List.length_drop, List.length_take]; omega
  · rw [e, List.take_succ_eq_append_getElem hj, List.drop_append_of_le_length (by rw [List.length_take]; omega)]

/-- **C110** (what of it holds): with an index `0, 1, 2, ...` every bar is found by its label. -/
theorem C110_partial (a : Line α) (i : ℕ) (hi : i < a.series.length) :
    a.accessor (L := Empty) (.int i) = .ok (.inl a.series[i]) := by
  simp [accessor, Line.item, pyGet, hi, Except.map]

/-- closes of three days; the bar of the second day cannot be read by its date, and with the labels 1, 2, 3 the one of the next
day is delivered for it -/
example : (⟨[10, 11, 12], 1⟩ : Line ℚ).accessor (.label "2020-01-02") = .error .typeError ∧
    (⟨[10, 11, 12], 1⟩ : Line ℚ).accessor (L := Empty) (.int ([1, 2, 3][1])) = .ok (.inl 12) ∧
    ([10, 11, 12] : List ℚ).Nodup := by
  refine ⟨rfl, rfl, by decide⟩

end Bta
