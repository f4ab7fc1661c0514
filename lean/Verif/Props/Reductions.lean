import Verif.Reductions
import Verif.Props.LineMore
import Verif.Lemmas.Calc
import Mathlib.Tactic.IntervalCases

/-!
# C148: questions asked of a whole line
-/

set_option linter.unusedSectionVars false
set_option linter.unusedVariables false

namespace Spec

/-- `i` is the first bar from `lo` on and before `n` with the greatest value -/
def FirstGreatest {K : Type} [LinearOrder K] (x : ℕ → K) (lo n i : ℕ) : Prop :=
  lo ≤ i ∧ i < n ∧ (∀ j, lo ≤ j → j < n → x j ≤ x i) ∧ ∀ j, lo ≤ j → j < i → x j < x i

/-- `i` is the first bar from `lo` on and before `n` with the least value -/
def FirstLeast {K : Type} [LinearOrder K] (x : ℕ → K) (lo n i : ℕ) : Prop :=
  lo ≤ i ∧ i < n ∧ (∀ j, lo ≤ j → j < n → x i ≤ x j) ∧ ∀ j, lo ≤ j → j < i → x i < x j

end Spec

namespace Bta
open Line

section tests
variable {V : Type} [PyFloat V] {n m m' : ℕ}

/-- **C148** `all`, `any` and `sum` of a line of tests: whether it is `True` at all, or at one, of the delivered bars, and at how many.  What it shows
before - `True`, for comparisons (C65) - does not count. -/
theorem C148_tests {a : Line Bool} {p : ℕ → Bool} (ha : RepW a n m p) :
    (allR a = true ↔ ∀ i, m - 1 ≤ i → i < n → p i = true) ∧ (anyR a = true ↔ ∃ i, m - 1 ≤ i ∧ i < n ∧ p i = true) ∧
    sumB a = ((Finset.Ico (m - 1) n).filter fun i => p i = true).card := by
  unfold allR anyR sumB
  rw [(C92_delivered ha _).1, (C92_delivered ha _).1, (C92_delivered ha _).1]
  refine ⟨?_, ?_, ?_⟩
  · rw [List.all_eq_true]
    constructor
    · intro h i h1 h2
      exact h _ (List.mem_map.mpr ⟨i - (m - 1), List.mem_range.mpr (by omega), by rw [Nat.sub_add_cancel h1]⟩)
    · intro h b hb
      obtain ⟨j, hj, rfl⟩ := List.mem_map.mp hb
      exact h _ (by omega) (by have := List.mem_range.mp hj; omega)
  · rw [List.any_eq_true]
    constructor
    · rintro ⟨b, hb, hb'⟩
      obtain ⟨j, hj, rfl⟩ := List.mem_map.mp hb
      exact ⟨_, by omega, by have := List.mem_range.mp hj; omega, hb'⟩
    · rintro ⟨i, h1, h2, h3⟩
      exact ⟨_, List.mem_map.mpr ⟨i - (m - 1), List.mem_range.mpr (by omega), by rw [Nat.sub_add_cancel h1]⟩, h3⟩
  · generalize hd : n - (m - 1) = d
    have h : ∀ d, ((List.range d).map fun j => p (j + (m - 1))).count true =
        ((Finset.Ico (m - 1) (m - 1 + d)).filter fun i => p i = true).card := by
      intro d
      induction d with
      | zero => simp
      | succ d ih =>
        rw [List.range_succ, List.map_append, List.count_append, ih, ← Nat.add_assoc, Nat.Ico_succ_right_eq_insert_Ico (by omega),
          Finset.filter_insert]
        by_cases hp : p (m - 1 + d) = true
        · rw [if_pos hp, Finset.card_insert_of_notMem (by simp)]
          simp [Nat.add_comm d, hp]
        · rw [if_neg hp]
          simp [Nat.add_comm d, hp]
    rw [h d]
    congr 2
    by_cases h1 : m - 1 ≤ n
    · rw [show m - 1 + d = n by omega]
    · rw [show d = 0 by omega, Nat.add_zero, Finset.Ico_self, Finset.Ico_eq_empty (by omega)]

/-- **C148** in particular `(a > b).all()`, `(a > b).any()` and `(a > b).sum()` tell of the bars which both lines have delivered. -/
theorem C148_above {a b : Line V} {g h : ℕ → V} (ha : RepW a n m g) (hb : RepW b n m' h) :
    (allR (gtL a b) = true ↔ ∀ i, m ≤ i + 1 → m' ≤ i + 1 → i < n → lt (h i) (g i) = true) ∧
    (anyR (gtL a b) = true ↔ ∃ i, m ≤ i + 1 ∧ m' ≤ i + 1 ∧ i < n ∧ lt (h i) (g i) = true) ∧
    sumB (gtL a b) = ((Finset.range n).filter fun i => m ≤ i + 1 ∧ m' ≤ i + 1 ∧ lt (h i) (g i) = true).card := by
  obtain ⟨h1, h2, h3⟩ := C148_tests (rep_gtL ha hb).toRepW
  refine ⟨h1.trans ⟨fun H i p q r => H i (by omega) r, fun H i p r => H i (by omega) (by omega) r⟩,
    h2.trans ⟨fun ⟨i, p, q, r⟩ => ⟨i, by omega, by omega, q, r⟩, fun ⟨i, p, q, r, s⟩ => ⟨i, by omega, r, s⟩⟩, h3.trans ?_⟩
  congr 1
  ext i
  simp only [Finset.mem_filter, Finset.mem_Ico, Finset.mem_range]
  constructor
  · rintro ⟨⟨p, q⟩, r⟩; exact ⟨q, by omega, by omega, r⟩
  · rintro ⟨q, p, p', r⟩; exact ⟨⟨by omega, q⟩, r⟩

end tests

section exact
variable {K : Type} [Field K] [LinearOrder K] [IsStrictOrderedRing K] {a b : Line (Ext K)} {n m m' : ℕ} {x y : ℕ → K}

theorem idxGo_greatest (x : ℕ → K) (lo n : ℕ) : ∀ (d k : ℕ), n - k = d → k ≤ n → ∀ i, Spec.FirstGreatest x lo k i →
    ∃ r, idxGo (fun x y => lt y x) (some (i, Ext.fin (x i))) k (tail n k fun i => (Ext.fin (x i) : Ext K)) = some (r, .fin (x r)) ∧
      Spec.FirstGreatest x lo n r := by
  intro d
  induction d with
  | zero =>
    intro k hk hkn i hi
    rw [tail_nil _ (by omega : n ≤ k)]
    exact ⟨i, rfl, by rw [show n = k by omega]; exact hi⟩
  | succ d ih =>
    intro k hk hkn i hi
    rw [tail_cons _ (by omega : k < n)]
    simp only [idxGo, show isNaN (Ext.fin (x k) : Ext K) = false from rfl, Bool.false_eq_true, if_false]
    obtain ⟨h1, h2, h3, h4⟩ := hi
    by_cases h : x i < x k
    · rw [if_pos (by simpa using h)]
      refine ih (k + 1) (by omega) (by omega) k ⟨by omega, by omega, fun j hj hjk => ?_, fun j hj hjk => (h3 j hj hjk).trans_lt h⟩
      rcases Nat.lt_succ_iff_lt_or_eq.mp hjk with h' | h'
      · exact (h3 j hj h').trans h.le
      · rw [h']
    · rw [if_neg (by simpa using h)]
      refine ih (k + 1) (by omega) (by omega) i ⟨h1, by omega, fun j hj hjk => ?_, h4⟩
      rcases Nat.lt_succ_iff_lt_or_eq.mp hjk with h' | h'
      · exact h3 j hj h'
      · rw [h']; exact not_lt.mp h

theorem idxGo_least (x : ℕ → K) (lo n : ℕ) : ∀ (d k : ℕ), n - k = d → k ≤ n → ∀ i, Spec.FirstLeast x lo k i →
    ∃ r, idxGo (fun x y => lt x y) (some (i, Ext.fin (x i))) k (tail n k fun i => (Ext.fin (x i) : Ext K)) = some (r, .fin (x r)) ∧
      Spec.FirstLeast x lo n r := by
  intro d
  induction d with
  | zero =>
    intro k hk hkn i hi
    rw [tail_nil _ (by omega : n ≤ k)]
    exact ⟨i, rfl, by rw [show n = k by omega]; exact hi⟩
  | succ d ih =>
    intro k hk hkn i hi
    rw [tail_cons _ (by omega : k < n)]
    simp only [idxGo, show isNaN (Ext.fin (x k) : Ext K) = false from rfl, Bool.false_eq_true, if_false]
    obtain ⟨h1, h2, h3, h4⟩ := hi
    by_cases h : x k < x i
    · rw [if_pos (by simpa using h)]
      refine ih (k + 1) (by omega) (by omega) k ⟨by omega, by omega, fun j hj hjk => ?_, fun j hj hjk => h.trans_le (h3 j hj hjk)⟩
      rcases Nat.lt_succ_iff_lt_or_eq.mp hjk with h' | h'
      · exact h.le.trans (h3 j hj h')
      · rw [h']
    · rw [if_neg (by simpa using h)]
      refine ih (k + 1) (by omega) (by omega) i ⟨h1, by omega, fun j hj hjk => ?_, h4⟩
      rcases Nat.lt_succ_iff_lt_or_eq.mp hjk with h' | h'
      · exact h3 j hj h'
      · rw [h']; exact not_lt.mp h

/-- **C148** `idxmax` and `idxmin`: the number of the first bar with the greatest, the least delivered value. -/
theorem C148_idx (ha : Holds a n m x) (hn : m ≤ n) :
    (∃ i, idxmax a = some i ∧ Spec.FirstGreatest x (m - 1) n i) ∧ ∃ i, idxmin a = some i ∧ Spec.FirstLeast x (m - 1) n i := by
  have hp := ha.pos
  have h1 := pyFrom_tail ha (le_refl m)
  have h2 : pyStart a.series.length (a.minperiod - 1) = m - 1 := by
    rw [ha.mp, pyStart_pred _ hp, ha.len]; omega
  rw [← ha.mp] at h1
  unfold idxmax idxmin
  rw [h1, h2, tail_cons _ (by omega : m - 1 < n)]
  simp only [idxGo, show isNaN (Ext.fin (x (m - 1)) : Ext K) = false from rfl, Bool.false_eq_true, if_false]
  obtain ⟨r, h3, h4⟩ := idxGo_greatest x (m - 1) n _ (m - 1 + 1) rfl (by omega) (m - 1)
    ⟨le_refl _, by omega, fun j hj hj' => by rw [show j = m - 1 by omega], fun j hj hj' => absurd hj' (by omega)⟩
  obtain ⟨s, h5, h6⟩ := idxGo_least x (m - 1) n _ (m - 1 + 1) rfl (by omega) (m - 1)
    ⟨le_refl _, by omega, fun j hj hj' => by rw [show j = m - 1 by omega], fun j hj hj' => absurd hj' (by omega)⟩
  exact ⟨⟨r, by rw [h3]; rfl, h4⟩, s, by rw [h5]; rfl, h6⟩

theorem foldl_maxV (l : List K) : ∀ z : K, ∃ M : K, (l.map (Ext.fin : K → Ext K)).foldl maxV (.fin z) = .fin M ∧ (M = z ∨ M ∈ l) ∧ z ≤ M ∧
    ∀ v ∈ l, v ≤ M := by
  induction l with
  | nil => exact fun z => ⟨z, rfl, .inl rfl, le_refl _, by simp⟩
  | cons v l ih =>
    intro z
    simp only [List.map_cons, List.foldl_cons]
    by_cases h : z < v
    · rw [show maxV (Ext.fin z : Ext K) (.fin v) = .fin v by unfold maxV; rw [if_pos (by simpa using h)]]
      obtain ⟨M, h1, h2, h3, h4⟩ := ih v
      exact ⟨M, h1, .inr (by rcases h2 with h2 | h2 <;> simp [h2]), h.le.trans h3, by simpa using ⟨h3, h4⟩⟩
    · rw [show maxV (Ext.fin z : Ext K) (.fin v) = .fin z by unfold maxV; rw [if_neg (by simpa using h)]]
      obtain ⟨M, h1, h2, h3, h4⟩ := ih z
      exact ⟨M, h1, by rcases h2 with h2 | h2 <;> simp [h2], h3, by simpa using ⟨(not_lt.mp h).trans h3, h4⟩⟩

theorem foldl_minV (l : List K) : ∀ z : K, ∃ M : K, (l.map (Ext.fin : K → Ext K)).foldl minV (.fin z) = .fin M ∧ (M = z ∨ M ∈ l) ∧ M ≤ z ∧
    ∀ v ∈ l, M ≤ v := by
  induction l with
  | nil => exact fun z => ⟨z, rfl, .inl rfl, le_refl _, by simp⟩
  | cons v l ih =>
    intro z
    simp only [List.map_cons, List.foldl_cons]
    by_cases h : v < z
    · rw [show minV (Ext.fin z : Ext K) (.fin v) = .fin v by unfold minV; rw [if_pos (by simpa using h)]]
      obtain ⟨M, h1, h2, h3, h4⟩ := ih v
      exact ⟨M, h1, .inr (by rcases h2 with h2 | h2 <;> simp [h2]), h3.trans h.le, by simpa using ⟨h3, h4⟩⟩
    · rw [show minV (Ext.fin z : Ext K) (.fin v) = .fin z by unfold minV; rw [if_neg (by simpa using h)]]
      obtain ⟨M, h1, h2, h3, h4⟩ := ih z
      exact ⟨M, h1, by rcases h2 with h2 | h2 <;> simp [h2], h3, by simpa using ⟨h3.trans (not_lt.mp h), h4⟩⟩

/-- **C148** `max` and `min`: the greatest and the least delivered value. -/
theorem C148_extremes (ha : Holds a n m x) (hn : m ≤ n) :
    (∃ i, m - 1 ≤ i ∧ i < n ∧ maxR a = .fin (x i) ∧ ∀ j, m - 1 ≤ j → j < n → x j ≤ x i) ∧
    ∃ i, m - 1 ≤ i ∧ i < n ∧ minR a = .fin (x i) ∧ ∀ j, m - 1 ≤ j → j < n → x i ≤ x j := by
  have hp := ha.pos
  have e : ∀ (f : List (Ext K) → Ext K), a.reduce f = f (((List.range (n - (m - 1))).map fun j => x (j + (m - 1))).map .fin) := by
    intro f
    rw [(C92_delivered ha f).1, List.map_map]
    rfl
  have hmem : ∀ v, v ∈ ((List.range (n - (m - 1))).map fun j => x (j + (m - 1))) ↔ ∃ i, m - 1 ≤ i ∧ i < n ∧ x i = v := by
    intro v
    rw [List.mem_map]
    constructor
    · rintro ⟨j, hj, rfl⟩
      exact ⟨_, by omega, by have := List.mem_range.mp hj; omega, rfl⟩
    · rintro ⟨i, h1, h2, rfl⟩
      exact ⟨i - (m - 1), List.mem_range.mpr (by omega), by rw [Nat.sub_add_cancel h1]⟩
  unfold maxR minR
  rw [e, e]
  unfold maxSkipNa minSkipNa
  rw [filter_fin]
  generalize hl : ((List.range (n - (m - 1))).map fun j => x (j + (m - 1))) = l at *
  cases l with
  | nil =>
    have := congrArg List.length hl
    simp at this
    omega
  | cons v l =>
    simp only [List.map_cons]
    obtain ⟨M, h1, h2, h3, h4⟩ := foldl_maxV l v
    obtain ⟨N, h5, h6, h7, h8⟩ := foldl_minV l v
    refine ⟨?_, ?_⟩
    · obtain ⟨i, hi, hin, rfl⟩ := (hmem M).mp (by rcases h2 with h2 | h2 <;> simp [h2])
      refine ⟨i, hi, hin, h1, fun j hj hjn => ?_⟩
      rcases List.mem_cons.mp ((hmem (x j)).mpr ⟨j, hj, hjn, rfl⟩) with h | h
      · rw [h]; exact h3
      · exact h4 _ h
    · obtain ⟨i, hi, hin, rfl⟩ := (hmem N).mp (by rcases h6 with h6 | h6 <;> simp [h6])
      refine ⟨i, hi, hin, h5, fun j hj hjn => ?_⟩
      rcases List.mem_cons.mp ((hmem (x j)).mpr ⟨j, hj, hjn, rfl⟩) with h | h
      · rw [h]; exact h7
      · exact h8 _ h

/-- **C148** `idxmax` is a bar which shows `max`, `idxmin` one which shows `min`. -/
theorem C148_idx_value (ha : Holds a n m x) (hn : m ≤ n) :
    (∃ i, idxmax a = some i ∧ maxR a = .fin (x i)) ∧ ∃ i, idxmin a = some i ∧ minR a = .fin (x i) := by
  obtain ⟨⟨i, h1, h2, h3, h4, _⟩, j, h5, h6, h7, h8, _⟩ := C148_idx ha hn
  obtain ⟨⟨k, h9, h10, h11, h12⟩, l, h13, h14, h15, h16⟩ := C148_extremes ha hn
  refine ⟨⟨i, h1, ?_⟩, j, h5, ?_⟩
  · rw [h11, le_antisymm (h4 k h9 h10) (h12 i h2 h3)]
  · rw [h15, le_antisymm (h16 j h6 h7) (h8 l h13 h14)]

/-- **C148** the greatest of the highest and the least of the lowest values of windows are those of the line. -/
theorem C148_highest (ha : Holds a n m x) {p : ℕ} (hp : 1 ≤ p) (hn : m + p - 1 ≤ n) :
    maxR (Ind.highest p a) = maxR a ∧ minR (Ind.lowest p a) = minR a := by
  have hm := ha.pos
  obtain ⟨⟨i, h1, h2, h3, h4⟩, i', h1', h2', h3', h4'⟩ := C148_extremes ha (by omega)
  obtain ⟨⟨k, h5, h6, h7, h8⟩, _⟩ := C148_extremes (ha.rollMax hp).toRepW hn
  obtain ⟨_, k', h5', h6', h7', h8'⟩ := C148_extremes (ha.rollMin hp).toRepW hn
  refine ⟨?_, ?_⟩
  · unfold Ind.highest
    rw [h3, h7]
    congr 1
    refine le_antisymm ?_ ?_
    · obtain ⟨⟨j, hj, h⟩, _⟩ := Spec.winMax_isGreatest x hp k
      rw [h]
      exact h4 _ (by omega) (by omega)
    · have e : max i (m + p - 2) - (max i (m + p - 2) - i) = i := by omega
      have := Spec.le_winMax x (p := p) (i := max i (m + p - 2)) (j := max i (m + p - 2) - i) (by omega)
      rw [e] at this
      exact this.trans (h8 _ (by omega) (by omega))
  · unfold Ind.lowest
    rw [h3', h7']
    congr 1
    refine le_antisymm ?_ ?_
    · have e : max i' (m + p - 2) - (max i' (m + p - 2) - i') = i' := by omega
      have := Spec.winMin_le x (p := p) (i := max i' (m + p - 2)) (j := max i' (m + p - 2) - i') (by omega)
      rw [e] at this
      exact (h8' _ (by omega) (by omega)).trans this
    · obtain ⟨⟨j, hj, h⟩, _⟩ := Spec.winMin_isLeast x hp k'
      rw [h]
      exact h4' _ (by omega) (by omega)

/-- **C148** `count` is the number of delivered bars, `first_valid_index` the first of them. -/
theorem C148_count (ha : Holds a n m x) : countR a = n - (m - 1) ∧ firstValid a = if m ≤ n then some (m - 1) else none := by
  have hp := ha.pos
  refine ⟨?_, ?_⟩
  · unfold countR
    rw [(C92_delivered ha _).1, countNotNa, List.countP_eq_length.mpr, List.length_map, List.length_range]
    intro y hy
    obtain ⟨j, _, rfl⟩ := List.mem_map.1 hy
    rfl
  · have h1 := pyFrom_tail ha (le_refl m)
    rw [← ha.mp] at h1
    unfold firstValid
    rw [h1]
    by_cases h : m ≤ n
    · rw [tail_cons _ (by omega : m - 1 < n), if_pos h, ha.mp, pyStart_pred _ hp, ha.len, min_eq_left (by omega)]
      rfl
    · rw [tail_nil _ (by omega : n ≤ m - 1), if_neg h]
      rfl

/-- **C148** the sum of the changes from bar to bar is the last delivered value less the first; nothing for a single bar. -/
theorem C148_changes (ha : Holds a n m x) (hn : m ≤ n) : sumR (Line.diff 1 a) = .fin (x (n - 1) - x (m - 1)) := by
  have hp := ha.pos
  have h := (ha.diff 1).toRepW
  by_cases h1 : m + 1 ≤ n
  · have := (C92_mean h h1).1
    unfold sumR
    rw [this]
    congr 1
    obtain ⟨d, rfl⟩ : ∃ d, n = m + d := ⟨n - m, by omega⟩
    rw [Nat.add_sub_cancel]
    clear this h h1 ha hn
    induction d with
    | zero => simp
    | succ d ih =>
      rw [← Nat.add_assoc, Finset.sum_Ico_succ_top (by omega), ih]
      simp
  · have e : n = m := by omega
    unfold sumR
    rw [(C92_delivered h _).1, e]
    simp [sumSkipNa, sumV]

/-- **C148** `dot`: the sum of the products over the bars which both lines have delivered, in either order. -/
theorem C148_dot (ha : Holds a n m x) (hb : Holds b n m' y) :
    dotR a b = .fin (∑ i ∈ (Finset.range n).filter fun i => m ≤ i + 1 ∧ m' ≤ i + 1, x i * y i) ∧ dotR a b = dotR b a := by
  have key : ∀ {a b : Line (Ext K)} {m m' : ℕ} {x y : ℕ → K}, Holds a n m x → Holds b n m' y →
      dotR a b = .fin (∑ i ∈ (Finset.range n).filter fun i => m ≤ i + 1 ∧ m' ≤ i + 1, x i * y i) := by
    intro a b m m' x y ha hb
    unfold dotR
    rw [C92_both_delivered ha hb, dotL, List.zipWith_map, List.zipWith_self]
    have := sumV_fin ((List.range (n - (max m m' - 1))).map fun j => x (j + (max m m' - 1)) * y (j + (max m m' - 1)))
    rw [List.map_map] at this
    refine this.trans ?_
    congr 1
    rw [sum_map_range]
    have e : (Finset.range n).filter (fun i => m ≤ i + 1 ∧ m' ≤ i + 1) = Finset.Ico (max m m' - 1) n := by
      ext i
      simp only [Finset.mem_filter, Finset.mem_Ico, Finset.mem_range]
      omega
    rw [e, Finset.sum_Ico_eq_sum_range]
    exact Finset.sum_congr rfl fun j _ => by rw [Nat.add_comm]
  refine ⟨key ha hb, ?_⟩
  rw [key ha hb, key hb ha]
  congr 1
  refine Finset.sum_congr ?_ fun i _ => mul_comm _ _
  ext i
  simp only [Finset.mem_filter, Finset.mem_range]
  omega

theorem forward_delivered (xs : List (Ext K)) (k : ℕ) (hk : 1 ≤ k) :
    pyFrom ((Line.ofSeries xs).ago (k : Int)).series (((Line.ofSeries xs).ago (k : Int)).minperiod - 1) = List.replicate (min k xs.length) .nan := by
  have e : (Line.ofSeries xs).ago (k : Int) = ⟨xs.drop k ++ List.replicate (min k xs.length) .nan, 1 - (k : Int)⟩ := by
    unfold Line.ago
    rw [if_neg (by omega)]
    have h1 : clone (Line.ofSeries xs) (shiftL (-(k : Int)) xs) 1 = ⟨shiftL (-(k : Int)) xs, 1⟩ := rfl
    have h2 : Line.shift (-(k : Int)) (Line.ofSeries xs) = ⟨shiftL (-(k : Int)) xs, 1 + -(k : Int)⟩ := by
      simp only [Line.shift, stdop]
      rw [show (Line.ofSeries xs).minperiod = 1 from rfl, show (Line.ofSeries xs).series = xs from rfl]
      have h3 : setFrom xs.length (nan : Ext K) (1 - 1) (shiftL (-(k : Int)) (pyFrom xs (1 - 1))) = shiftL (-(k : Int)) xs := by
        simp [setFrom, pyStart, pyFrom]
      rw [h3, h1]
    rw [h2]
    simp only [shiftL]
    rw [if_neg (by omega)]
    simp only [neg_neg, Int.toNat_natCast]
    rfl
  rw [e]
  have h2 : pyFrom (xs.drop k ++ List.replicate (min k xs.length) (Ext.nan : Ext K)) (1 - (k : Int) - 1) =
      List.replicate (min k xs.length) .nan := by
    have hl : (xs.drop k ++ List.replicate (min k xs.length) (Ext.nan : Ext K)).length = xs.length := by
      simp; omega
    unfold pyFrom pyStart
    rw [hl, if_neg (by omega)]
    rw [List.drop_append_of_le_length (by simp; omega), List.drop_drop]
    rw [List.drop_eq_nil_of_le (by omega)]
    rfl
  exact h2

theorem idxGo_nan (f : Ext K → Ext K → Bool) (j : ℕ) : ∀ i, idxGo f none i (List.replicate j (Ext.nan : Ext K)) = none := by
  induction j with
  | zero => exact fun i => rfl
  | succ j ih => exact fun i => ih (i + 1)

theorem validGo_nan (j : ℕ) : ∀ i, validGo i (List.replicate j (Ext.nan : Ext K)) = none := by
  induction j with
  | zero => exact fun i => rfl
  | succ j ih => exact fun i => ih (i + 1)

/-- **C148** (negation) after a forward shift `max` and `min` are NaN, `count` is 0 and there is no greatest bar, whatever the data: the delivered part is
read from the end. -/
theorem C148_forward_false (xs : List (Ext K)) (k : ℕ) (hk : 1 ≤ k) :
    let a := (Line.ofSeries xs).ago (k : Int)
    maxR a = .nan ∧ minR a = .nan ∧ countR a = 0 ∧ idxmax a = none ∧ idxmin a = none ∧ firstValid a = none := by
  intro a
  have h : pyFrom a.series (a.minperiod - 1) = List.replicate (min k xs.length) .nan := forward_delivered xs k hk
  have hf : (List.replicate (min k xs.length) (Ext.nan : Ext K)).filter (fun x => !isNaN x) = [] := by
    rw [List.filter_eq_nil_iff]
    intro y hy
    rw [List.eq_of_mem_replicate hy]
    simp [isNaN]
  unfold maxR minR countR idxmax idxmin firstValid Line.reduce
  rw [h, idxGo_nan, idxGo_nan, validGo_nan]
  unfold maxSkipNa minSkipNa countNotNa
  rw [hf, List.countP_eq_length_filter, hf]
  exact ⟨rfl, rfl, rfl, rfl, rfl, rfl⟩

end exact

/-- a line of five bars with minimum period 2 -/
def line148 : Line (Ext ℚ) := ⟨[.nan, .fin 2, .fin 7, .fin 7, .fin 1], 2⟩

theorem holds148 : Holds line148 5 2 (fun i => if i = 1 then 2 else if i = 4 then 1 else 7) := by
  refine ⟨rfl, rfl, by decide, fun i h1 h2 => ?_⟩
  interval_cases i <;> first | omega | decide +kernel

/-- such a line meets the hypotheses, ... -/
example : (∃ i, idxmax line148 = some i ∧ Spec.FirstGreatest (fun i => if i = 1 then (2 : ℚ) else if i = 4 then 1 else 7) 1 5 i) ∧
    maxR (Ind.highest 3 line148) = maxR line148 ∧ sumR (Line.diff 1 line148) = .fin (1 - 2) :=
  ⟨(C148_idx holds148 (by decide)).1, (C148_highest holds148 (p := 3) (by decide) (by decide)).1, C148_changes holds148 (by decide)⟩

/-- ... and the values are: -/
example : idxmax line148 = some 2 ∧ idxmin line148 = some 4 ∧ maxR line148 = .fin 7 ∧ minR line148 = .fin 1 ∧ countR line148 = 4 ∧
    firstValid line148 = some 1 ∧ dotR line148 ⟨[.nan, .nan, .fin 1, .fin 1, .fin 3], 3⟩ = .fin 17 := by
  decide +kernel

/-- the `True` of the warm-up of a comparison is in its series, and not in `all`, `any` and `sum` -/
example : (gtL line148 ⟨[.nan, .nan, .fin 8, .fin 8, .fin 3], 3⟩).series = [true, true, false, false, false] ∧
    anyR (gtL line148 ⟨[.nan, .nan, .fin 8, .fin 8, .fin 3], 3⟩) = false ∧ sumB (gtL line148 ⟨[.nan, .nan, .fin 8, .fin 8, .fin 3], 3⟩) = 0 := by
  decide +kernel

end Bta
