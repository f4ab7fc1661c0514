import Verif.LineMore
import Verif.Props.Lines2
import Verif.Lemmas.Stat

/-!
# How periods are written (C91), reductions (C92), expanding windows (C93), slices (C94), frames (C95)
-/

set_option linter.unusedSectionVars false
set_option linter.unusedVariables false

namespace Bta
open Line

variable {V : Type} [PyFloat V]

/-! ## C91 -/

theorem rep_pctChange_len {s : ℕ} {a : Line V} {n m : ℕ} {g : ℕ → V} (ha : RepW a n m g) :
    (Line.pctChange s a).series.length = n ∧ (Line.pctChange s a).minperiod = ((m + s : ℕ) : Int) := by
  have hp := ha.pos
  refine ⟨?_, ?_⟩
  · rw [Line.pctChange, stdop_length (CausalL.pctChange s).len, ha.len]
  · simp only [Line.pctChange, stdop, clone]
    rw [if_neg (by rw [ha.mp]; omega), ha.mp]
    omega

/-- With the period as keyword `shift` and `diff` deliver `s` bars later what they should. -/
theorem C91_keyword_partial {a : Line V} {n m : ℕ} {g : ℕ → V} (ha : RepW a n m g) (s : ℕ) :
    Gives (shiftCall (.kw s) a) (fun r => Rep nan r n (m + s) (fun i => g (i - s))) ∧
      Gives (diffCall (.kw s) a) (fun r => Rep nan r n (m + s) (fun i => g i - g (i - s))) ∧
      Gives (pctChangeCall (.kw s) a) (fun r => r.series.length = n ∧ r.minperiod = ((m + s : ℕ) : Int)) :=
  ⟨⟨_, rfl, rep_shift ha⟩, ⟨_, rfl, rep_diff ha⟩, ⟨_, rfl, rep_pctChange_len ha⟩⟩

/-- The values of `pct_change` for data without gaps: the relative change against the bar `s` bars before. -/
theorem C91_pct_change {K : Type} [Field K] [LinearOrder K] [IsStrictOrderedRing K] {a : Line (Ext K)} {n m : ℕ} {x : ℕ → K}
    (ha : Holds a n m x) (s : ℕ) (h0 : ∀ i, m ≤ i + 1 → i < n → x i ≠ 0) :
    Gives (pctChangeCall (.kw s) a) (fun r => Shows r n (m + s) (fun i => x i / x (i - s) - 1)) :=
  ⟨_, rfl, ha.pctChange s h0⟩

example : pctChangeCall (.kw 2) (bars 5 fun i => ((i + 1 : ℕ) : ℚ)) = .ok ⟨[.nan, .nan, .fin 2, .fin 1, .fin (2/3)], 3⟩ := by
  decide +kernel

/-- Written by position, or left out, the period is a TypeError, for all lines. -/
theorem C91_position_raises {p : PArg} (hp : ∀ k, p ≠ .kw k) (a : Line V) :
    shiftCall p a = .error .typeError ∧ diffCall p a = .error .typeError ∧ pctChangeCall p a = .error .typeError := by
  cases p with
  | default => exact ⟨rfl, rfl, rfl⟩
  | pos k => exact ⟨rfl, rfl, rfl⟩
  | kw k => exact absurd rfl (hp k)

/-- With the window as keyword a rolling aggregation delivers after `w - 1` more bars. -/
theorem C91_rolling_keyword_partial {a : Line V} {n m : ℕ} {g : ℕ → V} (ha : RepW a n m g) {w : ℕ} (hw : 1 ≤ w)
    (agg : List V → V) :
    Gives (rollingCall agg (.kw w) a)
      (fun r => Rep nan r n (m + w - 1) (fun i => agg ((List.range w).map fun j => g (i + 1 - w + j)))) := by
  refine ⟨_, rfl, ?_⟩
  have := rep_rolling hw (agg := agg) ha
  exact this

/-- Written by position the values are the same, but the minimum period stays what it was: the first `w - 1` bars which count as
delivered are NaN, for all lines. -/
theorem C91_rolling_position_negation {a : Line V} {n m : ℕ} {g : ℕ → V} (ha : RepW a n m g) {w : ℕ} (hw : 1 ≤ w)
    (agg : List V → V) :
    Gives (rollingCall agg (.pos w) a) (fun r => r.minperiod = (m : Int) ∧ r.series = (Line.rolling w agg a).series ∧
      ∀ i, m ≤ i + 1 → i + 1 < m + w - 1 → i < n → r.series[i]? = some nan) := by
  have hp := ha.pos
  have hs : (WinObj.use w agg ⟨a, a.minperiod, none, false⟩).1.series = (Line.rolling w agg a).series := rfl
  refine ⟨(WinObj.use w agg ⟨a, a.minperiod, none, false⟩).1, rfl, ?_, hs, ?_⟩
  · simp only [WinObj.use, clone]
    rw [if_neg (by rw [ha.mp]; omega), ha.mp]
  · intro i h1 h2 h3
    rw [hs]
    exact (rep_rolling hw (agg := agg) ha).pre i h2 h3

/-- Non-vacuity: a window of 3 by position, with 5 bars. -/
example : rollingCall aggMean (.pos 3) (Line.ofSeries [Ext.fin (1 : ℚ), .fin 2, .fin 3, .fin 4, .fin 5]) =
      .ok ⟨[.nan, .nan, .fin 2, .fin 3, .fin 4], 1⟩ ∧
    rollingCall aggMean (.kw 3) (Line.ofSeries [Ext.fin (1 : ℚ), .fin 2, .fin 3, .fin 4, .fin 5]) =
      .ok ⟨[.nan, .nan, .fin 2, .fin 3, .fin 4], 3⟩ := by decide +kernel

/-- `ewm` with a period (`span`, `com` = period - 1, or `alpha`/`halflife` along with `span`): the operation sees the delivered bars,
and the minimum period grows by the period minus one.  `op` is the pandas operation. -/
theorem C91_ewm_partial {a : Line V} {n m : ℕ} {g : ℕ → V} (ha : RepW a n m g) {p : ℕ} (hp : 1 ≤ p) {e : EwmArg}
    (he : e ∈ [.span p, .com (p - 1), .alpha (some p), .halflife (some p)]) (op : List V → List V)
    (hop : ∀ xs, (op xs).length = xs.length) :
    Gives (ewmPublic op e a) (fun r => r.minperiod = ((m + p - 1 : ℕ) : Int) ∧ r.series.length = n ∧
      ∀ i, m ≤ i + 1 → r.series[i]? = (op ((List.range (n - (m - 1))).map fun j => g (j + (m - 1))))[i - (m - 1)]?) := by
  have hm := ha.pos
  have hv : e.pval = .ok p := by
    simp only [List.mem_cons, List.not_mem_nil, or_false] at he
    rcases he with rfl | rfl | rfl | rfl
    · rfl
    · simp only [EwmArg.pval]; congr 1; omega
    · rfl
    · rfl
  have e1 : max ((m : Int) + p - 1) 1 = ((m + p - 1 : ℕ) : Int) := by omega
  refine ⟨⟨setFrom n nan ((m : Int) - 1) (op (tail n (m - 1) g)), ((m + p - 1 : ℕ) : Int)⟩, ?_, rfl, ?_, ?_⟩
  · simp only [ewmPublic, hv, ha.mp, e1]
    rw [clone_mp_pos (by omega), pyFrom_tail ha (by omega), ha.len]
  · exact setFrom_len (by rw [hop, tail_length, pyStart_pred _ hm]; omega)
  · intro i hi
    simp only [setFrom]
    rw [pyStart_pred _ hm]
    by_cases hn : m - 1 ≤ n
    · rw [List.getElem?_append_right (by simp; omega)]
      simp only [List.length_replicate, Nat.min_eq_left hn]
      rfl
    · rw [List.getElem?_eq_none, List.getElem?_eq_none]
      · rw [hop]; simp; omega
      · rw [List.length_append, hop, tail_length, List.length_replicate]; omega

/-- With `alpha` alone the minimum period becomes one less than that of the line: the bar before the first one counts as delivered,
and is NaN, whatever line and operation. -/
theorem C91_ewm_alpha_negation {a : Line V} {n m : ℕ} {g : ℕ → V} (ha : RepW a n m g) (hm : 2 ≤ m) (hn : m ≤ n)
    (op : List V → List V) :
    Gives (ewmPublic op (.alpha none) a) (fun r => r.minperiod = (m : Int) - 1 ∧ r.series[m - 2]? = some nan) := by
  refine ⟨_, rfl, ?_, ?_⟩
  · simp only [clone, ha.mp, Option.getD_none]
    rw [if_neg (by omega)]
    omega
  · simp only [clone, ha.mp, ha.len]
    exact setFrom_get_pre (by omega) _ (by omega) (by omega)

/-- By position the call ends in a RecursionError, with `halflife` alone in a KeyError. -/
theorem C91_ewm_raises (op : List V → List V) (a : Line V) :
    ewmPublic op .pos a = .error .recursionError ∧ ewmPublic op (.halflife none) a = .error .keyError := ⟨rfl, rfl⟩

/-! ## C92 -/

/-- A reduction sees exactly the delivered bars, in order, whatever the bars before hold. -/
theorem C92_delivered {α γ : Type} {a : Line α} {n m : ℕ} {g : ℕ → α} (ha : RepW a n m g) (red : List α → γ) :
    a.reduce red = red ((List.range (n - (m - 1))).map fun j => g (j + (m - 1))) ∧
      a.mpseries = (List.range (n - (m - 1))).map fun j => g (j + (m - 1)) := by
  have := pyFrom_tail ha (le_refl m)
  rw [← ha.mp] at this
  refine ⟨?_, ?_⟩
  · rw [Line.reduce, this]; rfl
  · rw [Line.mpseries, this]; rfl

/-- A reduction of two lines sees, of both, the bars which both deliver. -/
theorem C92_both_delivered {α β γ : Type} {a : Line α} {b : Line β} {n m m' : ℕ} {g : ℕ → α} {h : ℕ → β} (ha : RepW a n m g)
    (hb : RepW b n m' h) (red : List α → List β → γ) :
    a.reduce2 red b = red ((List.range (n - (max m m' - 1))).map fun j => g (j + (max m m' - 1)))
      ((List.range (n - (max m m' - 1))).map fun j => h (j + (max m m' - 1))) := by
  simp only [Line.reduce2, ha.mp, hb.mp, imax_cast]
  rw [pyFrom_tail ha (le_max_left _ _), pyFrom_tail hb (le_max_right _ _)]
  rfl

section
variable {K : Type} [Field K] [LinearOrder K] [IsStrictOrderedRing K]

/-- `line.sum()` and `line.mean()` are the sum and the mean of the delivered values. -/
theorem C92_mean {a : Line (Ext K)} {n m : ℕ} {x : ℕ → K} (ha : Holds a n m x) (hn : m ≤ n) :
    a.reduce sumSkipNa = .fin (∑ i ∈ Finset.Ico (m - 1) n, x i) ∧
      a.reduce meanSkipNa = .fin ((∑ i ∈ Finset.Ico (m - 1) n, x i) / ((n - (m - 1) : ℕ) : K)) := by
  have hp := ha.pos
  have hs : (((List.range (n - (m - 1))).map fun j => x (j + (m - 1)))).sum = ∑ i ∈ Finset.Ico (m - 1) n, x i := by
    rw [Finset.sum_Ico_eq_sum_range, sum_map_range]
    exact Finset.sum_congr rfl (fun j _ => by rw [Nat.add_comm])
  have hf : (((List.range (n - (m - 1))).map fun j => (Ext.fin (x (j + (m - 1))) : Ext K)).filter fun y => !isNaN y) =
      (List.range (n - (m - 1))).map fun j => (Ext.fin (x (j + (m - 1))) : Ext K) := by
    rw [List.filter_eq_self]
    intro y hy
    obtain ⟨j, _, rfl⟩ := List.mem_map.1 hy
    rfl
  have hsum : sumV ((List.range (n - (m - 1))).map fun j => (Ext.fin (x (j + (m - 1))) : Ext K)) =
      .fin (∑ i ∈ Finset.Ico (m - 1) n, x i) := by
    have := sumV_fin ((List.range (n - (m - 1))).map fun j => x (j + (m - 1)))
    rw [hs, List.map_map] at this
    exact this
  rw [(C92_delivered ha _).1, (C92_delivered ha _).1]
  simp only [sumSkipNa, meanSkipNa, hf, hsum]
  refine ⟨trivial, ?_⟩
  rw [if_neg (by simp; omega)]
  have h0 : ((n - (m - 1) : ℕ) : K) ≠ 0 := by
    have : n - (m - 1) ≠ 0 := by omega
    exact_mod_cast this
  simp only [List.length_map, List.length_range, Ext.lit_def, Rat.cast_natCast]
  exact Ext.fin_div _ h0

/-- Non-vacuity. -/
example : (Line.reduce meanSkipNa (⟨[.nan, .fin 7, .fin 2, .fin 6], 3⟩ : Line (Ext ℚ))) = .fin 4 := by decide +kernel

/-- But after a forward shift (`line(k)`, k ≥ 1, which leaves a minimum period below 1) the mean is NaN, whatever the data. -/
theorem C92_forward_negation (xs : List (Ext K)) (k : ℕ) (hk : 1 ≤ k) :
    ((Line.ofSeries xs).ago (k : Int)).reduce meanSkipNa = .nan := by
  have e : (Line.ofSeries xs).ago (k : Int) = ⟨xs.drop k ++ List.replicate (min k xs.length) .nan, 1 - (k : Int)⟩ := by
    unfold Line.ago
    rw [if_neg (by omega)]
    have h1 : clone (Line.ofSeries xs) (shiftL (-(k : Int)) xs) 1 = ⟨shiftL (-(k : Int)) xs, 1⟩ := rfl
    have h2 : Line.shift (-(k : Int)) (Line.ofSeries xs) = ⟨shiftL (-(k : Int)) xs, 1 + -(k : Int)⟩ := by
      simp only [Line.shift, stdop]
      rw [show (Line.ofSeries xs).minperiod = 1 from rfl, show (Line.ofSeries xs).series = xs from rfl]
      have h3 : setFrom xs.length (nan : Ext K) (1 - 1) (shiftL (-(k : Int)) (pyFrom xs (1 - 1))) = shiftL (-(k : Int)) xs := by
        simp [setFrom, pyStart, pyFrom]
      rw [h3, h1]
    rw [h2]
    simp only [shiftL]
    rw [if_neg (by omega)]
    simp only [neg_neg, Int.toNat_natCast]
    rfl
  rw [e]
  simp only [Line.reduce]
  have h2 : pyFrom (xs.drop k ++ List.replicate (min k xs.length) (Ext.nan : Ext K)) (1 - (k : Int) - 1) =
      List.replicate (min k xs.length) .nan := by
    have hl : (xs.drop k ++ List.replicate (min k xs.length) (Ext.nan : Ext K)).length = xs.length := by
      simp; omega
    unfold pyFrom pyStart
    rw [hl, if_neg (by omega)]
    rw [List.drop_append_of_le_length (by simp; omega), List.drop_drop]
    rw [List.drop_eq_nil_of_le (by omega)]
    rfl
  rw [h2]
  simp only [meanSkipNa]
  rw [if_pos]
  · rfl
  · rw [List.isEmpty_iff, List.filter_eq_nil_iff]
    intro y hy
    rw [List.eq_of_mem_replicate hy]
    simp [isNaN]

end

/-! ## C93 -/

theorem expandL_length (k : ℕ) (agg : List V → V) (xs : List V) : (expandL k agg xs).length = xs.length := by
  simp [expandL]

/-- An expanding aggregation with `min_periods=k` given as keyword, or left out (1): at bar `i` it aggregates the finite values of
all delivered bars up to `i`; NaN as long as there are less than `k`. -/
theorem C93_value {a : Line V} {n m : ℕ} {g : ℕ → V} (ha : RepW a n m g) (agg : List V → V) {p : PArg} {k : ℕ} (hk : 1 ≤ k)
    (hp : p = .kw k ∨ (p = .default ∧ k = 1)) :
    RepW (Line.expanding agg p a) n (m + k - 1) (fun i =>
      let obs := ((List.range (i + 1 - (m - 1))).map fun j => g (j + (m - 1))).filter isFin
      if obs.length < k then nan else agg obs) ∧
      ∀ i, i + 1 < m + k - 1 → i < n → (Line.expanding agg p a).series[i]? = some nan := by
  have hm := ha.pos
  have hval : p.val = k := by
    rcases hp with rfl | ⟨rfl, rfl⟩ <;> rfl
  have hmp : (Line.expanding agg p a).minperiod = ((m + k - 1 : ℕ) : Int) := by
    rcases hp with rfl | ⟨rfl, rfl⟩
    · show (if max (a.minperiod + k - 1) 1 = 0 then a.minperiod else max (a.minperiod + k - 1) 1) = _
      rw [ha.mp, if_neg (by omega)]
      omega
    · show (if a.minperiod = 0 then a.minperiod else a.minperiod) = _
      rw [ha.mp, if_neg (by omega)]
      omega
  have hser : (Line.expanding agg p a).series = setFrom n nan ((m : Int) - 1) (expandL k agg (tail n (m - 1) g)) := by
    simp only [Line.expanding, clone, ha.mp, ha.len, hval]
    rw [pyFrom_tail ha (le_refl m)]
  have htake : ∀ i, m ≤ i + 1 → i < n → (tail n (m - 1) g).take (i - (m - 1) + 1) =
      (List.range (i + 1 - (m - 1))).map fun j => g (j + (m - 1)) := by
    intro i h1 h2
    unfold tail
    rw [← List.map_take, List.take_range]
    congr 2
    omega
  have hget : ∀ i, m ≤ i + 1 → i < n → (Line.expanding agg p a).series[i]? = some (
      if (((List.range (i + 1 - (m - 1))).map fun j => g (j + (m - 1))).filter isFin).length < k then nan
      else agg (((List.range (i + 1 - (m - 1))).map fun j => g (j + (m - 1))).filter isFin)) := by
    intro i h1 h2
    rw [hser]
    unfold setFrom
    rw [pyStart_pred _ hm, List.getElem?_append_right (by simp; omega)]
    simp only [List.length_replicate]
    rw [Nat.min_eq_left (by omega)]
    simp only [expandL, tail_length]
    rw [List.getElem?_map, List.getElem?_range (by omega)]
    simp only [Option.map_some, htake i h1 h2, Nat.max_eq_left hk]
  refine ⟨⟨?_, hmp, by omega, fun i h1 h2 => hget i (by omega) h2⟩, ?_⟩
  · rw [hser]
    exact setFrom_len (by rw [expandL_length, tail_length, pyStart_pred _ hm]; omega)
  · intro i h1 h2
    by_cases h3 : m ≤ i + 1
    · rw [hget i h3 h2, if_pos]
      refine lt_of_le_of_lt (List.length_filter_le _ _) ?_
      simp
      omega
    · rw [hser]
      exact setFrom_get_pre hm _ (by omega) h2

/-- For data without gaps: the aggregation of all values from the first delivered bar to bar `i`. -/
theorem C93_full {K : Type} [Field K] [LinearOrder K] [IsStrictOrderedRing K] {a : Line (Ext K)} {n m : ℕ} {x : ℕ → K}
    (ha : Holds a n m x) (agg : List (Ext K) → Ext K) {p : PArg} {k : ℕ} (hk : 1 ≤ k)
    (hp : p = .kw k ∨ (p = .default ∧ k = 1)) :
    Delivers (Line.expanding agg p a) n (m + k - 1)
      (fun i => agg ((List.range (i + 1 - (m - 1))).map fun j => .fin (x (j + (m - 1))))) := by
  obtain ⟨h1, h2⟩ := C93_value ha agg hk hp
  have hpos := ha.pos
  refine ⟨h1.congr rfl ?_, h2⟩
  intro i h3 h4
  have hf : (((List.range (i + 1 - (m - 1))).map fun j => (Ext.fin (x (j + (m - 1))) : Ext K)).filter isFin) =
      (List.range (i + 1 - (m - 1))).map fun j => (Ext.fin (x (j + (m - 1))) : Ext K) := by
    rw [List.filter_eq_self]
    intro y hy
    obtain ⟨j, _, rfl⟩ := List.mem_map.1 hy
    rfl
  simp only [hf]
  rw [if_neg]
  simp
  omega

/-- Non-vacuity: expanding maximum of a line with minimum period 2. -/
example : Line.expanding aggMax (.kw 2) (⟨[.nan, .fin 7, .fin 2, .fin 9], 2⟩ : Line (Ext ℚ)) =
    ⟨[.nan, .nan, .fin 7, .fin 9], 3⟩ := by decide +kernel

theorem CausalL.expand (k : ℕ) (agg : List V → V) : CausalL (expandL k agg) where
  len := expandL_length k agg
  pre := by
    intro xs ys h
    rw [prefix_iff_get]
    refine ⟨by rw [expandL_length, expandL_length]; exact h.length_le, ?_⟩
    intro i hi
    rw [expandL_length] at hi
    have hi' : i < ys.length := lt_of_lt_of_le hi h.length_le
    simp only [expandL, List.getElem?_map, List.getElem?_range hi, List.getElem?_range hi', Option.map_some]
    have : ys.take (i + 1) = xs.take (i + 1) := by
      obtain ⟨t, rfl⟩ := h
      rw [List.take_append_of_le_length (by omega)]
    rw [this]

/-- More bars do not change what an expanding aggregation has shown. -/
theorem C93_no_repaint {a a' : Line V} (h : Pref a a') (agg : List V → V) (p : PArg) :
    Pref (Line.expanding agg p a) (Line.expanding agg p a') := by
  have hpos := h.pos
  unfold Line.expanding
  simp only [← h.mp]
  refine pref_clone ?_ (setFrom_prefix h.ser.length_le hpos ((CausalL.expand _ _).pre _ _ (pyFrom_prefix h.ser hpos))
    (by rw [expandL_length, pyFrom_length]))
  cases p with
  | default => exact hpos
  | pos k => exact hpos
  | kw k => exact le_max_right _ _

/-- Written by position `min_periods` does not count for the minimum period: the first `k - 1` bars which count as delivered are
NaN, for all lines. -/
theorem C93_position_negation {a : Line V} {n m : ℕ} {g : ℕ → V} (ha : RepW a n m g) (agg : List V → V) {k : ℕ} (hk : 1 ≤ k) :
    (Line.expanding agg (.pos k) a).minperiod = (m : Int) ∧
      ∀ i, m ≤ i + 1 → i + 1 < m + k - 1 → i < n → (Line.expanding agg (.pos k) a).series[i]? = some nan := by
  have hm := ha.pos
  refine ⟨?_, ?_⟩
  · show (if a.minperiod = 0 then a.minperiod else a.minperiod) = _
    rw [ha.mp, if_neg (by omega)]
  · intro i _ h2 h3
    exact (C93_value ha agg hk (Or.inl rfl)).2 i h2 h3

/-! ## C94 -/

theorem slice_front {α : Type} (a : Line α) (j : ℕ) : a.slice none (some (j : Int)) = ⟨a.series.take j, a.minperiod⟩ := by
  simp only [Line.slice, pySlice, Option.getD_none, Option.getD_some]
  rw [show pyStart a.series.length 0 = 0 by simp [pyStart], pyStart_nat]
  simp [List.take_eq_take_iff]

theorem slice_pref {α : Type} (a : Line α) (ha : 1 ≤ a.minperiod) (j : ℕ) : Pref (a.slice none (some (j : Int))) a := by
  rw [slice_front]
  exact ⟨ha, rfl, List.take_prefix _ _⟩

theorem Pref.slice_eq {α : Type} {r r' : Line α} (h : Pref r r') {j : ℕ} (hl : r.series.length = min j r'.series.length) :
    r = r'.slice none (some (j : Int)) := by
  rw [slice_front]
  obtain ⟨s, m⟩ := r
  obtain ⟨t, ht⟩ := h.ser
  have h2 := h.mp
  simp only at hl h2 ht
  congr 1
  rw [← ht]
  rw [← ht] at hl
  simp only [List.length_append] at hl
  by_cases hj : j ≤ s.length
  · rw [List.take_append_of_le_length hj, List.take_of_length_le (by omega)]
  · rw [List.take_of_length_le]
    · have : t.length = 0 := by omega
      rw [List.length_eq_zero_iff.1 this, List.append_nil]
    · simp; omega

/-- Cutting off the last bars commutes with operators: the result on the cut lines is the cut result. -/
theorem C94_front_binop {α β γ : Type} (f : α → β → γ) (fill : γ) (a : Line α) (b : Line β) (ha : 1 ≤ a.minperiod) (hb : 1 ≤ b.minperiod)
    (hl : a.series.length = b.series.length) (j : ℕ) :
    binop f fill (a.slice none (some (j : Int))) (b.slice none (some (j : Int))) = (binop f fill a b).slice none (some (j : Int)) := by
  have hl2 : (a.slice none (some (j : Int))).series.length = (b.slice none (some (j : Int))).series.length := by
    simp only [slice_front, List.length_take, hl]
  apply (pref_binop (slice_pref a ha j) (slice_pref b hb j) hl2 hl).slice_eq
  rw [binop_length hl2, binop_length hl, slice_front]
  simp

/-- The same for rolling windows, and for every operation which does not look ahead. -/
theorem C94_front_rolling {α : Type} {w : ℕ} (hw : 1 ≤ w) (agg : List α → V) (a : Line α) (ha : 1 ≤ a.minperiod) (j : ℕ) :
    Line.rolling w agg (a.slice none (some (j : Int))) = (Line.rolling w agg a).slice none (some (j : Int)) := by
  apply (pref_rolling hw (slice_pref a ha j)).slice_eq
  rw [rolling_length, rolling_length, slice_front]
  simp

/-- `line[i]` is the value at bar `i`, from the back for negative `i`; outside an IndexError. -/
theorem C94_item {α : Type} (a : Line α) (i : ℕ) :
    (∀ (h : i < a.series.length), a.item i = .ok a.series[i] ∧ a.item ((i : Int) - a.series.length) = .ok a.series[i]) ∧
      (a.series.length ≤ i → a.item i = .error .indexError ∧ a.item (-(i : Int) - 1) = .error .indexError) := by
  refine ⟨fun h => ⟨?_, ?_⟩, fun h => ⟨?_, ?_⟩⟩
  · simp [Line.item, pyGet, h]
  · simp only [Line.item, pyGet]
    rw [if_neg (by omega), if_pos (by omega)]
    simp [h]
  · simp [Line.item, pyGet, h]
  · simp only [Line.item, pyGet]
    rw [if_neg (by omega), if_neg (by omega)]

/-- But cutting off the first bars is not seen by the minimum period: take away the warm-up of a line, so that all its bars are
values, and any operation on the rest hides the first `m - 1` of them, whatever the line. -/
theorem C94_back_negation {α γ : Type} {a : Line α} {n m : ℕ} {g : ℕ → α} (ha : RepW a n m g) (hn : m ≤ n) (f : α → α → γ) (fill : γ)
    (c : α) :
    (∀ i, i < n - (m - 1) → (a.slice (some ((m : Int) - 1)) none).series[i]? = some (g (i + (m - 1)))) ∧
      ∀ i, i + 1 < m → i < n - (m - 1) →
        (binopS f fill (a.slice (some ((m : Int) - 1)) none) c).series[i]? = some fill := by
  have hp := ha.pos
  have hs : a.slice (some ((m : Int) - 1)) none = ⟨tail n (m - 1) g, (m : Int)⟩ := by
    have h1 := pyFrom_tail ha (le_refl m)
    simp only [Line.slice, Option.getD_some, Option.getD_none, ha.mp]
    congr 1
    rw [← h1]
    simp only [pySlice, pyFrom, pyStart_nat, Nat.min_self, List.take_length]
  rw [hs]
  refine ⟨fun i hi => tail_get _ _ _ _ hi, fun i h1 h2 => ?_⟩
  simp only [binopS, clone, tail_length]
  have e : max (m : Int) 1 = (m : Int) := by omega
  rw [e]
  exact setFrom_get_pre hp _ h1 h2

/-- Non-vacuity. -/
example : ((⟨[.nan, .nan, .fin 1, .fin 2, .fin 3], 3⟩ : Line (Ext ℚ)).slice (some 2) none).mulS (.fin 1) =
    ⟨[.nan, .nan, .fin 3], 3⟩ := by decide +kernel

/-! ## C95 -/

/-- A result handed on as series or frame forgets its minimum period, but rolling windows show the same values: for a line which
is NaN in its warm-up (C86) and aggregations which are NaN if a value of the window is. -/
theorem C95_rolling_partial {a : Line V} {n m : ℕ} {g : ℕ → V} (ha : Rep nan a n m g) {w : ℕ} (hw : 1 ≤ w) (agg : List V → V)
    (hagg : ∀ l, nan ∈ l → agg l = nan) :
    (Line.rolling w agg a.viaFrame).series = (Line.rolling w agg a).series := by
  have hp := ha.pos
  have hf : RepW a.viaFrame n 1 (fun i => if i + 1 < m then nan else g i) := by
    refine ⟨ha.len, rfl, le_refl _, fun i _ h2 => ?_⟩
    show a.series[i]? = _
    by_cases h : i + 1 < m
    · rw [if_pos h, ha.pre i h h2]
    · rw [if_neg h, ha.val i (by omega) h2]
  have r1 := rep_rolling hw (agg := agg) hf
  have r2 := rep_rolling hw (agg := agg) ha.toRepW
  apply List.ext_getElem?
  intro i
  by_cases hn : i < n
  · by_cases h1 : i + 1 < 1 + w - 1
    · rw [r1.pre i h1 hn, r2.pre i (by omega) hn]
    · rw [r1.val i (by omega) hn]
      by_cases h2 : i + 1 < m + w - 1
      · rw [r2.pre i h2 hn, hagg]
        refine List.mem_map.2 ⟨0, List.mem_range.2 (by omega), ?_⟩
        exact if_pos (by omega)
      · rw [r2.val i (by omega) hn]
        congr 2
        unfold wnd
        apply List.map_congr_left
        intro j hj
        exact if_neg (by omega)
  · rw [List.getElem?_eq_none (by rw [r1.len]; omega), List.getElem?_eq_none (by rw [r2.len]; omega)]

/-- The same for element by element operators which are NaN if an operand is. -/
theorem C95_binop_partial {a b : Line V} {n m m' : ℕ} {g h : ℕ → V} (ha : Rep nan a n m g) (hb : Rep nan b n m' h)
    (f : V → V → V) (hf : ∀ x, f nan x = nan ∧ f x nan = nan) :
    (binop f nan a.viaFrame b.viaFrame).series = (binop f nan a b).series := by
  have fa : RepW a.viaFrame n 1 (fun i => if i + 1 < m then nan else g i) := by
    refine ⟨ha.len, rfl, le_refl _, fun i _ h2 => ?_⟩
    show a.series[i]? = _
    by_cases h : i + 1 < m
    · rw [if_pos h, ha.pre i h h2]
    · rw [if_neg h, ha.val i (by omega) h2]
  have fb : RepW b.viaFrame n 1 (fun i => if i + 1 < m' then nan else h i) := by
    refine ⟨hb.len, rfl, le_refl _, fun i _ h2 => ?_⟩
    show b.series[i]? = _
    by_cases h : i + 1 < m'
    · rw [if_pos h, hb.pre i h h2]
    · rw [if_neg h, hb.val i (by omega) h2]
  have r1 := rep_binop (f := f) (fill := nan) fa fb
  have r2 := rep_binop (f := f) (fill := nan) ha.toRepW hb.toRepW
  apply List.ext_getElem?
  intro i
  by_cases hn : i < n
  · rw [r1.val i (by omega) hn]
    by_cases h2 : i + 1 < max m m'
    · rw [r2.pre i h2 hn]
      by_cases h3 : i + 1 < m
      · rw [if_pos h3, (hf _).1]
      · rw [if_pos (show i + 1 < m' by omega), (hf _).2]
    · rw [r2.val i (by omega) hn, if_neg (by omega), if_neg (by omega)]
  · rw [List.getElem?_eq_none (by rw [r1.len]; omega), List.getElem?_eq_none (by rw [r2.len]; omega)]

/-- The minimum period differs for every line with a warm-up: the result claims to deliver `m - 1` bars earlier than it does. -/
theorem C95_minperiod_negation {a : Line V} {n m : ℕ} {g : ℕ → V} (ha : Rep nan a n m g) (hm : 2 ≤ m) {w : ℕ} (hw : 1 ≤ w)
    (hn : m + w - 1 ≤ n) (agg : List V → V) (hagg : ∀ l, nan ∈ l → agg l = nan) :
    (Line.rolling w agg a.viaFrame).minperiod = (w : Int) ∧ (Line.rolling w agg a).minperiod = (m : Int) + w - 1 ∧
      ∀ i, w ≤ i + 1 → i + 1 < m + w - 1 → (Line.rolling w agg a.viaFrame).series[i]? = some nan := by
  refine ⟨?_, ?_, ?_⟩
  · have : a.viaFrame.minperiod = 1 := rfl
    simp only [Line.rolling, clone, this]
    rw [if_neg (by omega)]
    omega
  · rw [(rep_rolling hw (agg := agg) ha.toRepW).mp]
    omega
  · intro i h1 h2
    rw [C95_rolling_partial ha hw agg hagg]
    exact (rep_rolling hw (agg := agg) ha.toRepW).pre i h2 (by omega)

/-- The aggregations of the library satisfy the condition, in exact arithmetic. -/
theorem C95_aggs {K : Type} [Field K] [LinearOrder K] [IsStrictOrderedRing K] (f : List (Ext K) → Ext K) (l : List (Ext K))
    (h : nan ∈ l) : whenAllFin f l = nan := by
  unfold whenAllFin
  rw [if_neg]
  intro hc
  have := List.all_eq_true.1 hc _ h
  cases this

/-- Exponential averages however change their values: the seed is taken from what happens to be there, e.g. an ema of 2 bars of an
average of 2 bars. -/
example : (Line.ewmMean ⟨2, 0, 0, .avg, 1⟩ (.fin (2/3)) (Line.rolling 2 aggMean (Line.ofSeries [Ext.fin (1 : ℚ), .fin 3, .fin 7, .fin 4]))).map
      Line.series = .ok [.nan, .nan, .fin (7/2), .fin (29/6)] ∧
    (Line.ewmMean ⟨2, 0, 0, .avg, 1⟩ (.fin (2/3)) (Line.rolling 2 aggMean (Line.ofSeries [Ext.fin (1 : ℚ), .fin 3, .fin 7, .fin 4])).viaFrame).map
      Line.series = .ok [.nan, .fin 2, .fin 4, .fin 5] := by decide +kernel

end Bta
