import Verif.Holder
import Verif.Props.Lines

/-!
# Properties of line operations: C05 - C08, C11, C12
-/

set_option linter.unusedSectionVars false

namespace Bta
open Line

variable {V : Type} [PyFloat V]

theorem Line.eq_of {α : Type} {a b : Line α} (h1 : a.series = b.series) (h2 : a.minperiod = b.minperiod) : a = b := by
  cases a; cases b; simp only at h1 h2; rw [h1, h2]

/-! ## C05: binary operations, bar by bar -/

/-- **C05**. `a op b` with two lines over the same bars: same length, minimum period the larger one, the value of each bar
from the minimum period on is the operation on the values of that bar, `fill` before. -/
theorem C05_binop {α β γ : Type} (f : α → β → γ) (fill : γ) (a : Line α) (b : Line β)
    (hlen : a.series.length = b.series.length) (ha : 1 ≤ a.minperiod) (hb : 1 ≤ b.minperiod) :
    (binop f fill a b).series.length = a.series.length ∧
    (binop f fill a b).minperiod = max a.minperiod b.minperiod ∧
    (∀ (i : ℕ) (hi : i < a.series.length), max a.minperiod b.minperiod ≤ (i : Int) + 1 →
      (binop f fill a b).series[i]? = some (f a.series[i] (b.series[i]'(hlen ▸ hi)))) ∧
    (∀ i : ℕ, i < a.series.length → (i : Int) + 1 < max a.minperiod b.minperiod →
      (binop f fill a b).series[i]? = some fill) := by
  obtain ⟨ma, hma⟩ := Int.eq_ofNat_of_zero_le (show 0 ≤ a.minperiod by omega)
  obtain ⟨mb, hmb⟩ := Int.eq_ofNat_of_zero_le (show 0 ≤ b.minperiod by omega)
  have hsz : (binop f fill a b).series.length = a.series.length := by
    unfold binop clone
    simp only
    rw [setFrom_len]
    simp only [List.length_zipWith, pyFrom_length, hlen, min_self]
  have hmp : (binop f fill a b).minperiod = max a.minperiod b.minperiod := by
    unfold binop clone; simp only; rw [if_neg (by omega)]
  refine ⟨hsz, hmp, ?_, ?_⟩
  · intro i hi hm
    have hne : Nonempty α := ⟨a.series[i]⟩
    have hne' : Nonempty β := ⟨b.series[i]'(hlen ▸ hi)⟩
    have r := rep_binop (f := f) (fill := fill) (RepW.self (m := ma) (Classical.arbitrary α) rfl hma (by omega))
      (RepW.self (m := mb) (Classical.arbitrary β) hlen.symm hmb (by omega))
    have := r.val i (by omega) hi
    rw [this]
    simp [List.getD_eq_getElem?_getD, hi, hlen ▸ hi]
  · intro i hi hm
    have hne : Nonempty α := ⟨a.series[i]⟩
    have hne' : Nonempty β := ⟨b.series[i]'(hlen ▸ hi)⟩
    have r := rep_binop (f := f) (fill := fill) (RepW.self (m := ma) (Classical.arbitrary α) rfl hma (by omega))
      (RepW.self (m := mb) (Classical.arbitrary β) hlen.symm hmb (by omega))
    exact r.pre i (by omega) hi

/-- **C05** with a scalar: the scalar is used at each bar. -/
theorem C05_binop_scalar {α β γ : Type} (f : α → β → γ) (fill : γ) (a : Line α) (c : β) (ha : 1 ≤ a.minperiod) :
    (binopS f fill a c).series.length = a.series.length ∧
    (binopS f fill a c).minperiod = a.minperiod ∧
    (∀ (i : ℕ) (hi : i < a.series.length), a.minperiod ≤ (i : Int) + 1 →
      (binopS f fill a c).series[i]? = some (f a.series[i] c)) ∧
    (∀ i : ℕ, i < a.series.length → (i : Int) + 1 < a.minperiod → (binopS f fill a c).series[i]? = some fill) := by
  obtain ⟨ma, hma⟩ := Int.eq_ofNat_of_zero_le (show 0 ≤ a.minperiod by omega)
  have hsz : (binopS f fill a c).series.length = a.series.length := by
    unfold binopS clone
    simp only
    rw [setFrom_len]
    simp only [List.length_map, pyFrom_length]
  have hmp : (binopS f fill a c).minperiod = a.minperiod := by
    unfold binopS clone; simp only; rw [if_neg (by omega)]; omega
  refine ⟨hsz, hmp, ?_, ?_⟩
  · intro i hi hm
    have hne : Nonempty α := ⟨a.series[i]⟩
    have r := rep_binopS (f := f) (fill := fill) (c := c)
      (RepW.self (m := ma) (Classical.arbitrary α) rfl hma (by omega))
    rw [r.val i (by omega) hi]
    simp [List.getD_eq_getElem?_getD, hi]
  · intro i hi hm
    have hne : Nonempty α := ⟨a.series[i]⟩
    have r := rep_binopS (f := f) (fill := fill) (c := c)
      (RepW.self (m := ma) (Classical.arbitrary α) rfl hma (by omega))
    exact r.pre i (by omega) hi

/-- C05, a case: lines with minimum periods 1 and 2 -/
example : (⟨[.fin 1, .fin 2, .fin 5], 1⟩ : Line (Ext ℚ)) - ⟨[.nan, .fin 7, .fin 1], 2⟩ =
    ⟨[.nan, .fin (-5), .fin 4], 2⟩ := by decide +kernel

/-! ## C65: comparisons where they are delivered -/

/-- **C65** (partial: the bars from the minimum period on; before, the claim is false, `C65_comparison_warmup_true`).
Where a comparison of two lines is delivered it reports True exactly if it holds between the values of this bar; hence
nothing is wrong if both have minimum period 1. -/
theorem C65_delivered_partial (f : V → V → Bool) (a b : Line V) (hlen : a.series.length = b.series.length)
    (ha : 1 ≤ a.minperiod) (hb : 1 ≤ b.minperiod) :
    (∀ (i : ℕ) (hi : i < a.series.length), (Line.cmp f a b).minperiod ≤ (i : Int) + 1 →
      ((Line.cmp f a b).series[i]? = some true ↔ f a.series[i] (b.series[i]'(hlen ▸ hi)) = true)) ∧
    (a.minperiod = 1 → b.minperiod = 1 → ∀ (i : ℕ) (hi : i < a.series.length),
      ((Line.cmp f a b).series[i]? = some true ↔ f a.series[i] (b.series[i]'(hlen ▸ hi)) = true)) := by
  obtain ⟨-, h2, h3, -⟩ := C05_binop f true a b hlen ha hb
  have key : ∀ (i : ℕ) (hi : i < a.series.length), (Line.cmp f a b).minperiod ≤ (i : Int) + 1 →
      ((Line.cmp f a b).series[i]? = some true ↔ f a.series[i] (b.series[i]'(hlen ▸ hi)) = true) := by
    intro i hi hm
    have hm' : (binop f true a b).minperiod ≤ (i : Int) + 1 := hm
    have := h3 i hi (by rw [← h2]; exact hm')
    show (binop f true a b).series[i]? = some true ↔ _
    rw [this, Option.some.injEq]
  refine ⟨key, fun h h' i hi => key i hi ?_⟩
  show (binop f true a b).minperiod ≤ _
  rw [h2]; omega

/-- **C65** (negation, any operands). Whatever the lines compared, and whatever the comparison, each bar before the minimum period of
the result is `True`. -/
theorem C65_any_warmup_true (f : V → V → Bool) (a b : Line V) (hlen : a.series.length = b.series.length)
    (ha : 1 ≤ a.minperiod) (hb : 1 ≤ b.minperiod) (i : ℕ) (hi : i < a.series.length) (hm : (i : Int) + 1 < (Line.cmp f a b).minperiod) :
    (Line.cmp f a b).series[i]? = some true := by
  obtain ⟨-, h2, -, h4⟩ := C05_binop f true a b hlen ha hb
  have hm' : (i : Int) + 1 < (binop f true a b).minperiod := hm
  exact h4 i hi (by rw [← h2]; exact hm')

/-- C65, a case: `x < x` holds in no bar, with x delayed by two bars it is reported in the first two nevertheless -/
example : Line.ltL (Line.shift 2 (ofSeries [.fin 1, .fin 2, .fin 3, (.fin 4 : Ext ℚ)]))
      (Line.shift 2 (ofSeries [.fin 1, .fin 2, .fin 3, (.fin 4 : Ext ℚ)])) = ⟨[true, true, false, false], 3⟩ ∧
    Line.ltL (ofSeries [.fin 1, .fin 2, (.fin 3 : Ext ℚ)]) (ofSeries [.fin 2, .fin 2, (.fin 2 : Ext ℚ)]) =
      ⟨[true, false, false], 1⟩ := by
  constructor <;> decide +kernel

/-! ## C06: swapping operands -/

/-- **C06** (partial: two lines, or an indicator with one output, which is the same thing). Swapping the operands of a
symmetric operation changes nothing. -/
theorem C06_swap_partial {α γ : Type} (f : α → α → γ) (hf : ∀ x y, f x y = f y x) (fill : γ) (a b : Line α)
    (hlen : a.series.length = b.series.length) (ha : 1 ≤ a.minperiod) (hb : 1 ≤ b.minperiod) :
    a.op f fill (.line b) = b.op f fill (.line a) := by
  obtain ⟨l1, m1, v1, w1⟩ := C05_binop f fill a b hlen ha hb
  obtain ⟨l2, m2, v2, w2⟩ := C05_binop f fill b a hlen.symm hb ha
  unfold Line.op
  have hm : (binop f fill a b).minperiod = (binop f fill b a).minperiod := by rw [m1, m2, max_comm]
  have hs : (binop f fill a b).series = (binop f fill b a).series := by
    apply List.ext_getElem?
    intro i
    by_cases hi : i < a.series.length
    · by_cases hc : max a.minperiod b.minperiod ≤ (i : Int) + 1
      · rw [v1 i hi hc, v2 i (hlen ▸ hi) (by rw [max_comm]; exact hc), hf]
      · rw [w1 i hi (by omega), w2 i (hlen ▸ hi) (by omega)]
    · rw [List.getElem?_eq_none (by omega), List.getElem?_eq_none (by omega)]
  exact Line.eq_of hs hm

/-- **C06** (partial: a line and an indicator none of whose outputs is slower than both its first output and the line, in
particular any indicator with a single output).  The operands can be swapped. -/
theorem C06_holder_partial {α γ : Type} (f : α → α → γ) (hf : ∀ x y, f x y = f y x) (fill : γ) (x first : Line α)
    (rest : List (Line α)) (hlen : x.series.length = first.series.length) (hx : 1 ≤ x.minperiod)
    (hl : 1 ≤ first.minperiod) (hr : ∀ o ∈ rest, o.minperiod ≤ max first.minperiod x.minperiod) :
    x.op f fill (.holder (.ofOutputs first rest)) = (Holder.ofOutputs first rest).op f fill (.line x) := by
  have hle : ∀ (l : List (Line α)) (m M : Int), m ≤ M → (∀ o ∈ l, o.minperiod ≤ M) →
      m ≤ l.foldl (fun m l => max m l.minperiod) m ∧ l.foldl (fun m l => max m l.minperiod) m ≤ M := by
    intro l
    induction l with
    | nil => intro m M h _; exact ⟨le_refl _, h⟩
    | cons o l ih =>
      intro m M h ho
      have h1 := ho o (by simp)
      obtain ⟨h2, h3⟩ := ih (max m o.minperiod) M (by omega) (fun o' ho' => ho o' (by simp [ho']))
      simp only [List.foldl_cons]
      exact ⟨by omega, h3⟩
  obtain ⟨b1, b2⟩ := hle rest first.minperiod (max first.minperiod x.minperiod) (by omega) hr
  have hmax : max x.minperiod (rest.foldl (fun m l => max m l.minperiod) first.minperiod) =
      max x.minperiod first.minperiod := by omega
  have hs : x.op f fill (.holder (.ofOutputs first rest)) = x.op f fill (.line first) := by
    have e : ∀ o : Line α, o.series = first.series → max x.minperiod o.minperiod = max x.minperiod first.minperiod →
        binop f fill x o = binop f fill x first := by
      intro o h1 h2
      unfold binop
      simp only [h1, h2]
    exact e ⟨first.series, _⟩ rfl hmax
  rw [hs]
  exact C06_swap_partial f hf fill x first hlen hx hl

/-- C06, a case: an indicator with one output -/
example : (ofSeries [.fin 1, .fin 1, (.fin 1 : Ext ℚ)]).op (· + ·) nan
      (.holder (.ofOutputs ⟨[.nan, .fin 1, .fin 2], 2⟩ [])) =
    (Holder.ofOutputs (⟨[.nan, .fin 1, .fin 2], 2⟩ : Line (Ext ℚ)) []).op (· + ·) nan
      (.line (ofSeries [.fin 1, .fin 1, .fin 1])) ∧
    ((Holder.ofOutputs (⟨[.nan, .fin 1, .fin 2], 2⟩ : Line (Ext ℚ)) []).op (· + ·) nan
      (.line (ofSeries [.fin 1, .fin 1, .fin 1]))) = ⟨[.nan, .fin 2, .fin 3], 2⟩ := by
  constructor <;> decide +kernel

/-- **C06** (negation). With an indicator with several outputs to the right the minimum period is that of the slowest
output, although only the first output takes part: whenever some other output is slower than the first one and than `x`,
`x + ind` and `ind + x` differ. -/
theorem C06_swap_fails (x first : Line V) (rest : List (Line V))
    (h : max first.minperiod x.minperiod < (Holder.ofOutputs first rest).minperiod)
    (h1 : 1 ≤ first.minperiod) (h2 : 1 ≤ x.minperiod) (f : V → V → V) :
    (x.op f nan (.holder (.ofOutputs first rest))).minperiod ≠
      ((Holder.ofOutputs first rest).op f nan (.line x)).minperiod := by
  have e1 : (x.op f nan (.holder (.ofOutputs first rest))).minperiod =
      max x.minperiod (Holder.ofOutputs first rest).minperiod := by
    unfold Line.op binop clone; simp only; rw [if_neg (by omega)]
  have e2 : ((Holder.ofOutputs first rest).op f nan (.line x)).minperiod = max first.minperiod x.minperiod := by
    unfold Holder.op Line.op binop clone; simp only
    rw [if_neg (by omega)]
    rfl
  rw [e1, e2]
  omega

/-- C06, a case: as in `x + macd` (26, 34, 34 bars), scaled down to minimum periods 1, 2, 3 -/
example : max (⟨[.nan, .fin 1, .fin 2], 2⟩ : Line (Ext ℚ)).minperiod (ofSeries [.fin 1, .fin 1, (.fin 1 : Ext ℚ)]).minperiod
    < (Holder.ofOutputs (⟨[.nan, .fin 1, .fin 2], 2⟩ : Line (Ext ℚ)) [⟨[.nan, .nan, .fin 2], 3⟩]).minperiod := by
  decide +kernel

/-! ## C07: using a window object again -/

theorem WinObj.uses_mp {α : Type} (w : ℕ) (hw : 1 ≤ w) (agg : List α → V) :
    ∀ (k : ℕ) (o : WinObj α), o.pval = some w → o.seeded = false → 1 ≤ o.minperiod →
      ∀ j < k, ∃ r, (o.uses w agg k)[j]? = some r ∧ r.minperiod = o.minperiod + (j + 1 : ℕ) * ((w : Int) - 1) := by
  intro k
  induction k with
  | zero => intro o _ _ _ j hj; omega
  | succ k ih =>
    intro o h1 h2 h3 j hj
    have hmp : (o.use w agg).2.minperiod = o.minperiod + ((w : Int) - 1) := by
      unfold WinObj.use; simp only [h1, h2]; rw [if_neg (by simp)]; omega
    cases j with
    | zero =>
      refine ⟨_, rfl, ?_⟩
      unfold WinObj.use clone; simp only [h1, h2, Bool.false_eq_true, if_false]
      rw [if_neg (by omega)]
      omega
    | succ j =>
      obtain ⟨r, hr, hm⟩ := ih (o.use w agg).2 h1 h2 (by rw [hmp]; omega) j (by omega)
      refine ⟨r, hr, ?_⟩
      rw [hm, hmp]; push_cast; ring

/-- **C07** (negation). The `j+1`-th result got from one and the same `rolling(window=w)` object declares
`(j+1)(w-1)` bars more than the line; only the first one is right. -/
theorem C07_reuse_inflates {α : Type} (w : ℕ) (hw : 1 ≤ w) (agg : List α → V) (a : Line α) (ha : 1 ≤ a.minperiod)
    (k j : ℕ) (hj : j < k) :
    ∃ r, ((WinObj.rolling w a).uses w agg k)[j]? = some r ∧
      r.minperiod = a.minperiod + (j + 1 : ℕ) * ((w : Int) - 1) :=
  WinObj.uses_mp w hw agg k (WinObj.rolling w a) rfl rfl ha j hj

/-- **C07** (negation): the second result from an object differs from the result of a fresh object for each window of at
least two bars. -/
theorem C07_second_use_differs {α : Type} (w : ℕ) (hw : 2 ≤ w) (agg : List α → V) (a : Line α) (ha : 1 ≤ a.minperiod) :
    ∃ r, ((WinObj.rolling w a).uses w agg 2)[1]? = some r ∧ r ≠ (rolling w agg a) := by
  obtain ⟨r, h1, h2⟩ := C07_reuse_inflates w (by omega) agg a ha 2 1 (by omega)
  refine ⟨r, h1, fun h => ?_⟩
  have : (rolling w agg a).minperiod = a.minperiod + w - 1 := by
    unfold rolling clone; simp only; rw [if_neg (by omega)]; omega
  rw [h, this] at h2
  push_cast at h2
  omega

/-- **C07** (partial): the first use, i.e. one object per operation, gives the fresh result. -/
theorem C07_first_use_partial {α : Type} (w : ℕ) (agg : List α → V) (a : Line α) :
    ((WinObj.rolling w a).uses w agg 1) = [rolling w agg a] := rfl

/-! ## C08: shifting forwards -/

/-- **C08** (negation). Let `y = x(+k)` be a line shifted forwards by `k ≥ 1` bars, of data of `n` bars: the minimum
period is `1 - k ≤ 0`. -/
theorem C08_forward_minperiod (xs : List V) (k : ℕ) (hk : 1 ≤ k) :
    ((ofSeries xs).ago k).minperiod = 1 - (k : Int) := by
  unfold ago shift stdop clone ofSeries; simp only
  rw [if_neg (by omega)]
  simp only [one_ne_zero, if_false]; omega

/-- **C08** (limit). `x(0)` is not `x`: it is a line of NaN of the same length with the minimum period of `x`. -/
theorem C08_zero_is_nan (a : Line V) : a.ago 0 = ⟨List.replicate a.series.length nan, a.minperiod⟩ := by
  simp [ago, clone]

/-- **C08** (negation). An element-wise operation on `x(+1)` destroys all bars but the last one, whatever the data. -/
theorem C08_forward_shift_lost (xs : List V) (f : V → V) (i : ℕ) (hi : i + 1 < xs.length) :
    (((ofSeries xs).ago 1).mapOp f).series[i]? = some nan := by
  have hm : ((ofSeries xs).ago 1).minperiod = 0 := C08_forward_minperiod xs 1 (le_refl _)
  have hl : ((ofSeries xs).ago 1).series.length = xs.length := by
    unfold ago shift stdop clone ofSeries; simp only
    rw [if_neg (by decide)]; simp only
    rw [setFrom_len]
    simp [pyFrom, pyStart, shiftL]
    omega
  unfold mapOp stdop clone
  simp only [hm, hl]
  unfold setFrom
  rw [List.getElem?_append_left]
  · simp only [List.getElem?_replicate]
    rw [if_pos]
    simp only [pyStart]; rw [if_neg (by decide)]; omega
  · simp only [List.length_replicate, pyStart]; rw [if_neg (by decide)]; omega

/-- C08, a case: the data of the shifted line are there, `abs` loses them -/
example : ((ofSeries [.fin 1, .fin 2, (.fin 3 : Ext ℚ)]).ago 1).series = [.fin 2, .fin 3, .nan] ∧
    ((ofSeries [.fin 1, .fin 2, (.fin 3 : Ext ℚ)]).ago 1).abs = ⟨[.nan, .nan, .nan], 0⟩ := by decide +kernel

/-- **C08** (partial: backwards). `x(-k)` has the value of `k` bars ago at each bar and needs `k` bars more. -/
theorem C08_backward_partial (a : Line V) (ha : 1 ≤ a.minperiod) (k : ℕ) (hk : 1 ≤ k) :
    (a.ago (-(k : Int))).minperiod = a.minperiod + k ∧ (a.ago (-(k : Int))).series.length = a.series.length ∧
    ∀ i : ℕ, ∀ hi : i < a.series.length, a.minperiod + k ≤ (i : Int) + 1 →
      (a.ago (-(k : Int))).series[i]? = some a.series[i - k] := by
  obtain ⟨ma, hma⟩ := Int.eq_ofNat_of_zero_le (show 0 ≤ a.minperiod by omega)
  have r := rep_ago (s := k) hk (RepW.self (m := ma) nan rfl hma (by omega))
  refine ⟨by rw [r.mp, hma]; push_cast; ring, r.len, ?_⟩
  intro i hi hm
  rw [r.val i (by omega) hi]
  simp [List.getD_eq_getElem?_getD, show i - k < a.series.length by omega]

/-! ## C11: scipy or not -/

section C11
variable {K : Type} [Field K] [LinearOrder K] [IsStrictOrderedRing K]

theorem Ext.add_comm' (a b : Ext K) : a + b = b + a := by
  cases a <;> cases b <;> try rfl
  simp [add_comm]

theorem lfilterGo_eq_smAccGo (al be : Ext K) : ∀ (xs : List (Ext K)) (y : Ext K),
    lfilterGo al be y xs = smAccGo al be y xs := by
  intro xs
  induction xs with
  | nil => intro y; rfl
  | cons x xs ih => intro y; simp only [lfilterGo, smAccGo, ih, Ext.add_comm' (al * x)]

/-- **C11**. A smoothing delivers the same with and without scipy (exact arithmetic), for any smoothing factor other
than 0, any factor for the old value and any data, including nan and infinities. -/
theorem C11_scipy_same (al : K) (hal : al ≠ 0) (be : Option K) (t : List (Ext K)) :
    lfilter true (.fin al) (be.map .fin) t = lfilter false (.fin al) (be.map .fin) t := by
  have hb : ∃ b, betaOf (Ext.fin al) (be.map .fin) = Ext.fin b := by
    cases be with
    | none => exact ⟨1 - al, by simp [betaOf]⟩
    | some b =>
      by_cases h : b = 0
      · exact ⟨1 - al, by simp [betaOf, h]⟩
      · exact ⟨b, by simp [betaOf, h]⟩
  obtain ⟨b, hb⟩ := hb
  cases t with
  | nil => rfl
  | cons x xs =>
    simp only [lfilter, if_true, Bool.false_eq_true, if_false, spLfilter, smAcc, hb, lfilterGo]
    have : Ext.fin al * (x / Ext.fin al) + Ext.fin b * lit 0 = x := by
      cases x with
      | fin x => simp only [Ext.fin_div x hal, Ext.lit_def, Ext.fin_mul, Ext.fin_add, Ext.fin_inj]; push_cast; field_simp; ring
      | nan => rfl
      | pinf => 
        rcases lt_or_gt_of_ne hal with h | h
        · simp [h, Ext.infSign_pos, Ext.infSign_neg]
        · simp [h, not_lt.mpr h.le, Ext.infSign_pos, Ext.infSign_neg]
      | ninf => 
        rcases lt_or_gt_of_ne hal with h | h
        · simp [h, Ext.infSign_pos, Ext.infSign_neg]
        · simp [h, not_lt.mpr h.le, Ext.infSign_pos, Ext.infSign_neg]
    rw [this, lfilterGo_eq_smAccGo]

end C11

/-! ## C12: too short inputs -/

/-- programs without exponential smoothing -/
def Expr.noEwm : {ty : Ty} → Expr V ty → Bool
  | _, .input _ => true
  | _, .arith _ a b => a.noEwm && b.noEwm
  | _, .arithS _ a _ => a.noEwm
  | _, .cmp _ a b => a.noEwm && b.noEwm
  | _, .cmpS _ a _ => a.noEwm
  | _, .logic _ a b => a.noEwm && b.noEwm
  | _, .arithB _ a b => a.noEwm && b.noEwm
  | _, .arithBS _ a _ => a.noEwm
  | _, .shift _ a => a.noEwm
  | _, .diff _ a => a.noEwm
  | _, .pct _ a => a.noEwm
  | _, .map _ a => a.noEwm
  | _, .map2 _ a b => a.noEwm && b.noEwm
  | _, .cumsum a => a.noEwm
  | _, .ffill a => a.noEwm
  | _, .replaceZero a => a.noEwm
  | _, .rolling _ _ a => a.noEwm
  | _, .ewm _ _ _ _ => false
  | _, .lfilter _ _ _ _ _ _ => false

/-- **C12** (partial: programs without exponential smoothing). Such a program never raises, whatever the number of bars:
an input shorter than the minimum period gives a line of the same length, all nan. -/
theorem C12_short_input_partial (e : Expr V .flt) (he : e.noEwm = true) (n : ℕ) (data : ℕ → List V)
    (hn : ∀ k, (data k).length = n) (hshort : n < e.need) :
    ∃ r, e.eval (fun k => Line.ofSeries (data k)) = .ok r ∧ r.series = List.replicate n nan := by
  have key : ∀ {ty : Ty} (e : Expr V ty), e.noEwm = true →
      ∃ r, e.eval (fun k => Line.ofSeries (data k)) = .ok r := by
    intro ty e
    induction e with
    | input k => intro _; exact ⟨_, rfl⟩
    | ewm => intro h; cases h
    | lfilter => intro h; cases h
    | arith _ _ _ iha ihb => 
      intro h; simp only [Expr.noEwm, Bool.and_eq_true] at h
      obtain ⟨ra, ha⟩ := iha h.1; obtain ⟨rb, hb⟩ := ihb h.2
      exact ⟨_, by simp only [Expr.eval, ha, hb]; rfl⟩
    | cmp _ _ _ iha ihb => 
      intro h; simp only [Expr.noEwm, Bool.and_eq_true] at h
      obtain ⟨ra, ha⟩ := iha h.1; obtain ⟨rb, hb⟩ := ihb h.2
      exact ⟨_, by simp only [Expr.eval, ha, hb]; rfl⟩
    | logic _ _ _ iha ihb => 
      intro h; simp only [Expr.noEwm, Bool.and_eq_true] at h
      obtain ⟨ra, ha⟩ := iha h.1; obtain ⟨rb, hb⟩ := ihb h.2
      exact ⟨_, by simp only [Expr.eval, ha, hb]; rfl⟩
    | arithB _ _ _ iha ihb => 
      intro h; simp only [Expr.noEwm, Bool.and_eq_true] at h
      obtain ⟨ra, ha⟩ := iha h.1; obtain ⟨rb, hb⟩ := ihb h.2
      exact ⟨_, by simp only [Expr.eval, ha, hb]; rfl⟩
    | map2 _ _ _ iha ihb => 
      intro h; simp only [Expr.noEwm, Bool.and_eq_true] at h
      obtain ⟨ra, ha⟩ := iha h.1; obtain ⟨rb, hb⟩ := ihb h.2
      exact ⟨_, by simp only [Expr.eval, ha, hb]; rfl⟩
    | _ =>
      rename_i iha
      intro h; obtain ⟨ra, ha⟩ := iha h
      exact ⟨_, by simp only [Expr.eval, ha]; rfl⟩
  obtain ⟨r, hr⟩ := key e he
  refine ⟨r, hr, ?_⟩
  have hl := C02_length e n data hn r hr
  have hm := C04_minperiod e n data hn r hr
  apply List.ext_getElem?
  intro i
  by_cases hi : i < n
  · rw [C03_warmup_nan e n data hn r hr i hi (by rw [hm]; omega)]
    simp [List.getElem?_replicate, hi]
  · rw [List.getElem?_eq_none (by omega), List.getElem?_eq_none (by simp; omega)]

/-- **C12** (negation). An exponential smoothing of any line with fewer bars than needed raises an IndexError. -/
theorem C12_ewm_short_raises (a : Line V) (ha : 1 ≤ a.minperiod) (p : ℕ) (hp : 1 ≤ p) (al : V)
    (hshort : (a.series.length : Int) < a.minperiod + p - 1) (seed : Seed)
    (hs : seed ≠ .none ∧ seed ≠ .zfill) :
    ewmMean { pval := (p : Int), seed := seed } al a = .error .indexError := by
  have hg : EwmGood { pval := (p : Int), seed := seed } a.minperiod := ewmGood_std hp ha
  cases hn : ewmNew { pval := (p : Int), seed := seed } a with
  | ok o =>
    have := ewmNew_of_ok hg hn hs
    have h2 : EwmCfg.p2 { pval := (p : Int), seed := seed } a.minperiod = a.minperiod - 1 + p := by
      unfold EwmCfg.p2
      simp only [ne_eq, not_true_eq_false, if_false]
      rw [if_neg (by omega)]; omega
    rw [h2] at this
    omega
  | error e =>
    unfold ewmMean
    rw [hn]
    unfold ewmNew at hn
    simp only at hn
    cases hq : ewmPrefix a seed
      (EwmCfg.p2 { pval := (p : Int), seed := seed } a.minperiod - p)
      (EwmCfg.p2 { pval := (p : Int), seed := seed } a.minperiod - 1)
      (EwmCfg.p2 { pval := (p : Int), seed := seed } a.minperiod) with
    | ok q => rw [hq] at hn; cases hn
    | error e' =>
      rw [hq] at hn
      injection hn with hn
      have : e' = .indexError := by
        unfold ewmPrefix at hq
        cases seed <;> simp only at hq
        all_goals (try exact absurd rfl hs.1)
        all_goals (try exact absurd rfl hs.2)
        all_goals (repeat' split at hq)
        all_goals (first | (injection hq with hq; exact hq.symm) | cases hq)
      rw [← hn, this]

/-- C12, a case: two bars, smoothing over three -/
example : ewmMean { pval := 3 } (.fin (1 / 2)) (ofSeries [.fin 1, (.fin 2 : Ext ℚ)]) = .error .indexError :=
  C12_ewm_short_raises (ofSeries [.fin 1, (.fin 2 : Ext ℚ)]) (by decide) 3 (by decide) (.fin (1 / 2)) (by decide) .avg (by decide)

/-! ## non-vacuity for C01 - C04, C65 -/

/-- mean over two bars of the difference between input 0 and the previous value of input 1, then a smoothed average -/
def exProg : Expr (Ext ℚ) .flt :=
  .ewm 1 ⟨.avg, by decide⟩ (.fin (1 / 2)) (.rolling 1 aggMean (.arith (· - ·) (.input 0) (.shift 1 (.input 1))))

example : exProg.eval (fun k => ofSeries (if k = 0 then [.fin 1, .fin 2, .fin 5, .fin 3, .fin 6] else
    [.fin 1, .fin 1, .fin 2, .fin 9, .fin 3])) = .ok ⟨[.nan, .nan, .nan, .fin (5 / 2), .fin (3 / 4)], 4⟩ := by
  decide +kernel

example : (Expr.cmpS (fun x y => lt x y) exProg (.fin 2)).eval (fun k => ofSeries (if k = 0 then
    [.fin 1, .fin 2, .fin 5, .fin 3, .fin 6] else [.fin 1, .fin 1, .fin 2, .fin 9, .fin 3])) =
    .ok ⟨[true, true, true, false, true], 4⟩ := by decide +kernel

end Bta
