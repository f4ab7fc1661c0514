import Verif.LineStd
import Verif.Lemmas.Causal
import Verif.Lemmas.Cum
import Mathlib.Tactic.IntervalCases

/-!
# C105: operations which select bars; C106: operations which fill, cumulate or rank
-/

set_option linter.unusedSectionVars false
set_option linter.unusedVariables false

namespace Spec
open Bta

/-- the delivered bars of a line with minimum period `m` -/
def deliveredBars {α : Type} (m : ℕ) (a : Line α) : List α := a.series.drop (m - 1)

/-- the line with `fill` in the warm-up and `r` from there on -/
def withBars {α β : Type} (m : ℕ) (a : Line β) (fill : α) (r : List α) : Line α :=
  ⟨List.replicate (min (m - 1) a.series.length) fill ++ r, m⟩

end Spec

namespace Bta
open Line
open Spec (deliveredBars withBars)

variable {V α β γ : Type} [PyFloat V]

section select
variable {a : Line V} {m : ℕ}

theorem pyFrom_pos (xs : List α) {m : ℕ} (h1 : 1 ≤ m) : pyFrom xs ((m : Int) - 1) = xs.drop (m - 1) := by
  unfold pyFrom
  rw [pyStart_pred _ h1]
  by_cases h : m - 1 ≤ xs.length
  · rw [min_eq_left h]
  · rw [min_eq_right (by omega), List.drop_eq_nil_of_le (le_refl _), List.drop_eq_nil_of_le (by omega)]

/-- **C105** whatever the operation: its result is stored from the minimum period on, in the order it has, if it has as many bars as are
delivered; otherwise ValueError. -/
theorem C105_any (g : List α → List β) (fill : β) {a : Line α} (ha : a.minperiod = m) (h1 : 1 ≤ m) :
    ((g (deliveredBars m a)).length = (deliveredBars m a).length → stdopE g fill a = .ok (withBars m a fill (g (deliveredBars m a)))) ∧
    ((g (deliveredBars m a)).length ≠ (deliveredBars m a).length → stdopE g fill a = .error .valueError) := by
  unfold stdopE stdop
  simp only [ha, pyFrom_pos _ h1]
  rw [clone_mp_pos h1]
  unfold setFrom
  rw [pyStart_pred _ h1]
  refine ⟨fun h => ?_, fun h => if_neg h⟩
  unfold deliveredBars at h
  rw [if_pos h]
  unfold withBars deliveredBars
  simp

/-- **C105** `head(k)`: the line, if there are not more than `k` bars delivered; otherwise ValueError -/
theorem C105_head (k : ℕ) (ha : a.minperiod = m) (h1 : 1 ≤ m) : headOp k a =
    if (deliveredBars m a).length ≤ k then .ok (withBars m a nan (deliveredBars m a)) else .error .valueError := by
  obtain ⟨h2, h3⟩ := C105_any (headL k) nan ha h1
  unfold headOp
  by_cases h : (deliveredBars m a).length ≤ k
  · rw [if_pos h, h2 (by simp [headL]; omega)]
    unfold headL
    rw [List.take_of_length_le h]
  · rw [if_neg h, h3 (by simp [headL]; omega)]

/-- **C105** `tail(k)` -/
theorem C105_tail (k : ℕ) (ha : a.minperiod = m) (h1 : 1 ≤ m) : tailOp k a =
    if (deliveredBars m a).length ≤ k then .ok (withBars m a nan (deliveredBars m a)) else .error .valueError := by
  obtain ⟨h2, h3⟩ := C105_any (tailL k) nan ha h1
  unfold tailOp
  by_cases h : (deliveredBars m a).length ≤ k
  · rw [if_pos h, h2 (by simp [tailL]; omega)]
    unfold tailL
    rw [Nat.sub_eq_zero_of_le h, List.drop_zero]
  · rw [if_neg h, h3 (by simp only [tailL, List.length_drop]; omega)]

/-- **C105** `dropna()`: the line, if nothing is missing; otherwise ValueError -/
theorem C105_dropna (ha : a.minperiod = m) (h1 : 1 ≤ m) : dropna a =
    if ∀ x ∈ deliveredBars m a, isNaN x = false then .ok (withBars m a nan (deliveredBars m a)) else .error .valueError := by
  obtain ⟨h2, h3⟩ := C105_any dropnaL nan ha h1
  unfold dropna
  by_cases h : ∀ x ∈ deliveredBars m a, isNaN x = false
  · have e : dropnaL (deliveredBars m a) = deliveredBars m a := by
      unfold dropnaL; rw [List.filter_eq_self]; intro x hx; rw [h x hx]; rfl
    rw [if_pos h, h2 (by rw [e]), e]
  · rw [if_neg h, h3]
    intro e
    unfold dropnaL at e
    rw [List.length_filter_eq_length_iff] at e
    exact h fun x hx => by simpa using e x hx

theorem duplicatedGo_length (seen xs : List V) : (duplicatedGo seen xs).length = xs.length := by
  induction xs generalizing seen with
  | nil => rfl
  | cons x xs ih => simp [duplicatedGo, ih]

theorem duplicatedGo_false (xs : List V) : ∀ seen : List V, (∀ b ∈ duplicatedGo seen xs, b = false) ↔
    (∀ y ∈ seen, ∀ x ∈ xs, sameV y x = false) ∧ xs.Pairwise (fun y x => sameV y x = false) := by
  induction xs with
  | nil => intro seen; simp [duplicatedGo]
  | cons x xs ih =>
    intro seen
    simp only [duplicatedGo, List.mem_cons, forall_eq_or_imp, ih, List.any_eq_false, List.pairwise_cons, Bool.not_eq_true]
    constructor
    · rintro ⟨h1, ⟨h2, h3⟩, h4⟩
      exact ⟨fun y hy => ⟨h1 y hy, h3 y hy⟩, h2, h4⟩
    · rintro ⟨h1, h2, h4⟩
      exact ⟨fun y hy => (h1 y hy).1, ⟨h2, fun y hy => (h1 y hy).2⟩, h4⟩

/-- **C105** `drop_duplicates()`: the line, if no two values are the same; otherwise ValueError -/
theorem C105_drop_duplicates (ha : a.minperiod = m) (h1 : 1 ≤ m) :
    ((deliveredBars m a).Pairwise (fun x y => sameV x y = false) → dropDuplicates a = .ok (withBars m a nan (deliveredBars m a))) ∧
    (¬ (deliveredBars m a).Pairwise (fun x y => sameV x y = false) → dropDuplicates a = .error .valueError) := by
  obtain ⟨h2, h3⟩ := C105_any dropDuplicatesL nan ha h1
  generalize deliveredBars m a = D at *
  have hl := duplicatedGo_length [] D
  have key := duplicatedGo_false D []
  simp only [List.not_mem_nil, false_implies, implies_true, true_and] at key
  have hz : (List.zip D (duplicatedL D)).length = D.length := by unfold duplicatedL; simp [hl]
  have hall : (∀ b ∈ duplicatedL D, b = false) ↔ ∀ p ∈ List.zip D (duplicatedL D), (!p.2) = true := by
    constructor
    · intro h p hp
      rw [h p.2 (List.of_mem_zip hp).2]; rfl
    · intro h b hb
      obtain ⟨i, hi, e⟩ := List.getElem_of_mem hb
      have hi' : i < (List.zip D (duplicatedL D)).length := by rw [hz]; unfold duplicatedL at hi; omega
      have := h _ (List.getElem_mem hi')
      rw [List.getElem_zip] at this
      simp only [e] at this
      simpa using this
  constructor
  · intro h
    have h4 : ∀ p ∈ List.zip D (duplicatedL D), (!p.2) = true := hall.mp (key.mpr h)
    have e : dropDuplicatesL D = D := by
      unfold dropDuplicatesL
      rw [List.filter_eq_self.mpr h4, List.map_fst_zip]
      unfold duplicatedL; omega
    unfold dropDuplicates
    rw [h2 (by rw [e]), e]
  · intro h
    unfold dropDuplicates
    refine h3 fun e => h ?_
    unfold dropDuplicatesL at e
    rw [List.length_map, ← hz, List.length_filter_eq_length_iff] at e
    exact key.mp (hall.mpr e)

/-- **C105** `append(other)`: ValueError, if the other line has a bar from the common minimum period on -/
theorem C105_append {b : Line V} {m' : ℕ} (ha : a.minperiod = m) (hb : b.minperiod = m') (h1 : 1 ≤ m) : append a b =
    if deliveredBars (max m m') b = [] then .ok (withBars (max m m') a nan (deliveredBars (max m m') a)) else .error .valueError := by
  unfold append stdop2E stdop2
  have h2 : 1 ≤ max m m' := by omega
  simp only [ha, hb, imax_cast, pyFrom_pos _ h2]
  rw [clone_mp_pos h2]
  unfold setFrom
  rw [pyStart_pred _ h2]
  unfold deliveredBars withBars appendL
  by_cases h : b.series.drop (max m m' - 1) = []
  · rw [if_pos h, h, List.append_nil, if_pos rfl]
  · rw [if_neg h, if_neg]
    rw [List.length_append]
    have := List.length_pos_of_ne_nil h
    omega

end select

/-- the line `[-, 1, 3, 2]` with minimum period 2 -/
def line105 : Line (Ext ℚ) := ⟨[.nan, .fin 1, .fin 3, .fin 2], 2⟩

example : headOp 2 line105 = .error .valueError ∧ headOp 5 line105 = .ok line105 ∧ tailOp 1 line105 = .error .valueError ∧
    dropna line105 = .ok line105 ∧ dropDuplicates line105 = .ok line105 ∧ append line105 line105 = .error .valueError := by
  decide +kernel

/-! ## the greatest values -/

section large
variable {K : Type} [Field K] [LinearOrder K] [IsStrictOrderedRing K]

theorem insertV_fin (before : K → K → Bool) (bf : Ext K → Ext K → Bool) (h : ∀ x y, bf (.fin x) (.fin y) = before x y)
    (tot : ∀ x y, before x y = false → before y x = true ∨ x = y)
    (tr : ∀ x y z, before x y = true → before y z = true → before x z = true) (x : K) (ys : List K)
    (hs : ys.Pairwise fun p q => before p q = true ∨ p = q) :
    ∃ zs : List K, insertV bf (.fin x) (ys.map .fin) = zs.map .fin ∧ zs.Perm (x :: ys) ∧ zs.Pairwise fun p q => before p q = true ∨ p = q := by
  induction ys with
  | nil => exact ⟨[x], rfl, List.Perm.refl _, List.pairwise_singleton _ _⟩
  | cons y ys ih =>
    obtain ⟨h1, h2⟩ := List.pairwise_cons.mp hs
    simp only [List.map_cons, insertV, h]
    by_cases hb : before y x = true
    · rw [if_pos hb]
      obtain ⟨zs, h3, h4, h5⟩ := ih h2
      refine ⟨y :: zs, by rw [h3]; rfl, (h4.cons y).trans (List.Perm.swap _ _ _), List.pairwise_cons.mpr ⟨fun z hz => ?_, h5⟩⟩
      rcases List.mem_cons.mp (h4.mem_iff.mp hz) with rfl | hz
      · exact Or.inl hb
      · exact h1 z hz
    · rw [if_neg hb]
      refine ⟨x :: y :: ys, rfl, List.Perm.refl _, List.pairwise_cons.mpr ⟨fun z hz => ?_, hs⟩⟩
      have hxy : before x y = true ∨ x = y := (tot y x (by simpa using hb)).imp id Eq.symm
      rcases List.mem_cons.mp hz with rfl | hz'
      · exact hxy
      · rcases hxy with hxy | rfl
        · rcases h1 z hz' with h' | rfl
          · exact Or.inl (tr _ _ _ hxy h')
          · exact Or.inl hxy
        · exact h1 z hz'

theorem sortV_fin (before : K → K → Bool) (bf : Ext K → Ext K → Bool) (h : ∀ x y, bf (.fin x) (.fin y) = before x y)
    (tot : ∀ x y, before x y = false → before y x = true ∨ x = y)
    (tr : ∀ x y z, before x y = true → before y z = true → before x z = true) (xs : List K) :
    ∃ zs : List K, sortV bf (xs.map .fin) = zs.map .fin ∧ zs.Perm xs ∧ zs.Pairwise fun p q => before p q = true ∨ p = q := by
  induction xs with
  | nil => exact ⟨[], rfl, List.Perm.refl _, List.Pairwise.nil⟩
  | cons x xs ih =>
    obtain ⟨zs, h1, h2, h3⟩ := ih
    obtain ⟨ws, h4, h5, h6⟩ := insertV_fin before bf h tot tr x zs h3
    refine ⟨ws, ?_, h5.trans (h2.cons x), h6⟩
    have : sortV bf ((x :: xs).map .fin) = insertV bf (.fin x) (sortV bf (xs.map .fin)) := rfl
    rw [this, h1, h4]

theorem dropna_fin (xs : List K) : dropnaL (xs.map (Ext.fin : K → Ext K)) = xs.map .fin := by
  unfold dropnaL
  rw [List.filter_eq_self]
  intro x hx
  obtain ⟨z, -, rfl⟩ := List.mem_map.mp hx
  rfl

/-- **C105** (negation) `nlargest(k)` with `k` not less than the number of bars gives no error: the values are stored in descending order,
each but for chance at the bar of another one, for all data. -/
theorem C105_nlargest {a : Line (Ext K)} {m k : ℕ} (ha : a.minperiod = m) (h1 : 1 ≤ m) {xs : List K}
    (hx : deliveredBars m a = xs.map .fin) (hk : xs.length ≤ k) :
    ∃ zs : List K, nlargest k a = .ok (withBars m a nan (zs.map .fin)) ∧ zs.Perm xs ∧ zs.Pairwise (fun p q => q ≤ p) := by
  obtain ⟨zs, h2, h3, h4⟩ := sortV_fin (K := K) (fun y x => decide (x < y)) (fun y x => lt x y) (fun x y => rfl)
    (fun x y h => by
      simp only [decide_eq_false_iff_not, not_lt, decide_eq_true_eq] at h ⊢
      exact h.lt_or_eq)
    (fun x y z h1 h2 => by simp only [decide_eq_true_eq] at *; exact lt_trans h2 h1) xs
  refine ⟨zs, ?_, h3, h4.imp fun h => ?_⟩
  · have e : nlargestL k (deliveredBars m a) = zs.map .fin := by
      unfold nlargestL
      rw [hx, dropna_fin, h2, List.take_of_length_le (by simp [h3.length_eq]; omega)]
    unfold nlargest
    rw [(C105_any (nlargestL k) nan ha h1).1 (by rw [e, hx]; simp [h3.length_eq]), e]
  · rcases h with h | h
    · simp only [decide_eq_true_eq] at h; exact h.le
    · exact h.ge

/-- **C105** (negation) `nsmallest(k)`: in ascending order -/
theorem C105_nsmallest {a : Line (Ext K)} {m k : ℕ} (ha : a.minperiod = m) (h1 : 1 ≤ m) {xs : List K}
    (hx : deliveredBars m a = xs.map .fin) (hk : xs.length ≤ k) :
    ∃ zs : List K, nsmallest k a = .ok (withBars m a nan (zs.map .fin)) ∧ zs.Perm xs ∧ zs.Pairwise (fun p q => p ≤ q) := by
  obtain ⟨zs, h2, h3, h4⟩ := sortV_fin (K := K) (fun y x => decide (y < x)) (fun y x => lt y x) (fun x y => rfl)
    (fun x y h => by
      simp only [decide_eq_false_iff_not, not_lt, decide_eq_true_eq] at h ⊢
      exact h.lt_or_eq.imp id Eq.symm)
    (fun x y z h1 h2 => by simp only [decide_eq_true_eq] at *; exact lt_trans h1 h2) xs
  refine ⟨zs, ?_, h3, h4.imp fun h => ?_⟩
  · have e : nsmallestL k (deliveredBars m a) = zs.map .fin := by
      unfold nsmallestL
      rw [hx, dropna_fin, h2, List.take_of_length_le (by simp [h3.length_eq]; omega)]
    unfold nsmallest
    rw [(C105_any (nsmallestL k) nan ha h1).1 (by rw [e, hx]; simp [h3.length_eq]), e]
  · rcases h with h | h
    · simp only [decide_eq_true_eq] at h; exact h.le
    · exact h.le

/-- ... so that the last value of `[-, 1, 3, 2]` is 1. -/
example : nlargest 3 line105 = .ok ⟨[.nan, .fin 3, .fin 2, .fin 1], 2⟩ ∧ nlargest 2 line105 = .error .valueError := by decide +kernel

end large

/-! ## C106 -/

theorem CausalL.cumGo (f : V → V → V) (acc : Option V) : CausalL (Bta.cumGo f acc) :=
  scan_prefix (Bta.cumGo f) (fun acc x => if isNaN x then (acc, x) else
      (some (match acc with | none => x | some z => f z x), match acc with | none => x | some z => f z x))
    (fun _ => rfl) (fun s x xs => by simp only [Bta.cumGo]; split <;> rfl) _

theorem CausalL.duplicated : CausalL (duplicatedL (V := V)) :=
  scan_prefix duplicatedGo (fun seen x => (x :: seen, seen.any fun y => sameV y x)) (fun _ => rfl) (fun s x xs => rfl) _

/-- **C106** none of these looks ahead: with more bars the earlier bars are the same. -/
theorem C106_no_lookahead {a a' : Line V} (h : Pref a a') (v lo hi : V) :
    Pref (cummax a) (cummax a') ∧ Pref (cummin a) (cummin a') ∧ Pref (cumprod a) (cumprod a') ∧ Pref (ffill a) (ffill a') ∧
    Pref (fillna v a) (fillna v a') ∧ Pref (isna a) (isna a') ∧ Pref (notna a) (notna a') ∧ Pref (duplicated a) (duplicated a') ∧
    Pref (between lo hi a) (between lo hi a') :=
  ⟨pref_stdop (CausalL.cumGo _ _) (le_refl _) h, pref_stdop (CausalL.cumGo _ _) (le_refl _) h, pref_stdop (CausalL.cumGo _ _) (le_refl _) h,
    pref_stdop CausalL.ffill (le_refl _) h, pref_stdop (CausalL.map _) (le_refl _) h, pref_stdop (CausalL.map _) (le_refl _) h,
    pref_stdop (CausalL.map _) (le_refl _) h, pref_stdop CausalL.duplicated (le_refl _) h, pref_stdop (CausalL.map _) (le_refl _) h⟩

/-- **C106** nor do those with another line. -/
theorem C106_no_lookahead2 {a a' b b' : Line V} {c c' : Line Bool} (h : Pref a a') (hb : Pref b b') (hc : Pref c c')
    (lb : a.series.length = b.series.length) (lb' : a'.series.length = b'.series.length)
    (lc : a.series.length = c.series.length) (lc' : a'.series.length = c'.series.length) :
    Pref (where_ a c) (where_ a' c') ∧ Pref (mask a c) (mask a' c') ∧ Pref (combineFirst a b) (combineFirst a' b') :=
  ⟨pref_stdop2 (CausalL2.zipWith _) h hc lc lc', pref_stdop2 (CausalL2.zipWith _) h hc lc lc', pref_stdop2 (CausalL2.zipWith _) h hb lb lb'⟩

/-- **C106** what they show, bar by bar, from the minimum period on (NaN before) -/
theorem C106_pointwise {a b : Line V} {c : Line Bool} {n m mb mc : ℕ} {g g' : ℕ → V} {p : ℕ → Bool} (ha : RepW a n m g)
    (hb : RepW b n mb g') (hc : RepW c n mc p) (v : V) :
    Rep nan (fillna v a) n m (fun i => if isNaN (g i) then v else g i) ∧
    Rep nan (where_ a c) n (max m mc) (fun i => if p i then g i else nan) ∧
    Rep nan (mask a c) n (max m mc) (fun i => if p i then nan else g i) ∧
    Rep nan (combineFirst a b) n (max m mb) (fun i => if isNaN (g i) then g' i else g i) :=
  ⟨rep_mapOp ha, rep_stdop2 ha hc (zipWith_tail _ _ _ _ _), rep_stdop2 ha hc (zipWith_tail _ _ _ _ _),
    rep_stdop2 ha hb (zipWith_tail _ _ _ _ _)⟩

/-- **C106** tests, from the minimum period on; before that they are `True` (see C65), `notna` among them, where nothing is. -/
theorem C106_tests {a : Line V} {n m : ℕ} {g : ℕ → V} (ha : RepW a n m g) (lo hi : V) :
    Rep true (isna a) n m (fun i => isNaN (g i)) ∧ Rep true (notna a) n m (fun i => !isNaN (g i)) ∧
    Rep true (between lo hi a) n m (fun i => le lo (g i) && le (g i) hi) := by
  refine ⟨?_, ?_, ?_⟩ <;>
    exact rep_stdop (inc := 0) ha (map_tail _ _ _ _) (by intro i h1 h2; omega)

/-- **C106** `replace`, `apply`, `combine` and `isin` with a list of numbers work bar by bar (a value is in the list if it is equal to one of
them, or missing with a missing value in the list). -/
theorem C106_pointwise_more {a b : Line V} {n m mb : ℕ} {g g' : ℕ → V} (ha : RepW a n m g) (hb : RepW b n mb g') (old new : V) (f : V → V)
    (f2 : V → V → V) (values : List V) :
    Rep nan (replace old new a) n m (fun i => if eqv old (g i) || (isNaN old && isNaN (g i)) then new else g i) ∧
    Rep nan (applyF f a) n m (fun i => f (g i)) ∧
    Rep nan (combine f2 a b) n (max m mb) (fun i => f2 (g i) (g' i)) ∧
    Rep true (isin values a) n m (fun i => values.any fun y => eqv y (g i) || (isNaN y && isNaN (g i))) :=
  ⟨rep_stdop (inc := 0) ha (map_tail _ _ _ _) (by intro i h1 h2; omega), rep_mapOp ha, rep_stdop2 ha hb (zipWith_tail _ _ _ _ _),
    rep_stdop (inc := 0) ha (map_tail _ _ _ _) (by intro i h1 h2; omega)⟩

/-- **C106** nor do these look ahead. -/
theorem C106_no_lookahead_more {a a' b b' : Line V} (h : Pref a a') (hb : Pref b b') (lb : a.series.length = b.series.length)
    (lb' : a'.series.length = b'.series.length) (old new : V) (f : V → V) (f2 : V → V → V) (values : List V) :
    Pref (replace old new a) (replace old new a') ∧ Pref (applyF f a) (applyF f a') ∧ Pref (combine f2 a b) (combine f2 a' b') ∧
    Pref (isin values a) (isin values a') :=
  ⟨pref_stdop (CausalL.map _) (le_refl _) h, pref_stdop (CausalL.map _) (le_refl _) h, pref_stdop2 (CausalL2.zipWith _) h hb lb lb',
    pref_stdop (CausalL.map _) (le_refl _) h⟩

section exact
variable {K : Type} [Field K] [LinearOrder K] [IsStrictOrderedRing K]
open Finset

theorem cumGo_tail (f : Ext K → Ext K → Ext K) (f' : K → K → K) (hf : ∀ x y, f (.fin x) (.fin y) = .fin (f' x y)) (x : ℕ → K) (n : ℕ) :
    ∀ (d k : ℕ), n - k = d → ∀ A : K, Bta.cumGo f (some (.fin A)) (tail n k fun i => .fin (x i)) =
      tail n k fun i => .fin (((List.range (i + 1 - k)).map fun j => x (k + j)).foldl f' A) := by
  intro d
  induction d with
  | zero => intro k hk A; rw [tail_nil _ (by omega : n ≤ k), tail_nil _ (by omega : n ≤ k)]; rfl
  | succ d ih =>
    intro k hk A
    have hkn : k < n := by omega
    rw [tail_cons _ hkn, tail_cons (fun i => (Ext.fin (((List.range (i + 1 - k)).map fun j => x (k + j)).foldl f' A) : Ext K)) hkn]
    have h0 : isNaN (Ext.fin (x k) : Ext K) = false := rfl
    simp only [Bta.cumGo, h0, Bool.false_eq_true, if_false, hf]
    rw [ih (k + 1) (by omega) (f' A (x k))]
    congr 1
    · rw [show k + 1 - k = 1 from by omega]; simp
    · refine tail_congr fun i h1 h2 => ?_
      rw [show i + 1 - k = (i + 1 - (k + 1)) + 1 from by omega, List.range_succ_eq_map]
      simp only [List.map_cons, List.map_map, List.foldl_cons, add_zero]
      congr 2
      refine List.map_congr_left fun j _ => ?_
      simp only [Function.comp_apply]
      congr 1; omega

theorem holds_cum (f : Ext K → Ext K → Ext K) (f' : K → K → K) (hf : ∀ x y, f (.fin x) (.fin y) = .fin (f' x y)) {a : Line (Ext K)}
    {n m : ℕ} {x : ℕ → K} (ha : Holds a n m x) :
    Shows (stdop (Bta.cumGo f none) nan 0 a) n m fun i => ((List.range (i + 1 - m)).map fun j => x (m + j)).foldl f' (x (m - 1)) := by
  have hp := ha.pos
  refine (rep_stdop (inc := 0) (k := fun i => Ext.fin (((List.range (i + 1 - m)).map fun j => x (m + j)).foldl f' (x (m - 1)))) ha ?_ ?_).congr
    rfl fun _ _ _ => rfl
  · by_cases hn : n ≤ m - 1
    · rw [tail_nil _ hn, tail_nil _ hn]; rfl
    · have h0 : isNaN (Ext.fin (x (m - 1)) : Ext K) = false := rfl
      rw [tail_cons _ (by omega)]
      simp only [Bta.cumGo, h0, Bool.false_eq_true, if_false]
      rw [cumGo_tail f f' hf x n _ _ rfl, tail_cons (fun i => (Ext.fin (((List.range (i + 1 - m)).map fun j => x (m + j)).foldl f' (x (m - 1))) : Ext K)) (by omega : m - 1 < n)]
      rw [show m - 1 + 1 = m from by omega]
      simp
  · intro i h1 h2; omega

theorem foldl_greater_spec (l : List K) (A : K) : (A ≤ l.foldl (fun a b => if a < b then b else a) A ∧
    ∀ y ∈ l, y ≤ l.foldl (fun a b => if a < b then b else a) A) ∧ l.foldl (fun a b => if a < b then b else a) A ∈ A :: l := by
  induction l generalizing A with
  | nil => simp
  | cons y l ih =>
    obtain ⟨⟨h1, h2⟩, h3⟩ := ih (if A < y then y else A)
    simp only [List.foldl_cons]
    generalize List.foldl (fun a b => if a < b then b else a) (if A < y then y else A) l = M at *
    have hA : A ≤ (if A < y then y else A) := by split <;> [exact le_of_lt ‹_›; exact le_refl _]
    have hy : y ≤ (if A < y then y else A) := by split <;> [exact le_refl _; exact not_lt.mp ‹_›]
    refine ⟨⟨hA.trans h1, fun z hz => ?_⟩, ?_⟩
    · rcases List.mem_cons.mp hz with rfl | hz
      · exact hy.trans h1
      · exact h2 z hz
    · rcases List.mem_cons.mp h3 with h | h
      · rw [h]; split <;> simp
      · simp [h]

theorem foldl_less_spec (l : List K) (A : K) : (l.foldl (fun a b => if b < a then b else a) A ≤ A ∧
    ∀ y ∈ l, l.foldl (fun a b => if b < a then b else a) A ≤ y) ∧ l.foldl (fun a b => if b < a then b else a) A ∈ A :: l := by
  induction l generalizing A with
  | nil => simp
  | cons y l ih =>
    obtain ⟨⟨h1, h2⟩, h3⟩ := ih (if y < A then y else A)
    simp only [List.foldl_cons]
    generalize List.foldl (fun a b => if b < a then b else a) (if y < A then y else A) l = M at *
    have hA : (if y < A then y else A) ≤ A := by split <;> [exact le_of_lt ‹_›; exact le_refl _]
    have hy : (if y < A then y else A) ≤ y := by split <;> [exact le_refl _; exact not_lt.mp ‹_›]
    refine ⟨⟨h1.trans hA, fun z hz => ?_⟩, ?_⟩
    · rcases List.mem_cons.mp hz with rfl | hz
      · exact h1.trans hy
      · exact h2 z hz
    · rcases List.mem_cons.mp h3 with h | h
      · rw [h]; split <;> simp
      · simp [h]

theorem foldl_prod (x : ℕ → K) (A : K) (m d : ℕ) :
    ((List.range d).map fun j => x (m + j)).foldl (· * ·) A = A * ∏ j ∈ Ico m (m + d), x j := by
  induction d with
  | zero => simp
  | succ d ih =>
    rw [List.range_succ, List.map_append, List.foldl_append, ih, ← add_assoc, Finset.prod_Ico_succ_top (by omega)]
    simp [mul_assoc]

/-- **C106** `cummax`, `cummin`, `cumprod` of numbers: the greatest, the least and the product of all that was delivered so far -/
theorem C106_cumulative {a : Line (Ext K)} {n m : ℕ} {x : ℕ → K} (ha : Holds a n m x) :
    (∃ e : ℕ → K, Shows (cummax a) n m e ∧ ∀ i, m ≤ i + 1 →
      (∀ j, m ≤ j + 1 → j ≤ i → x j ≤ e i) ∧ ∃ j, m ≤ j + 1 ∧ j ≤ i ∧ e i = x j) ∧
    (∃ e : ℕ → K, Shows (cummin a) n m e ∧ ∀ i, m ≤ i + 1 →
      (∀ j, m ≤ j + 1 → j ≤ i → e i ≤ x j) ∧ ∃ j, m ≤ j + 1 ∧ j ≤ i ∧ e i = x j) ∧
    Shows (cumprod a) n m fun i => ∏ j ∈ Ico (m - 1) (i + 1), x j := by
  have hp := ha.pos
  have mem : ∀ {i : ℕ} {z : K}, m ≤ i + 1 → z ∈ x (m - 1) :: (List.range (i + 1 - m)).map (fun j => x (m + j)) →
      ∃ j, m ≤ j + 1 ∧ j ≤ i ∧ z = x j := by
    intro i z h1 h
    rcases List.mem_cons.mp h with h | h
    · exact ⟨m - 1, by omega, by omega, h⟩
    · obtain ⟨j, hj, rfl⟩ := List.mem_map.mp h
      rw [List.mem_range] at hj
      exact ⟨m + j, by omega, by omega, rfl⟩
  have mem' : ∀ {i j : ℕ}, m ≤ j + 1 → j ≤ i → j = m - 1 ∨ x j ∈ (List.range (i + 1 - m)).map (fun j => x (m + j)) := by
    intro i j h1 h2
    by_cases h : j = m - 1
    · exact Or.inl h
    · refine Or.inr (List.mem_map.mpr ⟨j - m, List.mem_range.mpr (by omega), ?_⟩)
      rw [show m + (j - m) = j from by omega]
  refine ⟨⟨_, holds_cum maxV (fun a b => if a < b then b else a) ?_ ha, fun i hi => ?_⟩,
    ⟨_, holds_cum minV (fun a b => if b < a then b else a) ?_ ha, fun i hi => ?_⟩, ?_⟩
  · intro x y
    show (if decide (x < y) = true then Ext.fin y else Ext.fin x) = _
    by_cases h : x < y <;> simp [h]
  · obtain ⟨⟨h1, h2⟩, h3⟩ := foldl_greater_spec ((List.range (i + 1 - m)).map fun j => x (m + j)) (x (m - 1))
    refine ⟨fun j h4 h5 => ?_, mem hi h3⟩
    rcases mem' h4 h5 with rfl | h
    · exact h1
    · exact h2 _ h
  · intro x y
    show (if decide (y < x) = true then Ext.fin y else Ext.fin x) = _
    by_cases h : y < x <;> simp [h]
  · obtain ⟨⟨h1, h2⟩, h3⟩ := foldl_less_spec ((List.range (i + 1 - m)).map fun j => x (m + j)) (x (m - 1))
    refine ⟨fun j h4 h5 => ?_, mem hi h3⟩
    rcases mem' h4 h5 with rfl | h
    · exact h1
    · exact h2 _ h
  · refine (holds_cum (· * ·) (· * ·) (fun _ _ => rfl) ha).congr rfl fun i h1 h2 => ?_
    congr 1
    show List.foldl (· * ·) _ _ = ∏ j ∈ Ico (m - 1) (i + 1), x j
    rw [foldl_prod, Finset.prod_eq_prod_Ico_succ_bot (by omega : m - 1 < i + 1), show m - 1 + 1 = m from by omega,
      show m + (i + 1 - m) = i + 1 from by omega]

theorem bfillL_looks_ahead (xs : List (Ext K)) (z : K) :
    (bfillL (xs ++ [.nan]))[xs.length]? = some .nan ∧ (bfillL (xs ++ [.nan, .fin z]))[xs.length]? = some (.fin z) := by
  induction xs with
  | nil => exact ⟨rfl, rfl⟩
  | cons x xs ih => exact ⟨by simpa [bfillL] using ih.1, by simpa [bfillL] using ih.2⟩

theorem rankL_looks_ahead (xs : List K) (z : K) {i : ℕ} (hi : i < xs.length) (hz : z < xs[i]) :
    ∃ r : K, (rankL (xs.map (Ext.fin : K → Ext K)))[i]? = some (.fin r) ∧ (rankL ((xs ++ [z]).map (Ext.fin : K → Ext K)))[i]? = some (.fin (r + 1)) := by
  have e : ∀ ys : List K, ∀ v : K, (ys.map (Ext.fin : K → Ext K)).countP (fun y => lt y (Ext.fin v)) = ys.countP (fun y => decide (y < v)) := by
    intro ys v; rw [List.countP_map]; rfl
  have e' : ∀ ys : List K, ∀ v : K, (ys.map (Ext.fin : K → Ext K)).countP (fun y => eqv y (Ext.fin v)) = ys.countP (fun y => decide (y = v)) := by
    intro ys v; rw [List.countP_map]; rfl
  have h0 : ∀ v : K, isNaN (Ext.fin v : Ext K) = false := fun _ => rfl
  have hne : z ≠ xs[i] := hz.ne
  unfold rankL
  simp only [List.getElem?_map, List.getElem?_eq_getElem hi, List.getElem?_append_left hi, Option.map_some, h0, Bool.false_eq_true, if_false,
    e, e', List.countP_append, List.countP_singleton, hz, hne, decide_true, decide_false, if_true]
  refine ⟨_, rfl, ?_⟩
  congr 1
  show Ext.fin _ = Ext.fin _
  congr 1
  push_cast
  ring

theorem stdop_one (g : List α → List β) (fill : β) (xs : List α) : (stdop g fill 0 ⟨xs, 1⟩).series = g xs := by
  unfold stdop
  simp only [show ((1 : Int) - 1) = ((1 : ℕ) : Int) - 1 from rfl, pyFrom_pos _ (le_refl 1)]
  rw [show (1 : Int) = ((1 : ℕ) : Int) from rfl, clone_mp_pos (le_refl 1)]
  simp [setFrom, pyStart]

/-- **C106** (negation) `bfill` looks ahead: a missing last bar is filled as soon as the next one is there, for all data before. -/
theorem C106_bfill_looks_ahead (xs : List (Ext K)) (z : K) :
    (bfill ⟨xs ++ [.nan], 1⟩).series[xs.length]? = some .nan ∧ (bfill ⟨xs ++ [.nan, .fin z], 1⟩).series[xs.length]? = some (.fin z) := by
  unfold bfill
  rw [stdop_one, stdop_one]
  exact bfillL_looks_ahead xs z

theorem bfillL_far (xs : List (Ext K)) (g : ℕ) (z : K) (rest : List (Ext K)) :
    ∀ i ≤ g, (bfillL (xs ++ List.replicate g .nan ++ .fin z :: rest))[xs.length + i]? = some (.fin z) := by
  induction xs with
  | nil =>
    induction g with
    | zero =>
      intro i hi
      obtain rfl : i = 0 := by omega
      rfl
    | succ g ih =>
      intro i hi
      simp only [List.nil_append, List.length_nil, Nat.zero_add] at ih ⊢
      cases i with
      | zero =>
        have h0 := ih 0 (Nat.zero_le _)
        rw [List.replicate_succ, List.cons_append]
        unfold bfillL
        rw [List.getElem?_cons_zero, if_pos (by rfl : isNaN (Ext.nan : Ext K) = true)]
        cases hb : bfillL (List.replicate g (Ext.nan : Ext K) ++ .fin z :: rest) with
        | nil => rw [hb] at h0; simp at h0
        | cons y l => rw [hb] at h0; simpa using h0
      | succ i =>
        have h0 := ih i (by omega)
        rw [List.replicate_succ, List.cons_append]
        unfold bfillL
        rw [List.getElem?_cons_succ]
        exact h0
  | cons x xs ih =>
    intro i hi
    have := ih i hi
    simp only [List.cons_append, List.length_cons, bfillL]
    rw [show xs.length + 1 + i = (xs.length + i) + 1 from by omega, List.getElem?_cons_succ]
    exact this

/-- **C106** (negation) `bfill` looks ahead however far the next value is: all of the missing bars before it show it. -/
theorem C106_bfill_far (xs : List (Ext K)) (g : ℕ) (z : K) (rest : List (Ext K)) {i : ℕ} (hi : i ≤ g) :
    (bfill ⟨xs ++ List.replicate g .nan ++ .fin z :: rest, 1⟩).series[xs.length + i]? = some (.fin z) := by
  unfold bfill
  rw [stdop_one]
  exact bfillL_far xs g z rest i hi

/-- **C106** (negation) `rank` looks ahead: the rank of each bar grows by 1 with each lower value which comes later. -/
theorem C106_rank_looks_ahead (xs : List K) (z : K) {i : ℕ} (hi : i < xs.length) (hz : z < xs[i]) :
    ∃ r : K, (rank (V := Ext K) ⟨xs.map .fin, 1⟩).series[i]? = some (.fin r) ∧
      (rank (V := Ext K) ⟨(xs ++ [z]).map .fin, 1⟩).series[i]? = some (.fin (r + 1)) := by
  unfold rank
  rw [stdop_one, stdop_one]
  exact rankL_looks_ahead xs z hi hz

/-- **C106** What `rank` is: the number of lower values there are in the whole line, plus the mean of the positions 1, ..., e of the e
equal ones. -/
theorem C106_rank_value (xs : List K) {i : ℕ} (hi : i < xs.length) :
    (rank (V := Ext K) ⟨xs.map .fin, 1⟩).series[i]? =
      some (.fin ((xs.countP (fun y => decide (y < xs[i])) : K) + ((xs.countP (fun y => decide (y = xs[i])) : K) + 1) / 2)) := by
  have e : ∀ ys : List K, ∀ v : K, (ys.map (Ext.fin : K → Ext K)).countP (fun y => lt y (Ext.fin v)) = ys.countP (fun y => decide (y < v)) := by
    intro ys v; rw [List.countP_map]; rfl
  have e' : ∀ ys : List K, ∀ v : K, (ys.map (Ext.fin : K → Ext K)).countP (fun y => eqv y (Ext.fin v)) = ys.countP (fun y => decide (y = v)) := by
    intro ys v; rw [List.countP_map]; rfl
  have h0 : ∀ v : K, isNaN (Ext.fin v : Ext K) = false := fun _ => rfl
  unfold rank
  rw [stdop_one]
  unfold rankL
  simp only [List.getElem?_map, List.getElem?_eq_getElem hi, Option.map_some, h0, Bool.false_eq_true, if_false, e, e']
  congr 1
  show Ext.fin _ = Ext.fin _
  congr 1
  push_cast
  ring

theorem interpGo_upto (xs : List (Ext K)) (p : K) (rest : List (Ext K)) : ∀ (prev : Option (Ext K)) (d : ℕ), ∃ L : List (Ext K),
    L.length = xs.length ∧ interpGo prev d (xs ++ .fin p :: rest) = L ++ .fin p :: interpGo (some (.fin p)) 1 rest := by
  induction xs with
  | nil => exact fun prev d => ⟨[], rfl, rfl⟩
  | cons x xs ih =>
    intro prev d
    by_cases hx : isNaN x = true
    · obtain ⟨L, h1, h2⟩ := ih prev (d + 1)
      exact ⟨_ :: L, by simp [h1], by simp only [List.cons_append, interpGo, hx, if_true, h2]; rfl⟩
    · obtain ⟨L, h1, h2⟩ := ih (some x) 1
      exact ⟨x :: L, by simp [h1], by simp only [List.cons_append, interpGo, hx, Bool.false_eq_true, if_false, h2]⟩

theorem nextValue_gap (k : ℕ) (q : K) (ys : List (Ext K)) :
    nextValue (List.replicate k (nan : Ext K) ++ .fin q :: ys) = some (.fin q, k + 1) := by
  induction k with
  | zero => rfl
  | succ k ih => rw [List.replicate_succ, List.cons_append]; simp only [nextValue, show isNaN (nan : Ext K) = true from rfl, if_true, ih]; rfl

theorem nextValue_none (k : ℕ) : nextValue (List.replicate k (nan : Ext K)) = none := by
  induction k with
  | zero => rfl
  | succ k ih => rw [List.replicate_succ]; simp only [nextValue, show isNaN (nan : Ext K) = true from rfl, if_true, ih]; rfl

theorem interpGo_gap (p q : K) (ys : List (Ext K)) : ∀ (k d : ℕ), ∃ L : List (Ext K),
    interpGo (some (.fin p)) d (List.replicate k (nan : Ext K) ++ .fin q :: ys) = L ++ .fin q :: interpGo (some (.fin q)) 1 ys ∧ L.length = k ∧
    ∀ j < k, L[j]? = some (.fin (p + (q - p) * ((d + j : ℕ) : K) / ((d + k : ℕ) : K)))
  | 0, d => ⟨[], rfl, rfl, fun j hj => absurd hj (by omega)⟩
  | k + 1, d => by
    obtain ⟨L, h1, h2, h3⟩ := interpGo_gap p q ys k (d + 1)
    have hne : ((d + (k + 1) : ℕ) : ℚ) ≠ 0 := by positivity
    refine ⟨.fin (p + (q - p) * ((d + 0 : ℕ) : K) / ((d + (k + 1) : ℕ) : K)) :: L, ?_, by simp [h2], ?_⟩
    · rw [List.replicate_succ, List.cons_append]
      simp only [interpGo, show isNaN (nan : Ext K) = true from rfl, if_true, nextValue_gap, h1, List.cons_append]
      congr 1
      rw [Ext.fin_sub, Ext.fin_div_lit _ hne]
      show (Ext.fin _ : Ext K) = _
      congr 1
      simp only [Rat.cast_natCast]
      rw [show ((d + 0 : ℕ) : K) = (d : K) from rfl]
      ring
    · intro j hj
      cases j with
      | zero => rfl
      | succ j =>
        rw [List.getElem?_cons_succ, h3 j (by omega)]
        rw [show d + 1 + j = d + (j + 1) by omega, show d + 1 + k = d + (k + 1) by omega]

theorem interpGo_end (p : K) : ∀ (k d : ℕ), interpGo (some (.fin p)) d (List.replicate k (nan : Ext K)) = List.replicate k (.fin p)
  | 0, _ => rfl
  | k + 1, d => by
    rw [List.replicate_succ, List.replicate_succ]
    simp only [interpGo, show isNaN (nan : Ext K) = true from rfl, if_true, nextValue_none, interpGo_end p k]

/-- **C106** `interpolate`: missing bars between two values are on the straight line from one to the other, whatever comes before and after. -/
theorem C106_interpolate (xs ys : List (Ext K)) (p q : K) (k : ℕ) {j : ℕ} (hj : j < k) :
    (interpolate ⟨xs ++ .fin p :: (List.replicate k .nan ++ .fin q :: ys), 1⟩).series[xs.length + 1 + j]? =
      some (.fin (p + (q - p) * ((j + 1 : ℕ) : K) / ((k + 1 : ℕ) : K))) := by
  unfold interpolate
  rw [stdop_one]
  unfold interpolateL
  obtain ⟨L, h1, h2⟩ := interpGo_upto xs p (List.replicate k .nan ++ .fin q :: ys) none 0
  obtain ⟨M, h3, h4, h5⟩ := interpGo_gap p q ys k 1
  have h3' : interpGo (some (.fin p)) 1 (List.replicate k (Ext.nan : Ext K) ++ .fin q :: ys) = _ := h3
  rw [h2, h3', List.getElem?_append_right (by omega), h1, show xs.length + 1 + j - xs.length = j + 1 by omega, List.getElem?_cons_succ,
    List.getElem?_append_left (by omega), h5 j hj, show 1 + j = j + 1 by omega, show 1 + k = k + 1 by omega]

/-- **C106** (negation) `interpolate` looks ahead: missing bars repeat the last value until the next one is there, and are then changed (unless the two
values are the same). -/
theorem C106_interpolate_looks_ahead (xs : List (Ext K)) (p q : K) (k : ℕ) {j : ℕ} (hj : j < k) :
    (interpolate ⟨xs ++ .fin p :: List.replicate k .nan, 1⟩).series[xs.length + 1 + j]? = some (.fin p) ∧
    (interpolate ⟨(xs ++ .fin p :: List.replicate k .nan) ++ [.fin q], 1⟩).series[xs.length + 1 + j]? =
      some (.fin (p + (q - p) * ((j + 1 : ℕ) : K) / ((k + 1 : ℕ) : K))) := by
  refine ⟨?_, ?_⟩
  · unfold interpolate
    rw [stdop_one]
    unfold interpolateL
    obtain ⟨L, h1, h2⟩ := interpGo_upto xs p (List.replicate k .nan) none 0
    have h3 : interpGo (some (.fin p)) 1 (List.replicate k (Ext.nan : Ext K)) = List.replicate k (.fin p) := interpGo_end p k 1
    rw [h2, h3, List.getElem?_append_right (by omega), h1, show xs.length + 1 + j - xs.length = j + 1 by omega, List.getElem?_cons_succ,
      List.getElem?_replicate, if_pos hj]
  · have := C106_interpolate xs [] p q k hj
    rw [← this]
    congr 4
    simp

/-- **C106** (negation) `isin` with another line looks ahead: a value which is in no bar of the other line is in it as soon as a later bar shows it. -/
theorem C106_isin_looks_ahead (xs ys : List K) (z : K) (hy : ys.length = xs.length) {i : ℕ} (hi : i < xs.length) (hz : xs[i] ∉ ys) :
    (isinLine (V := Ext K) ⟨xs.map .fin, 1⟩ ⟨ys.map .fin, 1⟩).series[i]? = some false ∧
    (isinLine (V := Ext K) ⟨(xs ++ [z]).map .fin, 1⟩ ⟨(ys ++ [xs[i]]).map .fin, 1⟩).series[i]? = some true := by
  have h : ∀ us vs : List K, (isinLine (V := Ext K) ⟨us.map .fin, 1⟩ ⟨vs.map .fin, 1⟩).series = us.map fun u => decide (u ∈ vs) := by
    intro us vs
    unfold isinLine stdop2
    simp only [show max (1 : Int) 1 = ((1 : ℕ) : Int) from rfl, pyFrom_pos _ (le_refl 1)]
    rw [clone_mp_pos (le_refl 1)]
    simp only [setFrom, pyStart]
    simp only [Nat.sub_self, List.drop_zero, isinL, List.map_map]
    simp
    intro u hu
    rw [Bool.eq_iff_iff, List.any_eq_true, decide_eq_true_iff]
    constructor
    · rintro ⟨v, hv, he⟩
      simp [sameV, isNaN, eqv, Ext.eqv] at he
      exact he ▸ hv
    · intro hu
      exact ⟨u, hu, by simp [sameV, eqv, Ext.eqv]⟩
  rw [h, h]
  refine ⟨by simp [hi, hz], ?_⟩
  rw [List.getElem?_map, List.getElem?_append_left hi]
  simp [hi]

end exact

/-- on `[-, 1, 3, 2]`, with minimum period 2 -/
example : cummax line105 = ⟨[.nan, .fin 1, .fin 3, .fin 3], 2⟩ ∧ cummin line105 = ⟨[.nan, .fin 1, .fin 1, .fin 1], 2⟩ ∧
    cumprod line105 = ⟨[.nan, .fin 1, .fin 3, .fin 6], 2⟩ ∧ notna line105 = ⟨[true, true, true, true], 2⟩ ∧
    isna line105 = ⟨[true, false, false, false], 2⟩ ∧ rank line105 = ⟨[.nan, .fin 1, .fin 3, .fin 2], 2⟩ ∧
    between (.fin 2) (.fin 3) line105 = ⟨[true, false, true, true], 2⟩ ∧
    fillna (.fin 0) line105 = line105 ∧ where_ line105 ⟨[true, true, false, true], 1⟩ = ⟨[.nan, .fin 1, .nan, .fin 2], 2⟩ ∧
    mask line105 ⟨[true, true, false, true], 1⟩ = ⟨[.nan, .nan, .fin 3, .nan], 2⟩ := by
  decide +kernel

/-- such a line meets the hypothesis of `C106_cumulative` ... -/
example : Holds (K := ℚ) line105 4 2 (fun i => if i = 1 then 1 else if i = 2 then 3 else 2) := by
  refine ⟨rfl, rfl, by decide, fun i h1 h2 => ?_⟩
  interval_cases i <;> first | omega | decide +kernel

/-- ... and of `C106_no_lookahead`. -/
example : Pref line105 ⟨line105.series ++ [.fin 9], 2⟩ := ⟨by decide, rfl, ⟨[.fin 9], rfl⟩⟩

/-- the further operations on `[1, -, -, 4, -]` -/
example : interpolate (V := Ext ℚ) ⟨[.fin 1, .nan, .nan, .fin 4, .nan], 1⟩ = ⟨[.fin 1, .fin 2, .fin 3, .fin 4, .fin 4], 1⟩ ∧
    isin [.fin 4, .nan] (⟨[.fin 1, .nan, .nan, .fin 4, .nan], 1⟩ : Line (Ext ℚ)) = ⟨[false, true, true, true, true], 1⟩ ∧
    replace .nan (.fin 0) (⟨[.fin 1, .nan, .fin 4], 1⟩ : Line (Ext ℚ)) = ⟨[.fin 1, .fin 0, .fin 4], 1⟩ ∧
    combine (· - ·) (line105) line105 = ⟨[.nan, .fin 0, .fin 0, .fin 0], 2⟩ ∧
    isinLine (V := Ext ℚ) ⟨[.fin 1, .fin 2], 1⟩ ⟨[.fin 3, .fin 1], 1⟩ = ⟨[true, false], 1⟩ := by
  decide +kernel

end Bta
