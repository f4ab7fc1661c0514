import Verif.Lemmas.Osc
import Verif.Lemmas.Mas
import Verif.Lemmas.Avg

/-!
# Positions of extremes (C43) and the moving average with variable period (C42)
-/

set_option linter.unusedSectionVars false
set_option linter.unusedVariables false

/-- `k` is the first of the bars `lo .. hi` where `x` is greatest -/
def Spec.FirstMax {K : Type} [LinearOrder K] (x : ℕ → K) (lo hi k : ℕ) : Prop :=
  (lo ≤ k ∧ k ≤ hi) ∧ (∀ j, lo ≤ j → j ≤ hi → x j ≤ x k) ∧ ∀ j, lo ≤ j → j < k → x j < x k

/-- `k` is the first of the bars `lo .. hi` where `x` is least -/
def Spec.FirstMin {K : Type} [LinearOrder K] (x : ℕ → K) (lo hi k : ℕ) : Prop :=
  (lo ≤ k ∧ k ≤ hi) ∧ (∀ j, lo ≤ j → j ≤ hi → x k ≤ x j) ∧ ∀ j, lo ≤ j → j < k → x k < x j

theorem Spec.FirstMax.unique {K : Type} [LinearOrder K] {x : ℕ → K} {lo hi k k' : ℕ} (h : FirstMax x lo hi k)
    (h' : FirstMax x lo hi k') : k = k' := by
  rcases lt_trichotomy k k' with e | e | e
  · exact absurd (h'.2.2 k h.1.1 e) (not_lt.mpr (h.2.1 k' h'.1.1 h'.1.2))
  · exact e
  · exact absurd (h.2.2 k' h'.1.1 e) (not_lt.mpr (h'.2.1 k h.1.1 h.1.2))

theorem Spec.FirstMin.unique {K : Type} [LinearOrder K] {x : ℕ → K} {lo hi k k' : ℕ} (h : FirstMin x lo hi k)
    (h' : FirstMin x lo hi k') : k = k' := by
  rcases lt_trichotomy k k' with e | e | e
  · exact absurd (h'.2.2 k h.1.1 e) (not_lt.mpr (h.2.1 k' h'.1.1 h'.1.2))
  · exact e
  · exact absurd (h.2.2 k' h'.1.1 e) (not_lt.mpr (h'.2.1 k h.1.1 h.1.2))

namespace Bta
open Line Ext

variable {K : Type} [Field K] [LinearOrder K] [IsStrictOrderedRing K]
variable {a : Line (Ext K)} {n m p : ℕ} {x : ℕ → K}

theorem firstMax_wnd (x : ℕ → K) {p i : ℕ} (hp : 1 ≤ p) (hi : p ≤ i + 1) :
    argmaxV (wnd (fun i => (fin (x i) : Ext K)) p i) < p ∧
    Spec.FirstMax x (i + 1 - p) i (i + 1 - p + argmaxV (wnd (fun i => (fin (x i) : Ext K)) p i)) := by
  have h := argmaxV_spec (fun j => x (i + 1 - p + j)) hp
  simp only [] at h
  rw [show wnd (fun i => (fin (x i) : Ext K)) p i = (List.range p).map fun j => (fin (x (i + 1 - p + j)) : Ext K) from rfl]
  generalize argmaxV (List.map (fun j => (fin (x (i + 1 - p + j)) : Ext K)) (List.range p)) = r at h ⊢
  obtain ⟨h1, h2, h3⟩ := h
  refine ⟨h1, ⟨by omega, by omega⟩, fun j h4 h5 => ?_, fun j h4 h5 => ?_⟩
  · have := h2 (j - (i + 1 - p)) (by omega)
    rwa [show i + 1 - p + (j - (i + 1 - p)) = j from by omega] at this
  · have := h3 (j - (i + 1 - p)) (by omega)
    rwa [show i + 1 - p + (j - (i + 1 - p)) = j from by omega] at this

theorem firstMin_wnd (x : ℕ → K) {p i : ℕ} (hp : 1 ≤ p) (hi : p ≤ i + 1) :
    argminV (wnd (fun i => (fin (x i) : Ext K)) p i) < p ∧
    Spec.FirstMin x (i + 1 - p) i (i + 1 - p + argminV (wnd (fun i => (fin (x i) : Ext K)) p i)) := by
  have h := argminV_spec (fun j => x (i + 1 - p + j)) hp
  simp only [] at h
  rw [show wnd (fun i => (fin (x i) : Ext K)) p i = (List.range p).map fun j => (fin (x (i + 1 - p + j)) : Ext K) from rfl]
  generalize argminV (List.map (fun j => (fin (x (i + 1 - p + j)) : Ext K)) (List.range p)) = r at h ⊢
  obtain ⟨h1, h2, h3⟩ := h
  refine ⟨h1, ⟨by omega, by omega⟩, fun j h4 h5 => ?_, fun j h4 h5 => ?_⟩
  · have := h2 (j - (i + 1 - p)) (by omega)
    rwa [show i + 1 - p + (j - (i + 1 - p)) = j from by omega] at this
  · have := h3 (j - (i + 1 - p)) (by omega)
    rwa [show i + 1 - p + (j - (i + 1 - p)) = j from by omega] at this

theorem rel_core (arg : List (Ext K) → ℕ) (hx : Holds a n m x) (hp : 1 ≤ p) :
    Shows (rolling p (aggApply fun w => lit (arg w : ℚ)) a) n (m + p - 1)
      (fun i => (arg (wnd (fun i => (fin (x i) : Ext K)) p i) : K)) := by
  refine (rep_rolling hp hx).congr rfl fun i h1 h2 => ?_
  unfold aggApply whenAllFin
  beta_reduce
  rw [if_pos (by rw [wnd_fin]; exact all_fin _)]
  simp

/-- **C43** (relative): the value at a bar, added to the first bar of the window, is the first bar of the window with the
greatest value; for any minimum period of the input. -/
theorem C43_maxindex (hx : Holds a n m x) (hp : 1 ≤ p) :
    ∃ k : ℕ → ℕ, Shows (Ind.maxindex p a) n (m + p - 1) (fun i => (k i : K)) ∧
      ∀ i, m + p - 1 ≤ i + 1 → i < n → Spec.FirstMax x (i + 1 - p) i (i + 1 - p + k i) :=
  ⟨_, rel_core argmaxV hx hp, fun i h1 h2 => (firstMax_wnd x hp (by have := hx.pos; omega)).2⟩

/-- **C43** (relative, minimum) -/
theorem C43_minindex (hx : Holds a n m x) (hp : 1 ≤ p) :
    ∃ k : ℕ → ℕ, Shows (Ind.minindex p a) n (m + p - 1) (fun i => (k i : K)) ∧
      ∀ i, m + p - 1 ≤ i + 1 → i < n → Spec.FirstMin x (i + 1 - p) i (i + 1 - p + k i) :=
  ⟨_, rel_core argminV hx hp, fun i h1 h2 => (firstMin_wnd x hp (by have := hx.pos; omega)).2⟩

theorem absIdxGo_spec (arg : List (Ext K) → ℕ) {n s : ℕ} (hp : 1 ≤ p) (x : ℕ → K) :
    ∀ k j, j + k = n - s → Ind.absIdxGo p arg (tail n s fun i => (fin (x i) : Ext K)) k j (j + 1 - p) =
      tail n (s + j) fun i => if i + 1 < s + p then nan else
        fin ((arg (wnd (fun i => (fin (x i) : Ext K)) p i) + (i + 1 - s - p) : ℕ) : K) := by
  intro k
  induction k with
  | zero =>
    intro j h
    rw [tail_nil (k := s + j) _ (by omega)]; rfl
  | succ k ih =>
    intro j h
    rw [tail_cons (k := s + j) _ (by omega)]
    unfold Ind.absIdxGo
    by_cases hj : j + 1 < p
    · rw [if_pos hj, if_pos (by omega), show j + 1 - p = j + 1 + 1 - p from by omega, ih (j + 1) (by omega)]; rfl
    · rw [if_neg hj, window_tail _ (by omega) (by omega), wnd_fin, if_pos (all_fin _), if_neg (by omega),
        show j + 1 - p + 1 = j + 1 + 1 - p from by omega, ih (j + 1) (by omega), ← wnd_fin]
      congr 1
      rw [show j + s = s + j from by omega, show s + j + 1 - s - p = j + 1 - p from by omega]
      simp

/-- `_absidx`: the position found is counted from the first bar where the input delivers (bar `m - 1`). -/
theorem abs_core (arg : List (Ext K) → ℕ) (hx : Holds a n m x) (hp : 1 ≤ p) :
    Holds (Ind.absIndex p arg a) n 1 fun i => if i + 2 < m + p then 0 else
      ((arg (wnd (fun i => (fin (x i) : Ext K)) p i) + (i + 2 - m - p) : ℕ) : K) := by
  have hpos := hx.pos
  have hmi : (m : Int) - 1 = ((m - 1 : ℕ) : Int) := by omega
  have ht : pyFrom a.series ((m : Int) - 1) = tail n (m - 1) fun i => fin (x i) := by
    rw [hmi]; unfold pyFrom
    rw [pyStart_nat]
    by_cases h : m - 1 ≤ a.series.length
    · rw [Nat.min_eq_left h]; exact drop_tail hx (by omega)
    · rw [Nat.min_eq_right (by omega), List.drop_length, tail_nil _ (by have := hx.len; omega)]
  have hG := absIdxGo_spec arg (n := n) (s := m - 1) hp x (n - (m - 1)) 0 (by omega)
  rw [show 0 + 1 - p = 0 from by omega] at hG
  have hR : Rep nan (⟨setFrom n nan ((m : Int) - 1) (tail n (m - 1) fun i => if i + 1 < (m - 1) + p then nan else
        fin ((arg (wnd (fun i => (fin (x i) : Ext K)) p i) + (i + 1 - (m - 1) - p) : ℕ) : K)), (m : Int)⟩ : Line (Ext K)) n m _ :=
    Rep.build (M := m) (by omega) (le_refl _) (by intro i _ _; omega) rfl rfl
  unfold Ind.absIndex
  simp only [hx.mp, ht, tail_length, hx.len, hG, Nat.add_zero]
  refine { len := ?_, mp := rfl, pos := by omega, val := ?_ }
  · have := hR.len
    simpa [ofSeries] using this
  · intro i h1 h2
    simp only [ofSeries, List.getElem?_map]
    by_cases h : i + 1 < m
    · have := hR.pre i h h2
      simp only [] at this
      rw [this, if_pos (by omega)]
      simp
    · have := hR.val i (by omega) h2
      simp only [] at this
      rw [this]
      by_cases h' : i + 2 < m + p
      · rw [if_pos (by omega), if_pos h']; simp
      · rw [if_neg (by omega), if_neg h', show i + 1 - (m - 1) - p = i + 2 - m - p from by omega]; simp

/-- **C43** (absolute, any minimum period): the output has minimum period 1 and is 0 during the warm-up; afterwards it is
the position of the first maximum of the last `p` bars, counted from the first bar where the input delivers. -/
theorem C43_absolute_max_partial (hx : Holds a n m x) (hp : 1 ≤ p) :
    ∃ k : ℕ → ℕ, Holds (Ind.maxindexAbs p a) n 1 (fun i => (k i : K)) ∧
      (∀ i, i + 2 < m + p → k i = 0) ∧
      ∀ i, m + p ≤ i + 2 → Spec.FirstMax x (i + 1 - p) i (k i + (m - 1)) := by
  have hpos := hx.pos
  refine ⟨fun i => if i + 2 < m + p then 0 else argmaxV (wnd (fun i => (fin (x i) : Ext K)) p i) + (i + 2 - m - p),
    (abs_core argmaxV hx hp).congr rfl fun i _ _ => ?_, fun i h => ?_, fun i h => ?_⟩
  · by_cases h : i + 2 < m + p
    · simp [h]
    · simp [h]
  · beta_reduce; rw [if_pos h]
  · beta_reduce; rw [if_neg (by omega)]
    have := (firstMax_wnd x hp (by omega : p ≤ i + 1)).2
    rwa [show argmaxV (wnd (fun i => (fin (x i) : Ext K)) p i) + (i + 2 - m - p) + (m - 1) =
      i + 1 - p + argmaxV (wnd (fun i => (fin (x i) : Ext K)) p i) from by omega]

theorem C43_absolute_min_partial (hx : Holds a n m x) (hp : 1 ≤ p) :
    ∃ k : ℕ → ℕ, Holds (Ind.minindexAbs p a) n 1 (fun i => (k i : K)) ∧
      (∀ i, i + 2 < m + p → k i = 0) ∧
      ∀ i, m + p ≤ i + 2 → Spec.FirstMin x (i + 1 - p) i (k i + (m - 1)) := by
  have hpos := hx.pos
  refine ⟨fun i => if i + 2 < m + p then 0 else argminV (wnd (fun i => (fin (x i) : Ext K)) p i) + (i + 2 - m - p),
    (abs_core argminV hx hp).congr rfl fun i _ _ => ?_, fun i h => ?_, fun i h => ?_⟩
  · by_cases h : i + 2 < m + p
    · simp [h]
    · simp [h]
  · beta_reduce; rw [if_pos h]
  · beta_reduce; rw [if_neg (by omega)]
    have := (firstMin_wnd x hp (by omega : p ≤ i + 1)).2
    rwa [show argminV (wnd (fun i => (fin (x i) : Ext K)) p i) + (i + 2 - m - p) + (m - 1) =
      i + 1 - p + argminV (wnd (fun i => (fin (x i) : Ext K)) p i) from by omega]

/-- **C43** (absolute) fails for every input with a minimum period above 1, at every bar: the value delivered after the
warm-up is never the absolute index of the first maximum. -/
theorem C43_absolute_wrong (hx : Holds a n m x) (hp : 1 ≤ p) (hm : 2 ≤ m) {i k : ℕ} (hi : m + p ≤ i + 2) (hn : i < n)
    (hk : Spec.FirstMax x (i + 1 - p) i k) : (Ind.maxindexAbs p a).series[i]? ≠ some (fin (k : K)) := by
  obtain ⟨f, h1, -, h3⟩ := C43_absolute_max_partial hx hp
  rw [h1.val i (by omega) hn]
  have := (h3 i hi).unique hk
  intro h
  have h' : ((f i : K)) = k := by simpa using h
  have : f i = k := by exact_mod_cast h'
  omega

/-- **C43** `minmaxindex`: the first output is about the minimum, the second about the maximum, counted within the window, ... -/
theorem C43_minmaxindex (hx : Holds a n m x) (hp : 1 ≤ p) :
    ∃ lo hi : ℕ → ℕ, Shows (Ind.minmaxindex false p a).1 n (m + p - 1) (fun i => (lo i : K)) ∧
      Shows (Ind.minmaxindex false p a).2 n (m + p - 1) (fun i => (hi i : K)) ∧
      ∀ i, m + p - 1 ≤ i + 1 → i < n → Spec.FirstMin x (i + 1 - p) i (i + 1 - p + lo i) ∧
        Spec.FirstMax x (i + 1 - p) i (i + 1 - p + hi i) := by
  obtain ⟨lo, h1, h2⟩ := C43_minindex hx hp
  obtain ⟨hi, h3, h4⟩ := C43_maxindex hx hp
  exact ⟨lo, hi, h1, h3, fun i h5 h6 => ⟨h2 i h5 h6, h4 i h5 h6⟩⟩

/-- ... and with `_absidx` from the first bar where the input delivers. -/
theorem C43_minmaxindex_absolute_partial (hx : Holds a n m x) (hp : 1 ≤ p) :
    ∃ lo hi : ℕ → ℕ, Holds (Ind.minmaxindex true p a).1 n 1 (fun i => (lo i : K)) ∧
      Holds (Ind.minmaxindex true p a).2 n 1 (fun i => (hi i : K)) ∧
      (∀ i, i + 2 < m + p → lo i = 0 ∧ hi i = 0) ∧
      ∀ i, m + p ≤ i + 2 → Spec.FirstMin x (i + 1 - p) i (lo i + (m - 1)) ∧ Spec.FirstMax x (i + 1 - p) i (hi i + (m - 1)) := by
  obtain ⟨lo, h1, h2, h3⟩ := C43_absolute_min_partial hx hp
  obtain ⟨hi, h4, h5, h6⟩ := C43_absolute_max_partial hx hp
  exact ⟨lo, hi, h1, h4, fun i h => ⟨h2 i h, h5 i h⟩, fun i h => ⟨h3 i h, h6 i h⟩⟩

example : Ind.minmaxindex false 3 (bars 5 fun i => ((i : ℚ) - 2) ^ 2) =
    (⟨[nan, nan, fin 2, fin 1, fin 0], 3⟩, ⟨[nan, nan, fin 0, fin 0, fin 2], 3⟩) := by decide +kernel

/-- raw data: absolute indices; the same data one bar later, as output of another indicator: all indices are 1 too low -/
example : (Ind.maxindexAbs 2 (bars 5 fun i => ((i : ℚ) - 2) ^ 2)).series = [fin 0, fin 0, fin 1, fin 3, fin 4] := by
  decide +kernel
example : (Ind.maxindexAbs 2 ((bars 6 fun i => if i = 5 then 0 else ((i : ℚ) - 2) ^ 2).shift 1)).series =
    [fin 0, fin 0, fin 0, fin 1, fin 3, fin 4] := by decide +kernel
example : (Ind.maxindex 3 (bars 6 fun i => ((i : ℚ) - 2) ^ 2)).series = [nan, nan, fin 0, fin 0, fin 2, fin 2] := by
  decide +kernel

/-! ## C42 -/

/-- the period used at bar `i`: the one given, restricted to the allowed range -/
def _root_.Spec.clipPer (minp maxp : ℕ) (periods : List ℕ) (i : ℕ) : ℕ :=
  let q := (periods[i]?).getD 0
  let lo := min minp maxp
  let hi := max minp maxp
  if q < lo then lo else if q ≤ hi then q else hi

theorem clipPer_eq (minp maxp : ℕ) {periods : List ℕ} {i : ℕ} (hi : i < periods.length) :
    Spec.clipPer minp maxp periods i = Ind.clipBoth minp maxp periods[i] := by
  unfold Spec.clipPer Ind.clipBoth
  simp only [List.getElem?_eq_getElem hi, Option.getD_some]
  split_ifs <;> omega

theorem mapM_ok {α β : Type} (f : α → Except Err β) (R : α → β) (l : List α) (h : ∀ q ∈ l, f q = .ok (R q)) :
    l.mapM f = .ok (l.map R) := by
  induction l with
  | nil => rfl
  | cons q l ih =>
    rw [List.mapM_cons, h q (by simp), ih fun q hq => h q (by simp [hq])]
    rfl

theorem foldl_max_le {α : Type} (f : α → Int) (l : List α) (b : Int) (h : ∀ q ∈ l, f q ≤ b) :
    l.foldl (fun m q => max m (f q)) b = b := by
  induction l with
  | nil => rfl
  | cons q l ih =>
    rw [List.foldl_cons, max_eq_left (h q (by simp)), ih fun q hq => h q (by simp [hq])]

theorem find_map {β : Type} (R : ℕ → β) (l : List ℕ) {q : ℕ} (h : q ∈ l) :
    (l.map fun q => (q, R q)).find? (fun e => e.1 == q) = some (q, R q) := by
  induction l with
  | nil => simp at h
  | cons r l ih =>
    rw [List.map_cons, List.find?_cons]
    by_cases hr : r = q
    · subst hr; simp
    · have : q ∈ l := by simpa [Ne.symm hr] using h
      rw [ih this, show (r == q) = false from by simp [hr]]

theorem foldl_max_mem_nat (l : List ℕ) : (∀ q ∈ l, q ≤ l.foldl max 0) ∧ (l ≠ [] → l.foldl max 0 ∈ l) := by
  refine ⟨fun q hq => Spec.foldl_max_ge l 0 q hq, fun hl => ?_⟩
  rcases Spec.foldl_max_mem l 0 with h | h
  · cases l with
    | nil => exact absurd rfl hl
    | cons r l =>
      have : r ≤ (r :: l).foldl max 0 := Spec.foldl_max_ge _ 0 r (by simp)
      rw [h] at this ⊢
      have : r = 0 := by omega
      simp [this]
  · exact h

theorem mavp_core {ma : MA (Ext K)} {F} (hma : IsMA ma F ext1) {minp maxp : ℕ} (h1 : 1 ≤ minp) (h2 : minp ≤ maxp)
    (talib : Bool) (hx : Holds a n m x) {periods : List ℕ} (hlen : periods.length = n) {top : ℕ}
    (htop : top = if talib then maxp else (((periods.map (Ind.clipBoth minp maxp)).dedup).foldl max 0))
    (hn : m + top - 1 ≤ n) (hn0 : 1 ≤ n) :
    Gives (Ind.mavp ma minp maxp talib a periods) fun r =>
      Shows r n (m + top - 1) fun i => F (Spec.clipPer minp maxp periods i) x (m - 1) i := by
  have hpos := hx.pos
  set u := (periods.map (Ind.clipBoth minp maxp)).dedup with hu
  have hmem : ∀ i, i < n → Spec.clipPer minp maxp periods i ∈ u := by
    intro i hi
    rw [hu, List.mem_dedup, List.mem_map]
    refine ⟨periods[i], List.getElem_mem _, ?_⟩
    exact (clipPer_eq minp maxp (by omega)).symm
  have hb : ∀ q ∈ u, 1 ≤ q ∧ q ≤ top := by
    intro q hq
    have hq' := hq
    rw [hu, List.mem_dedup, List.mem_map] at hq'
    obtain ⟨r, -, hr⟩ := hq'
    unfold Ind.clipBoth at hr
    refine ⟨by omega, ?_⟩
    subst htop
    cases talib
    · simpa using (foldl_max_mem_nat u).1 q hq
    · simp; omega
  have htop1 : 1 ≤ top := by
    have := hb _ (hmem 0 (by omega)); omega
  have hR : ∀ q, ∃ r, q ∈ u → ma q a = .ok r ∧ Shows r n (m + (q - 1)) (fun i => F q x (m - 1) i) := by
    intro q
    by_cases hq : q ∈ u
    · obtain ⟨r, hr⟩ := hma q (hb q hq).1 a n m x hx (by unfold ext1; have := (hb q hq).2; omega)
      exact ⟨r, fun _ => by unfold ext1 at hr; exact hr⟩
    · exact ⟨⟨[], 1⟩, fun h => absurd h hq⟩
  choose R hR using hR
  have hmap : u.mapM (fun q => do return (q, ← ma q a)) = (.ok (u.map fun q => (q, R q)) : Except Err _) := by
    refine mapM_ok _ (fun q => (q, R q)) u fun q hq => ?_
    rw [(hR q hq).1]; rfl
  have htop' : (if talib then (maxp : Int) else ((u.foldl max 0 : ℕ) : Int)) = (top : Int) := by
    rw [htop]; split <;> rfl
  have hmp : (u.map fun q => (q, R q)).foldl (fun m q => max m q.2.minperiod) (max (a.minperiod + ((top : Int) - 1)) 1) =
      ((m + top - 1 : ℕ) : Int) := by
    rw [hx.mp, show max ((m : Int) + ((top : Int) - 1)) 1 = ((m + top - 1 : ℕ) : Int) from by omega]
    refine foldl_max_le _ _ _ fun e he => ?_
    obtain ⟨q, hq, rfl⟩ := List.mem_map.mp he
    have := (hR q hq).2.mp
    have h3 := hb q hq
    simp only []
    rw [this]
    omega
  unfold Ind.mavp
  simp only []
  rw [← hu, hmap]
  refine Gives.pure ?_
  simp only [htop', hmp]
  refine Rep.build (M := m + top - 1) (by omega) (le_refl _) (by intro i _ _; omega) ?_ ?_
  · show setFrom _ _ _ _ = _
    rw [hx.len]
    congr 1
    rw [show (((m + top - 1 : ℕ) : Int) - 1) = ((m + top - 1 - 1 : ℕ) : Int) from by omega]
    unfold pyFrom
    rw [pyStart_nat]
    simp only [List.length_map, List.length_range]
    rw [Nat.min_eq_left (by omega)]
    refine tail_ext (by simp) fun j hj => ?_
    rw [List.getElem?_drop, List.getElem?_map, List.getElem?_range (by omega)]
    have hi : m + top - 1 - 1 + j < n := by omega
    have hi2 : m + top ≤ m + top - 1 - 1 + j + 2 := by omega
    rw [show j + (m + top - 1 - 1) = m + top - 1 - 1 + j from by omega]
    generalize m + top - 1 - 1 + j = i at *
    have hc : ((List.map (Ind.clipBoth minp maxp) periods)[i]?).getD 0 = Spec.clipPer minp maxp periods i := by
      rw [clipPer_eq minp maxp (by omega)]
      simp [List.getElem?_eq_getElem (by omega : i < periods.length)]
    simp only [Option.map_some, hc]
    have hq := hmem i hi
    rw [find_map R u hq]
    have h3 := hb _ hq
    simp only []
    rw [(hR _ hq).2.val i (by omega) hi]
    rfl
  · rw [clone_mp_pos (by omega)]

/-- **C42** (part that holds): from bar `m + top - 2` on, where `top` is the greatest period needed anywhere in the series
(`maxperiod` with ta-lib compatibility), the value at a bar is that of the moving average with the period of this bar. -/
theorem C42_mavp_partial {ma : MA (Ext K)} {F} (hma : IsMA ma F ext1) {minp maxp : ℕ} (h1 : 1 ≤ minp) (h2 : minp ≤ maxp)
    (hx : Holds a n m x) {periods : List ℕ} (hlen : periods.length = n) {top : ℕ}
    (htop : (∃ i, i < n ∧ Spec.clipPer minp maxp periods i = top) ∧ ∀ i, i < n → Spec.clipPer minp maxp periods i ≤ top)
    (hn : m + top - 1 ≤ n) :
    (Gives (Ind.mavp ma minp maxp false a periods) fun r =>
      Shows r n (m + top - 1) fun i => F (Spec.clipPer minp maxp periods i) x (m - 1) i) ∧
    (m + maxp - 1 ≤ n → Gives (Ind.mavp ma minp maxp true a periods) fun r =>
      Shows r n (m + maxp - 1) fun i => F (Spec.clipPer minp maxp periods i) x (m - 1) i) := by
  have hpos := hx.pos
  have hn0 : 1 ≤ n := by obtain ⟨⟨i, hi, -⟩, -⟩ := htop; omega
  refine ⟨mavp_core hma h1 h2 false hx hlen ?_ hn hn0, fun h => mavp_core hma h1 h2 true hx hlen (by simp) h hn0⟩
  simp only [Bool.false_eq_true, if_false]
  set u := (periods.map (Ind.clipBoth minp maxp)).dedup with hu
  have hin : ∀ q, q ∈ u ↔ ∃ i, i < n ∧ Spec.clipPer minp maxp periods i = q := by
    intro q
    rw [hu, List.mem_dedup, List.mem_map]
    constructor
    · rintro ⟨r, hr, rfl⟩
      obtain ⟨i, hi, rfl⟩ := List.mem_iff_getElem.mp hr
      exact ⟨i, by omega, clipPer_eq minp maxp hi⟩
    · rintro ⟨i, hi, rfl⟩
      exact ⟨periods[i], List.getElem_mem _, (clipPer_eq minp maxp (by omega)).symm⟩
  have ht : top ∈ u := (hin top).mpr htop.1
  have hmax := foldl_max_mem_nat u
  refine le_antisymm (hmax.1 _ ht) ?_
  obtain ⟨i, hi, h⟩ := (hin _).mp (hmax.2 (List.ne_nil_of_mem ht))
  rw [← h]; exact htop.2 i hi

/-- **C42** fails (warm-up), for all data: a bar at which the average with its own period is defined shows NaN if a longer
period is asked for at any other bar, also a later one. -/
theorem C42_warmup_looks_ahead {ma : MA (Ext K)} {F} (hma : IsMA ma F ext1) {minp maxp : ℕ} (h1 : 1 ≤ minp)
    (h2 : minp ≤ maxp) (hx : Holds a n m x) {periods : List ℕ} (hlen : periods.length = n) {top : ℕ}
    (htop : (∃ i, i < n ∧ Spec.clipPer minp maxp periods i = top) ∧ ∀ i, i < n → Spec.clipPer minp maxp periods i ≤ top)
    (hn : m + top - 1 ≤ n) {i : ℕ} (hi : i + 2 < m + top) :
    (Gives (Ind.mavp ma minp maxp false a periods) fun r => r.series[i]? = some nan) ∧
    (m + Spec.clipPer minp maxp periods i ≤ i + 2 → Gives (ma (Spec.clipPer minp maxp periods i) a) fun r =>
      ∃ v : K, r.series[i]? = some (fin v)) := by
  have hpos := hx.pos
  refine ⟨(C42_mavp_partial hma h1 h2 hx hlen htop hn).1.imp fun r hr => hr.pre i (by omega) (by omega), fun h => ?_⟩
  have hq : 1 ≤ Spec.clipPer minp maxp periods i := by
    unfold Spec.clipPer; simp only []; split_ifs <;> omega
  exact (hma _ hq a n m x hx (by unfold ext1; omega)).imp fun r hr => ⟨_, hr.val i (by unfold ext1; omega) (by omega)⟩

/-- the period of the last bar changes what is shown two bars before -/
example : Ind.mavp Ind.sma 2 30 false (bars 4 fun i => (1 + (i * (i + 1) / 2 : ℕ) : ℚ)) [2, 2, 2, 2] = .ok ⟨[nan, fin (3/2), fin 3, fin (11/2)], 2⟩ ∧
    Ind.mavp Ind.sma 2 30 false (bars 4 fun i => (1 + (i * (i + 1) / 2 : ℕ) : ℚ)) [2, 2, 2, 4] = .ok ⟨[nan, nan, nan, fin (7/2)], 4⟩ := by
  constructor <;> decide +kernel
end Bta
