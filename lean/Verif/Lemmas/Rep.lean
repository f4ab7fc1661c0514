import Verif.Spec.Lines

/-!
# Pointwise characterisation of line operations

`Rep fill l n m g`: the line has `n` bars, minimum period `m ≥ 1`, holds `fill` before it and `g i` at each bar `i`
(0-based) from the minimum period on.  `RepW` is the weak form, which says nothing about the warm-up region.
-/

set_option linter.unusedSectionVars false

namespace Bta

variable {α β γ V : Type}

/-- the values of `g` from position `k` up to `n` (exclusive) -/
def tail (n k : ℕ) (g : ℕ → α) : List α := (List.range (n - k)).map fun j => g (j + k)

@[simp] theorem tail_length (n k : ℕ) (g : ℕ → α) : (tail n k g).length = n - k := by simp [tail]

theorem tail_get (n k : ℕ) (g : ℕ → α) (j : ℕ) (h : j < n - k) : (tail n k g)[j]? = some (g (j + k)) := by
  simp [tail, h]

theorem tail_get_none (n k : ℕ) (g : ℕ → α) (j : ℕ) (h : n - k ≤ j) : (tail n k g)[j]? = none := by
  simp [tail, h]

theorem tail_ext {n k : ℕ} {xs : List α} {g : ℕ → α} (hl : xs.length = n - k)
    (h : ∀ j, j < n - k → xs[j]? = some (g (j + k))) : xs = tail n k g := by
  apply List.ext_getElem?
  intro j
  by_cases hj : j < n - k
  · rw [h j hj, tail_get n k g j hj]
  · rw [tail_get_none n k g j (by omega), List.getElem?_eq_none (by omega)]

theorem tail_congr {n k : ℕ} {g h : ℕ → α} (e : ∀ i, k ≤ i → i < n → g i = h i) : tail n k g = tail n k h := by
  refine tail_ext (by simp) ?_
  intro j hj
  rw [tail_get n k g j hj, e _ (by omega) (by omega)]

theorem pyStart_nat (n k : ℕ) : pyStart n (k : Int) = min k n := by
  simp [pyStart]

theorem pyStart_pred (n : ℕ) {m : ℕ} (h : 1 ≤ m) : pyStart n ((m : Int) - 1) = min (m - 1) n := by
  have : ((m : Int) - 1) = ((m - 1 : ℕ) : Int) := by omega
  rw [this, pyStart_nat]

theorem pyFrom_tail {l : Line α} {n m : ℕ} {g : ℕ → α} (h : RepW l n m g) {M : ℕ} (hM : m ≤ M) :
    pyFrom l.series ((M : Int) - 1) = tail n (M - 1) g := by
  have hp := h.pos
  unfold pyFrom
  rw [pyStart_pred _ (by omega), h.len]
  refine tail_ext ?_ ?_
  · rw [List.length_drop, h.len]; omega
  · intro j hj
    rw [List.getElem?_drop, Nat.min_eq_left (by omega), show M - 1 + j = j + (M - 1) from by omega]
    exact h.val _ (by omega) (by omega)

/-- result of `setFrom` at the minimum period -/
theorem setFrom_get_pre {fill : α} {n M : ℕ} (hM : 1 ≤ M) (r : List α) {i : ℕ} (hi : i + 1 < M) (hn : i < n) :
    (setFrom n fill ((M : Int) - 1) r)[i]? = some fill := by
  unfold setFrom
  rw [pyStart_pred _ hM, List.getElem?_append_left (by simp; omega)]
  simp only [List.getElem?_replicate]
  rw [if_pos (by omega)]

theorem setFrom_get_val {fill : α} {n M : ℕ} (hM : 1 ≤ M) (h : ℕ → α) {i : ℕ} (hi : M ≤ i + 1) (hn : i < n) :
    (setFrom n fill ((M : Int) - 1) (tail n (M - 1) h))[i]? = some (h i) := by
  unfold setFrom
  rw [pyStart_pred _ hM, List.getElem?_append_right (by simp; omega)]
  rw [List.length_replicate, tail_get _ _ _ _ (by omega)]
  congr 2
  omega

theorem setFrom_length {fill : α} {n M : ℕ} (hM : 1 ≤ M) (h : ℕ → α) :
    (setFrom n fill ((M : Int) - 1) (tail n (M - 1) h)).length = n := by
  unfold setFrom
  rw [pyStart_pred _ hM]
  simp; omega

/-- building a result: values are written from `M-1` on, the final minimum period is `m ≥ M`, and what is
written before it is `fill`. -/
theorem Rep.build {fill : α} {n M m : ℕ} (hM : 1 ≤ M) (hm : M ≤ m) {h : ℕ → α}
    (hpre : ∀ i, M ≤ i + 1 → i + 1 < m → i < n → h i = fill) {l : Line α}
    (hs : l.series = setFrom n fill ((M : Int) - 1) (tail n (M - 1) h)) (hmp : l.minperiod = (m : Int)) :
    Rep fill l n m h where
  len := by rw [hs, setFrom_length hM]
  mp := hmp
  pos := by omega
  val := by
    intro i hi hn
    rw [hs, setFrom_get_val hM h (by omega) hn]
  pre := by
    intro i hi hn
    rw [hs]
    by_cases h1 : M ≤ i + 1
    · rw [setFrom_get_val hM h h1 hn, hpre i h1 hi hn]
    · rw [setFrom_get_pre hM _ (by omega) hn]

theorem zipWith_tail (f : α → β → γ) (n k : ℕ) (g : ℕ → α) (h : ℕ → β) :
    List.zipWith f (tail n k g) (tail n k h) = tail n k (fun i => f (g i) (h i)) := by
  refine tail_ext (by simp) ?_
  intro j hj
  rw [List.getElem?_zipWith, tail_get _ _ _ _ hj, tail_get _ _ _ _ hj]

theorem zip_tail (n k : ℕ) (g : ℕ → α) (h : ℕ → β) :
    List.zip (tail n k g) (tail n k h) = tail n k (fun i => (g i, h i)) :=
  zipWith_tail Prod.mk n k g h

theorem map_tail (f : α → β) (n k : ℕ) (g : ℕ → α) : (tail n k g).map f = tail n k (fun i => f (g i)) := by
  simp [tail, Function.comp_def]

theorem clone_mp_pos {s : Line β} {x : List α} {m : ℕ} (h : 1 ≤ m) :
    Line.clone s x (m : Int) = ⟨x, (m : Int)⟩ := by
  unfold Line.clone
  rw [if_neg (by omega)]

theorem imax_cast (a b : ℕ) : max (a : Int) (b : Int) = ((max a b : ℕ) : Int) := by omega

theorem rep_binop {f : α → β → γ} {fill : γ} {a : Line α} {b : Line β} {n m m' : ℕ} {g : ℕ → α} {h : ℕ → β}
    (ha : RepW a n m g) (hb : RepW b n m' h) :
    Rep fill (Line.binop f fill a b) n (max m m') (fun i => f (g i) (h i)) := by
  have hp := ha.pos
  unfold Line.binop
  simp only [ha.mp, hb.mp, imax_cast]
  rw [clone_mp_pos (by omega), pyFrom_tail ha (by omega), pyFrom_tail hb (by omega), zipWith_tail]
  refine Rep.build (M := max m m') (by omega) (le_refl _) ?_ ?_ rfl
  · intro i h1 h2; omega
  · simp only [ha.len]

theorem rep_binopS {f : α → β → γ} {fill : γ} {a : Line α} {c : β} {n m : ℕ} {g : ℕ → α}
    (ha : RepW a n m g) :
    Rep fill (Line.binopS f fill a c) n m (fun i => f (g i) c) := by
  have hp := ha.pos
  unfold Line.binopS
  have e : max (m : Int) 1 = (m : Int) := by omega
  simp only [ha.mp, e]
  rw [clone_mp_pos (by omega), pyFrom_tail ha (by omega), map_tail]
  refine Rep.build (M := m) (by omega) (le_refl _) ?_ ?_ rfl
  · intro i h1 h2; omega
  · simp only [ha.len]

theorem rep_stdop2 {F : List α → List β → List γ} {fill : γ} {a : Line α} {b : Line β} {n m m' : ℕ}
    {g : ℕ → α} {h : ℕ → β} {k : ℕ → γ}
    (ha : RepW a n m g) (hb : RepW b n m' h)
    (hF : F (tail n (max m m' - 1) g) (tail n (max m m' - 1) h) = tail n (max m m' - 1) k) :
    Rep fill (Line.stdop2 F fill a b) n (max m m') k := by
  have hp := ha.pos
  unfold Line.stdop2
  simp only [ha.mp, hb.mp, imax_cast]
  rw [clone_mp_pos (by omega), pyFrom_tail ha (by omega), pyFrom_tail hb (by omega), hF]
  refine Rep.build (M := max m m') (by omega) (le_refl _) ?_ ?_ rfl
  · intro i h1 h2; omega
  · simp only [ha.len]

theorem rep_stdop {F : List α → List β} {fill : β} {a : Line α} {n m : ℕ} {inc : ℕ} {g : ℕ → α} {k : ℕ → β}
    (ha : RepW a n m g) (hF : F (tail n (m - 1) g) = tail n (m - 1) k)
    (hpre : ∀ i, m ≤ i + 1 → i + 1 < m + inc → i < n → k i = fill) :
    Rep fill (Line.stdop F fill (inc : Int) a) n (m + inc) k := by
  have hp := ha.pos
  unfold Line.stdop
  simp only [ha.mp]
  rw [clone_mp_pos (by omega), pyFrom_tail ha (by omega), hF]
  refine Rep.build (M := m) (by omega) (by omega) hpre ?_ ?_
  · simp only [ha.len]
  · simp

theorem rep_apply {F : List α → List β} {fill : β} {a : Line α} {n m : ℕ} {g : ℕ → α} {k : ℕ → β}
    (ha : RepW a n m g) (hF : F (tail n (m - 1) g) = tail n (m - 1) k) :
    Rep fill (Line.apply F fill a) n m k := by
  have hp := ha.pos
  unfold Line.apply
  simp only [ha.mp]
  rw [clone_mp_pos (by omega), pyFrom_tail ha (by omega), hF]
  refine Rep.build (M := m) (by omega) (by omega) ?_ ?_ rfl
  · intro i h1 h2; omega
  · simp only [ha.len]

/-- changing the description of the values -/
theorem RepW.congr {l : Line α} {n m m' : ℕ} {g h : ℕ → α} (H : RepW l n m g) (hm : m = m')
    (e : ∀ i, m' ≤ i + 1 → i < n → g i = h i) : RepW l n m' h := by
  subst hm
  exact { H with val := fun i h1 h2 => by rw [H.val i h1 h2, e i h1 h2] }

theorem Rep.congr {fill : α} {l : Line α} {n m m' : ℕ} {g h : ℕ → α} (H : Rep fill l n m g) (hm : m = m')
    (e : ∀ i, m' ≤ i + 1 → i < n → g i = h i) : Rep fill l n m' h := by
  have H' := H.toRepW.congr hm e
  subst hm
  exact { H' with pre := H.pre }

theorem RepW.ofSeries (n : ℕ) (x : ℕ → α) : RepW (Line.ofSeries ((List.range n).map x)) n 1 x where
  len := by simp [Line.ofSeries]
  mp := rfl
  pos := le_refl _
  val := by
    intro i _ hi
    simp [Line.ofSeries, hi]

theorem Rep.ofSeries (fill : α) (n : ℕ) (x : ℕ → α) : Rep fill (Line.ofSeries ((List.range n).map x)) n 1 x :=
  { RepW.ofSeries n x with pre := fun i h => by omega }

/-- two lines with the same description are equal -/
theorem Rep.ext {fill : α} {l l' : Line α} {n m : ℕ} {g h : ℕ → α} (H : Rep fill l n m g) (H' : Rep fill l' n m h)
    (e : ∀ i, m ≤ i + 1 → i < n → g i = h i) : l = l' := by
  cases l with | mk s p =>
  cases l' with | mk s' p' =>
  have hp : p = p' := by rw [show p = _ from H.mp, show p' = _ from H'.mp]
  subst hp
  congr 1
  apply List.ext_getElem?
  intro i
  by_cases hn : i < n
  · by_cases hm : m ≤ i + 1
    · rw [show s[i]? = _ from H.val i hm hn, show s'[i]? = _ from H'.val i hm hn, e i hm hn]
    · rw [show s[i]? = _ from H.pre i (by omega) hn, show s'[i]? = _ from H'.pre i (by omega) hn]
  · rw [List.getElem?_eq_none, List.getElem?_eq_none]
    · have := H'.len; simp only at this; omega
    · have := H.len; simp only at this; omega

/-! ### kernels on tails -/

section
variable [PyFloat V]

/-- the `w` values of `g` up to and including `i` -/
def wnd (g : ℕ → α) (w i : ℕ) : List α := (List.range w).map fun j => g (i + 1 - w + j)

@[simp] theorem wnd_length (g : ℕ → α) (w i : ℕ) : (wnd g w i).length = w := by simp [wnd]

theorem window_tail (g : ℕ → α) {n k w j : ℕ} (hj : j < n - k) (hw : w ≤ j + 1) :
    window w j (tail n k g) = wnd g w (j + k) := by
  apply List.ext_getElem?
  intro i
  unfold window wnd
  rw [List.getElem?_drop, List.getElem?_take]
  by_cases hi : i < w
  · rw [if_pos (by omega), tail_get _ _ _ _ (by omega)]
    simp only [List.getElem?_map, List.getElem?_range hi, Option.map_some]
    congr 2; omega
  · rw [if_neg (by omega), List.getElem?_eq_none (by simp; omega)]

theorem rollL_tail (w : ℕ) (agg : List α → V) (n k : ℕ) (g : ℕ → α) :
    rollL w agg (tail n k g) = tail n k (fun i => if i - k + 1 < w then nan else agg (wnd g w i)) := by
  refine tail_ext (by simp [rollL]) ?_
  intro j hj
  simp only [rollL, tail_length, List.getElem?_map, List.getElem?_range hj, Option.map_some]
  rw [show j + k - k = j from by omega]
  by_cases hw : j + 1 < w
  · rw [if_pos hw, if_pos hw]
  · rw [if_neg hw, if_neg hw, window_tail g hj (by omega)]

theorem rep_rolling {w : ℕ} (hw : 1 ≤ w) {agg : List α → V} {a : Line α} {n m : ℕ} {g : ℕ → α} (ha : RepW a n m g) :
    Rep nan (Line.rolling w agg a) n (m + w - 1) (fun i => agg (wnd g w i)) := by
  have hp := ha.pos
  unfold Line.rolling
  have e : max ((m : Int) + w - 1) 1 = ((m + w - 1 : ℕ) : Int) := by omega
  simp only [ha.mp, e]
  rw [clone_mp_pos (by omega), pyFrom_tail ha (by omega), rollL_tail]
  rw [ha.len]
  refine (Rep.build (M := m) (m := m + w - 1)
    (h := fun i => if i - (m - 1) + 1 < w then nan else agg (wnd g w i)) hp (by omega) ?_ rfl rfl).congr rfl ?_
  · intro i h1 h2 _
    rw [if_pos (by omega)]
  · intro i h1 _
    rw [if_neg (by omega)]

theorem rep_rolling2 {w : ℕ} (hw : 1 ≤ w) {agg : List (V × V) → V} {a b : Line V} {n m m' : ℕ} {g h : ℕ → V}
    (ha : RepW a n m g) (hb : RepW b n m' h) (hm : m' ≤ m) :
    Rep nan (Line.rolling2 w agg a b) n (m + w - 1) (fun i => agg (wnd (fun i => (g i, h i)) w i)) := by
  have hp := ha.pos
  unfold Line.rolling2
  have e : max ((m : Int) + w - 1) 1 = ((m + w - 1 : ℕ) : Int) := by omega
  simp only [ha.mp, e]
  rw [clone_mp_pos (by omega), pyFrom_tail ha (by omega), pyFrom_tail hb (by omega), zip_tail, rollL_tail]
  rw [ha.len]
  refine (Rep.build (M := m) (m := m + w - 1)
    (h := fun i => if i - (m - 1) + 1 < w then nan else agg (wnd (fun i => (g i, h i)) w i)) hp (by omega) ?_ rfl rfl).congr rfl ?_
  · intro i h1 h2 _
    rw [if_pos (by omega)]
  · intro i h1 _
    rw [if_neg (by omega)]

theorem shiftL_tail (s n k : ℕ) (g : ℕ → V) :
    shiftL (s : Int) (tail n k g) = tail n k (fun i => if i < k + s then nan else g (i - s)) := by
  unfold shiftL
  rw [if_pos (by omega)]
  refine tail_ext (by simp; omega) ?_
  intro j hj
  by_cases h : j < s
  · rw [List.getElem?_append_left (by simp; omega)]
    simp only [List.getElem?_replicate, tail_length, Int.toNat_natCast]
    rw [if_pos (by omega), if_pos (by omega)]
  · rw [List.getElem?_append_right (by simp; omega), List.getElem?_take]
    simp only [List.length_replicate, tail_length, Int.toNat_natCast]
    rw [if_pos (by omega), tail_get _ _ _ _ (by omega), if_neg (by omega)]
    congr 2; omega

theorem rep_shift {s : ℕ} {a : Line V} {n m : ℕ} {g : ℕ → V} (ha : RepW a n m g) :
    Rep nan (Line.shift (s : Int) a) n (m + s) (fun i => g (i - s)) := by
  have hp := ha.pos
  unfold Line.shift
  have := rep_stdop (fill := (nan : V)) (inc := s) ha (shiftL_tail s n (m - 1) g) (by
    intro i h1 h2 _; rw [if_pos (by omega)])
  refine this.congr rfl ?_
  intro i h1 _
  rw [if_neg (by omega)]

/-- `line(-s)` -/
theorem rep_ago {s : ℕ} (hs : 1 ≤ s) {a : Line V} {n m : ℕ} {g : ℕ → V} (ha : RepW a n m g) :
    Rep nan (Line.ago (-(s : Int)) a) n (m + s) (fun i => g (i - s)) := by
  unfold Line.ago
  rw [if_neg (by omega)]
  rw [neg_neg]
  exact rep_shift ha

theorem diffL_tail (s n k : ℕ) (g : ℕ → V) :
    diffL s (tail n k g) = tail n k (fun i => if i < k + s then nan else g i - g (i - s)) := by
  unfold diffL
  refine tail_ext (by simp; omega) ?_
  intro j hj
  by_cases h : j < s
  · rw [List.getElem?_append_left (by simp; omega)]
    simp only [List.getElem?_replicate, tail_length]
    rw [if_pos (by omega), if_pos (by omega)]
  · rw [List.getElem?_append_right (by simp; omega), List.getElem?_zipWith, List.getElem?_drop]
    simp only [List.length_replicate, tail_length]
    rw [tail_get _ _ _ _ (by omega), tail_get _ _ _ _ (by omega), if_neg (by omega)]
    simp only [Option.some.injEq]
    congr 2 <;> omega

theorem rep_diff {s : ℕ} {a : Line V} {n m : ℕ} {g : ℕ → V} (ha : RepW a n m g) :
    Rep nan (Line.diff s a) n (m + s) (fun i => g i - g (i - s)) := by
  have hp := ha.pos
  unfold Line.diff
  have := rep_stdop (fill := (nan : V)) (inc := s) ha (diffL_tail s n (m - 1) g) (by
    intro i h1 h2 _; rw [if_pos (by omega)])
  refine this.congr rfl ?_
  intro i h1 _
  rw [if_neg (by omega)]

theorem rep_mapOp {f : V → V} {a : Line V} {n m : ℕ} {g : ℕ → V} (ha : RepW a n m g) :
    Rep nan (Line.mapOp f a) n m (fun i => f (g i)) := by
  unfold Line.mapOp
  have := rep_stdop (fill := (nan : V)) (inc := 0) ha (map_tail f n (m - 1) g) (by
    intro i h1 h2 _; omega)
  exact this.congr (by omega) (fun _ _ _ => rfl)

theorem rep_clipLoL {a b : Line V} {n m m' : ℕ} {g h : ℕ → V} (ha : RepW a n m g) (hb : RepW b n m' h) :
    Rep nan (Line.clipLoL a b) n (max m m') (fun i => clipLo (g i) (h i)) :=
  rep_stdop2 ha hb (zipWith_tail _ _ _ _ _)

theorem rep_clipHiL {a b : Line V} {n m m' : ℕ} {g h : ℕ → V} (ha : RepW a n m g) (hb : RepW b n m' h) :
    Rep nan (Line.clipHiL a b) n (max m m') (fun i => clipHi (g i) (h i)) :=
  rep_stdop2 ha hb (zipWith_tail _ _ _ _ _)

end

end Bta
