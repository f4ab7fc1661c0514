import Verif.Props.Family
import Verif.Props.Price
import Verif.Float

/-!
# Periods add up (C130)

What an indicator says about a longer period follows from what it says about shorter ones, and a period of one bar says what the data say.
-/

set_option linter.unusedSectionVars false

namespace Bta

/-- a line is known from its bars and its minimum period -/
theorem Rep.unique {α : Type} {fill : α} {l l' : Line α} {n m : ℕ} {g : ℕ → α} (h : Rep fill l n m g) (h' : Rep fill l' n m g) : l = l' := by
  obtain ⟨s, k⟩ := l
  obtain ⟨s', k'⟩ := l'
  have hm : k = k' := h.mp.trans h'.mp.symm
  have hs : s = s' := by
    refine List.ext_getElem? fun i => ?_
    by_cases hi : i < n
    · by_cases h1 : m ≤ i + 1
      · exact (h.val i h1 hi).trans (h'.val i h1 hi).symm
      · exact (h.pre i (by omega) hi).trans (h'.pre i (by omega) hi).symm
    · have e1 := h.len
      have e2 := h'.len
      simp only at e1 e2
      rw [List.getElem?_eq_none (by omega), List.getElem?_eq_none (by omega)]
  rw [hm, hs]

/-- each line whose minimum period is at least 1 -/
theorem repW_line {V : Type} [PyFloat V] (x : Line V) (h : 1 ≤ x.minperiod) :
    RepW x x.series.length x.minperiod.toNat (fun i => x.series[i]?.getD nan) where
  len := rfl
  mp := by omega
  pos := by omega
  val := fun i _ hi => by rw [List.getElem?_eq_getElem hi]; rfl

section best
variable {V : Type} [PyFloat V] {O : Type} [LinearOrder O]

/-- the best value of a window, by the order of `val` -/
def pick (better : V → V → Bool) (win : List V) : V :=
  whenAllFin (fun l => match l with | [] => nan | x :: xs => xs.foldl (fun a b => if better a b then b else a) x) win

variable {better : V → V → Bool} {val : V → O} (hb : ∀ a b, isFin a = true → isFin b = true → (better a b = true ↔ val a < val b))
  (hi : ∀ a b, isFin a = true → isFin b = true → val a = val b → a = b)

include hb in
theorem pick_fold : ∀ (xs : List V) (x : V), isFin x = true → (∀ y ∈ xs, isFin y = true) →
    xs.foldl (fun a b => if better a b then b else a) x ∈ x :: xs ∧
      ∀ y ∈ x :: xs, val y ≤ val (xs.foldl (fun a b => if better a b then b else a) x) := by
  intro xs
  induction xs with
  | nil => intro x _ _; simp
  | cons z zs ih =>
    intro x hx hz
    have hz0 := hz z (by simp)
    obtain ⟨h1, h2⟩ := ih (if better x z then z else x) (by split <;> assumption) (fun y hy => hz y (by simp [hy]))
    simp only [List.foldl_cons]
    refine ⟨?_, ?_⟩
    · rcases List.mem_cons.mp h1 with h | h
      · rw [h]; split <;> simp
      · simp [h]
    · have h0 := h2 _ List.mem_cons_self
      intro y hy
      rcases List.mem_cons.mp hy with rfl | hy
      · refine le_trans ?_ h0
        split
        next hc => exact ((hb _ _ hx hz0).mp hc).le
        next => exact le_refl _
      rcases List.mem_cons.mp hy with rfl | hy
      · refine le_trans ?_ h0
        split
        next => exact le_refl _
        next hc => exact not_lt.mp fun hlt => hc ((hb _ _ hx hz0).mpr hlt)
      · exact h2 y (List.mem_cons_of_mem _ hy)

include hb in
theorem pick_fin {l : List V} (hl : l ≠ []) (h : ∀ y ∈ l, isFin y = true) : pick better l ∈ l ∧ ∀ y ∈ l, val y ≤ val (pick better l) := by
  unfold pick whenAllFin
  rw [if_pos (List.all_eq_true.mpr h)]
  cases l with
  | nil => exact absurd rfl hl
  | cons x xs => exact pick_fold hb xs x (h x (by simp)) fun y hy => h y (by simp [hy])

theorem pick_nan {l : List V} {y : V} (hy : y ∈ l) (h : isFin y = false) : pick better l = nan := by
  unfold pick whenAllFin
  rw [if_neg]
  intro hc
  have := List.all_eq_true.mp hc y hy
  rw [h] at this
  exact absurd this (by simp)

include hb hi in
/-- the best of the best of overlapping windows is the best of the whole -/
theorem pick_pick (hn : isFin (nan : V) = false) (g : ℕ → V) {p q i : ℕ} (hp : 1 ≤ p) (hq : 1 ≤ q) (h : p + q - 1 ≤ i + 1) :
    pick better (wnd (fun i => pick better (wnd g q i)) p i) = pick better (wnd g (p + q - 1) i) := by
  have hmem : ∀ j, j < p → ∀ y, y ∈ wnd g q (i - j) ↔ ∃ k, k < q ∧ y = g (i - (j + k)) := fun j hj y => by
    rw [mem_wnd (by omega)]
    refine exists_congr fun k => and_congr_right fun _ => ?_
    rw [show i - j - k = i - (j + k) from by omega]
  have hne : ∀ j, j < p → wnd g q (i - j) ≠ [] := fun j _ hc => by
    have := congrArg List.length hc; simp at this; omega
  by_cases hall : ∀ j, j < p + q - 1 → isFin (g (i - j)) = true
  · -- all values are finite
    have hfin : ∀ j, j < p → ∀ y ∈ wnd g q (i - j), isFin y = true := fun j hj y hy => by
      obtain ⟨k, hk, rfl⟩ := (hmem j hj y).mp hy
      exact hall _ (by omega)
    have hin : ∀ j, j < p → isFin (pick better (wnd g q (i - j))) = true := fun j hj =>
      hfin j hj _ (pick_fin hb (hne j hj) (hfin j hj)).1
    have o1 := pick_fin hb (l := wnd (fun i => pick better (wnd g q i)) p i)
      (by intro hc; have := congrArg List.length hc; simp at this; omega)
      (fun y hy => by
        obtain ⟨j, hj, rfl⟩ := (mem_wnd (by omega)).mp hy
        exact hin j hj)
    have o2 := pick_fin hb (l := wnd g (p + q - 1) i)
      (by intro hc; have := congrArg List.length hc; simp at this; omega)
      (fun y hy => by
        obtain ⟨j, hj, rfl⟩ := (mem_wnd (by omega)).mp hy
        exact hall j hj)
    obtain ⟨j, hj, ej⟩ := (mem_wnd (by omega)).mp o1.1
    obtain ⟨k, hk, ek⟩ := (mem_wnd (by omega)).mp o2.1
    have f1 : isFin (pick better (wnd (fun i => pick better (wnd g q i)) p i)) = true := by rw [ej]; exact hin j hj
    have f2 : isFin (pick better (wnd g (p + q - 1) i)) = true := by rw [ek]; exact hall k hk
    refine hi _ _ f1 f2 (le_antisymm ?_ ?_)
    · -- the value picked from the windows is one of the data
      obtain ⟨k', hk', e'⟩ := (hmem j hj _).mp (pick_fin hb (hne j hj) (hfin j hj)).1
      refine o2.2 _ ((mem_wnd (by omega)).mpr ⟨j + k', by omega, ?_⟩)
      rw [ej]; exact e'
    · -- each of the data is in one of the windows
      have hs : ∃ j' k', j' < p ∧ k' < q ∧ k = j' + k' := by
        by_cases h' : k < p
        · exact ⟨k, 0, h', by omega, by omega⟩
        · exact ⟨p - 1, k - (p - 1), by omega, by omega, by omega⟩
      obtain ⟨j', k', hj', hk', rfl⟩ := hs
      refine le_trans ?_ (o1.2 _ ((mem_wnd (by omega)).mpr ⟨j', hj', rfl⟩))
      refine (pick_fin hb (hne j' hj') (hfin j' hj')).2 _ ((hmem j' hj' _).mpr ⟨k', hk', ek⟩)
  · -- one is not
    push Not at hall
    obtain ⟨k, hk, hf⟩ := hall
    have hf : isFin (g (i - k)) = false := by simpa using hf
    have hs : ∃ j' k', j' < p ∧ k' < q ∧ k = j' + k' := by
      by_cases h' : k < p
      · exact ⟨k, 0, h', by omega, by omega⟩
      · exact ⟨p - 1, k - (p - 1), by omega, by omega, by omega⟩
    obtain ⟨j', k', hj', hk', rfl⟩ := hs
    have e1 : pick better (wnd g q (i - j')) = nan := pick_nan ((hmem j' hj' _).mpr ⟨k', hk', rfl⟩) hf
    rw [pick_nan (y := g (i - (j' + k'))) ((mem_wnd (by omega)).mpr ⟨_, hk, rfl⟩) hf]
    exact pick_nan (y := nan) ((mem_wnd (by omega)).mpr ⟨j', hj', e1.symm⟩) hn

include hb hi in
theorem rolling_pick (hn : isFin (nan : V) = false) (x : Line V) (hx : 1 ≤ x.minperiod) {p q : ℕ} (hp : 1 ≤ p) (hq : 1 ≤ q) :
    Line.rolling p (pick better) (Line.rolling q (pick better) x) = Line.rolling (p + q - 1) (pick better) x := by
  have h0 := repW_line x hx
  have hpos := h0.pos
  have h1 := (rep_rolling hp (agg := pick better) (rep_rolling hq (agg := pick better) h0).toRepW)
  refine h1.unique ((rep_rolling (w := p + q - 1) (by omega) (agg := pick better) h0).congr (by omega) fun i h _ => ?_)
  exact (pick_pick hb hi hn _ hp hq (by omega)).symm

end best

section
variable {K : Type} [Field K] [LinearOrder K] [IsStrictOrderedRing K]

/-- the number of a finite value -/
def Ext.num : Ext K → K
  | .fin x => x
  | _ => 0

theorem Ext.of_isFin {a : Ext K} (h : isFin a = true) : a = .fin a.num := by
  cases a with
  | fin x => rfl
  | _ => exact absurd h (by simp [isFin])

theorem highest_highest (x : Line (Ext K)) (hx : 1 ≤ x.minperiod) {p q : ℕ} (hp : 1 ≤ p) (hq : 1 ≤ q) :
    Ind.highest p (Ind.highest q x) = Ind.highest (p + q - 1) x :=
  rolling_pick (better := lt) (val := Ext.num)
    (fun a b ha hb => by rw [Ext.of_isFin ha, Ext.of_isFin hb]; exact decide_eq_true_iff)
    (fun a b ha hb h => by rw [Ext.of_isFin ha, Ext.of_isFin hb, h]) rfl x hx hp hq

theorem lowest_lowest (x : Line (Ext K)) (hx : 1 ≤ x.minperiod) {p q : ℕ} (hp : 1 ≤ p) (hq : 1 ≤ q) :
    Ind.lowest p (Ind.lowest q x) = Ind.lowest (p + q - 1) x :=
  rolling_pick (better := fun a b => lt b a) (val := fun a => OrderDual.toDual (Ext.num a))
    (fun a b ha hb => by rw [Ext.of_isFin ha, Ext.of_isFin hb]; exact decide_eq_true_iff)
    (fun a b ha hb h => by rw [Ext.of_isFin ha, Ext.of_isFin hb, OrderDual.toDual_inj.mp h]) rfl x hx hp hq

end

/-! ### Delays -/

/-- **C130** (delays add up): the value `q` bars ago of the values `p` bars ago are those `p + q` bars ago; for all data. -/
theorem C130_ago {V : Type} [PyFloat V] (x : Line V) (hx : 1 ≤ x.minperiod) {p q : ℕ} (hp : 1 ≤ p) (hq : 1 ≤ q) :
    Line.ago (-(q : ℤ)) (Line.ago (-(p : ℤ)) x) = Line.ago (-((p + q : ℕ) : ℤ)) x := by
  have h0 := repW_line x hx
  refine (rep_ago hq (rep_ago hp h0).toRepW).unique ((rep_ago (s := p + q) (by omega) h0).congr (by omega) fun i _ _ => ?_)
  rw [show i - (p + q) = i - q - p from by omega]

namespace Api
open Meta Py

variable {K : Type} [Field K] [LinearOrder K] [IsStrictOrderedRing K]

/-! ### Extremes -/

/-- **C130** (the extremes of a longer period): the highest of the last `p` values of `max` over `q` bars is `max` over `p + q - 1` bars, and so
for `min`; for each line, with NaN and infinities in it or without, called with either setting of the compatibility. -/
theorem C130_extremes (E : Env (Ext K)) (x : Line (Ext K)) (hx : 1 ≤ x.minperiod) {p q : ℕ} (hp : 1 ≤ p) (hq : 1 ≤ q) :
    (∀ y, call E .«max» [("period", .int q)] [x] = .ok y →
      call E .«max» [("period", .int p)] y = call E .«max» [("period", .int (p + q - 1 : ℕ))] [x]) ∧
    (∀ y, call E .«min» [("period", .int q)] [x] = .ok y →
      call E .«min» [("period", .int p)] y = call E .«min» [("period", .int (p + q - 1 : ℕ))] [x]) ∧
    (∃ y, call E .«max» [("period", .int q)] [x] = .ok y) ∧ ∃ y, call E .«min» [("period", .int q)] [x] = .ok y := by
  refine ⟨fun y hy => ?_, fun y hy => ?_, ⟨_, call_max E q x⟩, _, call_min E q x⟩
  · rw [call_max] at hy
    cases hy
    rw [call_max, call_max, highest_highest x hx hp hq]
  · rw [call_min] at hy
    cases hy
    rw [call_min, call_min, lowest_lowest x hx hp hq]

/-- **C130** (the extremes in rounded arithmetic): the same in the arithmetic of floats, where nothing is rounded. -/
theorem C130_extremes_rounded {R : Rounding} (E : Env (Flt R)) (x : Line (Flt R)) (hx : 1 ≤ x.minperiod) {p q : ℕ} (hp : 1 ≤ p) (hq : 1 ≤ q) :
    (∀ y, call E .«max» [("period", .int q)] [x] = .ok y →
      call E .«max» [("period", .int p)] y = call E .«max» [("period", .int (p + q - 1 : ℕ))] [x]) ∧
    (∀ y, call E .«min» [("period", .int q)] [x] = .ok y →
      call E .«min» [("period", .int p)] y = call E .«min» [("period", .int (p + q - 1 : ℕ))] [x]) ∧
    (∃ y, call E .«max» [("period", .int q)] [x] = .ok y) ∧ ∃ y, call E .«min» [("period", .int q)] [x] = .ok y := by
  refine ⟨fun y hy => ?_, fun y hy => ?_, ⟨_, call_max E q x⟩, _, call_min E q x⟩
  · rw [call_max] at hy
    cases hy
    rw [call_max, call_max]
    exact congrArg (fun l => Except.ok [l]) (highest_highest (K := ℚ) x hx hp hq)
  · rw [call_min] at hy
    cases hy
    rw [call_min, call_min]
    exact congrArg (fun l => Except.ok [l]) (lowest_lowest (K := ℚ) x hx hp hq)

/-! ### Changes and sums -/

theorem call_rocr (E : Env (Ext K)) (n : ℕ) (x : Line (Ext K)) : call E .rocr [("period", .int n)] [x] = .ok [Ind.rocr n x] := by
  obtain ⟨fn, radians, deg, ht, scipy, talib⟩ := E; cases talib <;> rfl

variable {x : Line (Ext K)} {n m : ℕ} {v : ℕ → K}

/-- **C130** (changes add up): the change over `p + q` bars is the one over `p` bars and, `p` bars ago, the one over `q`; the ratio over
`p + q` bars is the product of the ratios, where no price is 0; and so the sum over `p + q` bars. As lines, with the same minimum period. -/
theorem C130_add (E : Env (Ext K)) (hx : Holds x n m v) {p q : ℕ} (hp : 1 ≤ p) (hq : 1 ≤ q) :
    (∃ a b c, call E .mom [("period", .int p)] [x] = .ok [a] ∧ call E .mom [("period", .int q)] [x] = .ok [b] ∧
      call E .mom [("period", .int (p + q : ℕ))] [x] = .ok [c] ∧ c = a + Line.ago (-(p : ℤ)) b) ∧
    (∃ a b c, call E .«sum» [("period", .int p)] [x] = .ok [a] ∧ call E .«sum» [("period", .int q)] [x] = .ok [b] ∧
      call E .«sum» [("period", .int (p + q : ℕ))] [x] = .ok [c] ∧ c = a + Line.ago (-(p : ℤ)) b) ∧
    ((∀ i, m ≤ i + 1 → i < n → v i ≠ 0) →
      ∃ a b c, call E .rocr [("period", .int p)] [x] = .ok [a] ∧ call E .rocr [("period", .int q)] [x] = .ok [b] ∧
        call E .rocr [("period", .int (p + q : ℕ))] [x] = .ok [c] ∧ c = a * Line.ago (-(p : ℤ)) b) := by
  have hpos := hx.pos
  refine ⟨⟨_, _, _, call_mom E p x, call_mom E q x, call_mom E (p + q) x, ?_⟩,
    ⟨_, _, _, call_sum E p x, call_sum E q x, call_sum E (p + q) x, ?_⟩, fun h0 => ⟨_, _, _, call_rocr E p x, call_rocr E q x, call_rocr E (p + q) x, ?_⟩⟩
  · refine (hx.diff (p + q)).unique ?_
    refine shows_congr (Holds.add (hx.diff p).toRepW (Holds.ago (hx.diff q).toRepW hp).toRepW) (by omega) fun i _ _ => ?_
    rw [show i - (p + q) = i - p - q from by omega]
    ring
  · refine (hx.rollSum (p := p + q) (by omega)).unique ?_
    refine shows_congr (Holds.add (hx.rollSum hp).toRepW (Holds.ago (hx.rollSum hq).toRepW hp).toRepW) (by omega) fun i _ _ => ?_
    unfold Spec.winSum
    rw [Finset.sum_range_add]
    simp only [Nat.sub_sub]
  · refine (C44_consistent hx (p := p + q) (by omega) h0).1.unique ?_
    refine shows_congr (Holds.mul (C44_consistent hx hp h0).1.toRepW (Holds.ago (C44_consistent hx hq h0).1.toRepW hp).toRepW)
      (by omega) fun i h1 h2 => ?_
    rw [show i - (p + q) = i - p - q from by omega]
    have := h0 (i - p) (by omega) (by omega)
    field_simp

/-- **C130** (the sum of changes): the sum over `p` bars of the change over `q` bars is the sum over `q` bars of the change over `p`; with
`q = 1` it is the change over `p` bars. -/
theorem C130_telescope (E : Env (Ext K)) (hx : Holds x n m v) {p q : ℕ} (hp : 1 ≤ p) (hq : 1 ≤ q) :
    (call E .mom [("period", .int q)] [x] >>= call E .«sum» [("period", .int p)]) =
      (call E .mom [("period", .int p)] [x] >>= call E .«sum» [("period", .int q)]) ∧
    (call E .mom [("period", .int 1)] [x] >>= call E .«sum» [("period", .int p)]) = call E .mom [("period", .int p)] [x] ∧
    ∃ y, call E .mom [("period", .int p)] [x] = .ok [y] := by
  have hpos := hx.pos
  have key : ∀ p q : ℕ, 1 ≤ p → 1 ≤ q → ∀ i, Spec.winSum (fun i => v i - v (i - q)) p i = Spec.winSum (fun i => v i - v (i - p)) q i := by
    intro p q _ _ i
    have e1 : ∀ p q : ℕ, Spec.winSum (fun i => v i - v (i - q)) p i =
        ∑ j ∈ Finset.range p, v (i - j) + ∑ j ∈ Finset.range q, v (i - j) - ∑ j ∈ Finset.range (q + p), v (i - j) := by
      intro p q
      unfold Spec.winSum
      rw [Finset.sum_sub_distrib, Finset.sum_range_add (n := q)]
      simp only [Nat.sub_sub, Nat.add_comm _ q]
      ring
    rw [e1 p q, e1 q p, Nat.add_comm q p]
    ring
  have hs : ∀ p q : ℕ, 1 ≤ p → 1 ≤ q → Ind.sumN p (Line.diff q x) = Ind.sumN q (Line.diff p x) := by
    intro p q hp hq
    refine (Holds.rollSum (hx.diff q).toRepW hp).unique (shows_congr (Holds.rollSum (hx.diff p).toRepW hq) (by omega) fun i _ _ => ?_)
    exact key q p hq hp i
  refine ⟨?_, ?_, _, call_mom E p x⟩
  · rw [call_mom, call_mom]
    show call E .«sum» _ _ = call E .«sum» _ _
    rw [call_sum, call_sum, hs p q hp hq]
  · rw [show call E .mom [("period", .int 1)] [x] = .ok [Line.diff 1 x] from call_mom E 1 x, call_mom]
    show call E .«sum» _ _ = _
    rw [call_sum, hs p 1 hp le_rfl]
    congr 2
    exact (Holds.rollSum (hx.diff p).toRepW (p := 1) le_rfl).unique (shows_congr (hx.diff p) (by omega) fun i _ _ => by simp [Spec.winSum])

/-! ### A period of one bar -/

/-- the indicators which average, add or pick over a period -/
def _root_.Spec.overPeriod : List Cls := [.sma, .ema, .smma, .wma, .dema, .tema, .trima, .t3, .gdema, .«sum», .«max», .«min»]

theorem call_smma (E : Env (Ext K)) (n : ℕ) (x : Line (Ext K)) : call E .smma [("period", .int n)] [x] = lift (oneE (Ind.smma n x)) := by
  obtain ⟨fn, radians, deg, ht, scipy, talib⟩ := E; cases talib <;> rfl
theorem call_wma (E : Env (Ext K)) (n : ℕ) (x : Line (Ext K)) : call E .wma [("period", .int n)] [x] = lift (oneE (Ind.wma n x)) := by
  obtain ⟨fn, radians, deg, ht, scipy, talib⟩ := E; cases talib <;> rfl
theorem call_trima (E : Env (Ext K)) (n : ℕ) (x : Line (Ext K)) : call E .trima [("period", .int n)] [x] = lift (oneE (Ind.trima n x)) := by
  obtain ⟨fn, radians, deg, ht, scipy, talib⟩ := E; cases talib <;> rfl
theorem call_dema (E : Env (Ext K)) (n : ℕ) (x : Line (Ext K)) : call E .dema [("period", .int n)] [x] = lift (oneE (Ind.dema Ind.ema n x)) := by
  obtain ⟨fn, radians, deg, ht, scipy, talib⟩ := E; cases talib <;> rfl
theorem call_tema (E : Env (Ext K)) (n : ℕ) (x : Line (Ext K)) : call E .tema [("period", .int n)] [x] = lift (oneE (Ind.tema Ind.ema n x)) := by
  obtain ⟨fn, radians, deg, ht, scipy, talib⟩ := E; cases talib <;> rfl
theorem call_gdema1 (E : Env (Ext K)) (n : ℕ) (x : Line (Ext K)) :
    ∃ q, call E .gdema [("period", .int n)] [x] = lift (oneE (Ind.gdema Ind.ema (lit q) n x)) := by
  obtain ⟨fn, radians, deg, ht, scipy, talib⟩ := E; cases talib <;> exact ⟨_, rfl⟩
theorem call_t3 (E : Env (Ext K)) (n : ℕ) (x : Line (Ext K)) :
    ∃ q, call E .t3 [("period", .int n)] [x] = lift (oneE (Ind.t3 (lit q) n x)) := by
  obtain ⟨fn, radians, deg, ht, scipy, talib⟩ := E; cases talib <;> exact ⟨_, rfl⟩

/-- an average over one bar, by its formula -/
theorem ma_one {f : MA (Ext K)} {F : ℕ → (ℕ → K) → ℕ → ℕ → K} (hf : IsMA f F ext1)
    (hF : ∀ (v : ℕ → K) b i, b ≤ i → F 1 v b i = v i) (hx : Shows x n m v) (hn : m ≤ n) : f 1 x = .ok x := by
  have hpos := hx.pos
  obtain ⟨r, h1, h2⟩ := hf 1 le_rfl x n m v hx.toRepW (by unfold ext1; omega)
  rw [h1]
  congr 1
  refine h2.unique (shows_congr hx (by unfold ext1; omega) fun i h1 _ => ?_)
  exact (hF v _ i (by unfold ext1 at h1; omega)).symm

omit [LinearOrder K] [IsStrictOrderedRing K] in
theorem expAvg_one {a : K} (ha : a = 1) (v : ℕ → K) (b i : ℕ) (h : b ≤ i) : Spec.expAvg a v b 1 i = v i := by
  subst ha
  obtain ⟨j, rfl⟩ : ∃ j, i = b + j := ⟨i - b, by omega⟩
  unfold Spec.expAvg
  rw [show b + j - (b + 1 - 1) = j from by omega]
  cases j with
  | zero => simp [Spec.expRec, Spec.winMean, Spec.winSum]
  | succ j => simp [Spec.expRec]; congr 1

theorem ema_one (hx : Shows x n m v) (hn : m ≤ n) : Ind.ema 1 x = .ok x :=
  ma_one ema_isMA (fun v b i h => expAvg_one (by norm_num) v b i h) hx hn

/-- **C130** (a period of one bar): the averages, the sum and the extremes over one bar are the line they are called with: its values, its
minimum period and NaN before. -/
theorem C130_one (E : Env (Ext K)) (hx : Shows x n m v) (hn : m ≤ n) (c : Cls) (hc : c ∈ Spec.overPeriod) :
    call E c [("period", .int 1)] [x] = .ok [x] := by
  have he := ema_one hx hn
  have hw : Holds x n m v := hx.toRepW
  simp only [Spec.overPeriod, List.mem_cons, List.not_mem_nil, or_false] at hc
  rcases hc with rfl | rfl | rfl | rfl | rfl | rfl | rfl | rfl | rfl | rfl | rfl | rfl
  · refine (call_sma E 1 x).trans ?_
    rw [ma_one sma_isMA (fun v b i _ => by simp [smaF, Spec.winMean, Spec.winSum]) hx hn]; rfl
  · refine (call_ema E 1 x).trans ?_
    rw [he]; rfl
  · refine (call_smma E 1 x).trans ?_
    rw [ma_one smma_isMA (fun v b i h => expAvg_one (by norm_num) v b i h) hx hn]; rfl
  · refine (call_wma E 1 x).trans ?_
    rw [ma_one wma_isMA (fun v b i _ => by simp [wmaF, Spec.wma]) hx hn]; rfl
  · refine (call_dema E 1 x).trans ?_
    unfold Ind.dema
    simp only [he, bind, Except.bind]
    refine congrArg (fun l => Except.ok [l]) ?_
    refine (Holds.sub (hw.rmulS ((2 : ℚ) : K)).toRepW hw).unique (shows_congr hx (by omega) fun i _ _ => by push_cast; ring)
  · refine (call_tema E 1 x).trans ?_
    unfold Ind.tema
    simp only [he, bind, Except.bind]
    refine congrArg (fun l => Except.ok [l]) ?_
    refine (Holds.add (Holds.sub (hw.rmulS ((3 : ℚ) : K)).toRepW (hw.rmulS ((3 : ℚ) : K)).toRepW).toRepW hw).unique
      (shows_congr hx (by omega) fun i _ _ => by ring)
  · refine (call_trima E 1 x).trans ?_
    rw [ma_one trima_isMA (fun v b i _ => by simp [trimaF, Spec.trima, Spec.triWeight]) hx hn]; rfl
  · obtain ⟨q, hq⟩ := call_t3 E 1 x
    refine hq.trans ?_
    unfold Ind.t3
    simp only [he, bind, Except.bind]
    have e1 : (-(lit q * lit q * lit q) : Ext K) = .fin (-((q : K) * q * q)) := by simp [Ext.lit_def]
    have e2 : (lit 3 * (lit q * lit q) + lit 3 * (lit q * lit q * lit q) : Ext K) = .fin (3 * ((q : K) * q) + 3 * (q * q * q)) := by
      simp [Ext.lit_def]
    have e3 : (lit (-6) * (lit q * lit q) - lit 3 * lit q - lit 3 * (lit q * lit q * lit q) : Ext K) =
        .fin (-6 * ((q : K) * q) - 3 * q - 3 * (q * q * q)) := by simp [Ext.lit_def]
    have e4 : (lit 1 + lit 3 * lit q + lit q * lit q * lit q + lit 3 * (lit q * lit q) : Ext K) =
        .fin (1 + 3 * (q : K) + q * q * q + 3 * (q * q)) := by simp [Ext.lit_def]
    rw [e1, e2, e3, e4]
    refine congrArg (fun l => Except.ok [l]) ?_
    refine (Holds.add (Holds.add (Holds.add (hw.rmulS _).toRepW (hw.rmulS _).toRepW).toRepW (hw.rmulS _).toRepW).toRepW (hw.rmulS _).toRepW).unique
      (shows_congr hx (by omega) fun i _ _ => by ring)
  · obtain ⟨q, hq⟩ := call_gdema1 E 1 x
    refine hq.trans ?_
    unfold Ind.gdema
    simp only [he, bind, Except.bind]
    have e1 : (lit 1 + lit q : Ext K) = .fin (1 + (q : K)) := by simp [Ext.lit_def]
    have e2 : (lit q : Ext K) = .fin (q : K) := rfl
    rw [e1, e2]
    refine congrArg (fun l => Except.ok [l]) ?_
    refine (Holds.sub (hw.rmulS _).toRepW (hw.rmulS _).toRepW).unique (shows_congr hx (by omega) fun i _ _ => by ring)
  · refine (call_sum E 1 x).trans ?_
    refine congrArg (fun l => Except.ok [l]) ?_
    exact (hw.rollSum le_rfl).unique (shows_congr hx (by omega) fun i _ _ => by simp [Spec.winSum])
  · refine (call_max E 1 x).trans ?_
    refine congrArg (fun l => Except.ok [l]) ?_
    exact (hw.rollMax le_rfl).unique (shows_congr hx (by omega) fun i _ _ => by simp [Spec.winMax])
  · refine (call_min E 1 x).trans ?_
    refine congrArg (fun l => Except.ok [l]) ?_
    exact (hw.rollMin le_rfl).unique (shows_congr hx (by omega) fun i _ _ => by simp [Spec.winMin])

/-! ### Running totals -/

theorem call_obv (E : Env (Ext K)) (c v : Line (Ext K)) : call E .obv [] [c, v] = .ok [Ind.obv E.talib 1 c v] := by
  obtain ⟨fn, radians, deg, ht, scipy, talib⟩ := E; cases talib <;> rfl

/-- a running total from a bar on -/
theorem total_from {y y' t : ℕ → K} {a b k : ℕ} (h : ∀ i, a ≤ i → y i = y (i - 1) + t i) (h' : ∀ i, b ≤ i → y' i = y' (i - 1) + t (i + k))
    (hab : a ≤ b + k) (hb : 1 ≤ b) : ∃ d, ∀ i, b ≤ i + 1 → y (i + k) = y' i + d := by
  refine ⟨y (b - 1 + k) - y' (b - 1), fun i hi => ?_⟩
  obtain ⟨j, rfl⟩ : ∃ j, i = b - 1 + j := ⟨i - (b - 1), by omega⟩
  induction j with
  | zero => simp
  | succ j ih =>
    rw [h (b - 1 + (j + 1) + k) (by omega), h' (b - 1 + (j + 1)) (by omega),
      show b - 1 + (j + 1) + k - 1 = b - 1 + j + k from by omega, show b - 1 + (j + 1) - 1 = b - 1 + j from by omega, ih (by omega)]
    ring

/-- **C130** (running totals): when the first `k` bars are not there, `obv` and `ad` differ from what they are with them by one number at all
bars which have a value: what they add from bar to bar is the same. (`ad` where the close is within the range of the bar, with volumes which
are not negative; bars without range are NaN with and without the first bars.) -/
theorem C130_total (E : Env (Ext K)) {h l c v h' l' c' v' : Line (Ext K)} {n k : ℕ} {H L C W : ℕ → K}
    (hh : Holds h (n + k) 1 H) (hl : Holds l (n + k) 1 L) (hc : Holds c (n + k) 1 C) (hv : Holds v (n + k) 1 W)
    (hh' : Holds h' n 1 fun i => H (i + k)) (hl' : Holds l' n 1 fun i => L (i + k))
    (hc' : Holds c' n 1 fun i => C (i + k)) (hv' : Holds v' n 1 fun i => W (i + k)) :
    (∃ a b : Line (Ext K), ∃ d : K, call E .obv [] [c, v] = .ok [a] ∧ call E .obv [] [c', v'] = .ok [b] ∧
      ∀ i, 1 ≤ i → i < n → ∃ y, b.series[i]? = some (.fin y) ∧ a.series[i + k]? = some (.fin (y + d))) ∧
    ((∀ i, i < n + k → L i ≤ C i ∧ C i ≤ H i ∧ 0 ≤ W i) →
      ∃ a b : Line (Ext K), ∃ d : K, call E .ad [] [h, l, c, v] = .ok [a] ∧ call E .ad [] [h', l', c', v'] = .ok [b] ∧
        ∀ i, i < n → if H (i + k) = L (i + k) then b.series[i]? = some .nan ∧ a.series[i + k]? = some .nan
          else ∃ y, b.series[i]? = some (.fin y) ∧ a.series[i + k]? = some (.fin (y + d))) := by
  refine ⟨?_, fun hr => ?_⟩
  · obtain ⟨y, hy, y0, y1⟩ := C34_obv hc hv
    obtain ⟨y', hy', y0', y1'⟩ := C34_obv hc' hv'
    simp only [Nat.reduceAdd, show max 1 2 = 2 from rfl] at hy hy' y0 y0' y1 y1'
    obtain ⟨d, hd⟩ := total_from (y' := y') (t := fun i => if C (i - 1) < C i then W i else if C i < C (i - 1) then -W i else 0) (b := 2) (k := k) y1
      (fun i hi => by rw [y1' i hi, show i - 1 + k = i + k - 1 from by omega]) (by omega) (by omega)
    cases ht : E.talib with
    | false =>
      refine ⟨_, _, d, call_obv E c v, call_obv E c' v', fun i h1 h2 => ⟨y' i, ?_, ?_⟩⟩
      · rw [ht]; exact hy'.val i (by omega) h2
      · rw [ht, hy.val (i + k) (by omega) (by omega), hd i (by omega)]
    | true =>
      obtain ⟨z, z', hz1, hz2, -, hz⟩ := C34_talib hc hv le_rfl
      obtain ⟨w, w', hw1, hw2, -, hw⟩ := C34_talib hc' hv' le_rfl
      refine ⟨_, _, d + W 0 - W (0 + k), call_obv E c v, call_obv E c' v', fun i h1 h2 => ⟨w' i, ?_, ?_⟩⟩
      · rw [ht]; exact hw2.val i (by omega) h2
      · have e1 := (hz1.val (i + k) (by omega) (by omega)).symm.trans (hy.val (i + k) (by omega) (by omega))
        have e2 := (hw1.val i (by omega) h2).symm.trans (hy'.val i (by omega) h2)
        simp only [Option.some.injEq, Ext.fin.injEq] at e1 e2
        rw [ht, hz2.val (i + k) (by omega) (by omega), hz (i + k) (by omega), hw i h1, e1, e2, hd i (by omega)]
        congr 2
        ring
  · obtain ⟨y, m, hy, -, hs, hm, -⟩ := C35_ad hh hl hc hv fun i _ hi => hr i hi
    obtain ⟨y', m', hy', -, hs', hm', -⟩ := C35_ad hh' hl' hc' hv' fun i _ hi => hr (i + k) (by omega)
    have em : ∀ i, m' i = m (i + k) := fun i => by
      by_cases h0 : H (i + k) = L (i + k)
      · rw [(hm' i).2 h0, (hm (i + k)).2 h0]
      · exact mul_right_cancel₀ (sub_ne_zero.mpr h0) (((hm' i).1 h0).trans ((hm (i + k)).1 h0).symm)
    obtain ⟨d, hd⟩ := total_from (y' := y') (t := fun i => m i * W i) (b := 1) (k := k) hs
      (fun i hi => by rw [hs' i hi, em]) (by omega) (by omega)
    refine ⟨_, _, d, call_ad E h l c v, call_ad E h' l' c' v', fun i h2 => ?_⟩
    have q1 := hy'.val i (by omega) h2
    have q2 := hy.val (i + k) (by omega) (by omega)
    split
    next h0 => rw [if_pos h0] at q1 q2; exact ⟨q1, q2⟩
    next h0 =>
      rw [if_neg h0] at q1 q2
      exact ⟨_, q1, by rw [q2, hd i (by omega)]⟩

/-! ### Concrete cases -/

private def z : ℕ → ℚ := fun i => if i % 2 = 0 then i + 1 else 10 - i

example : call E0 .«max» [("period", .int 3)] [Bta.bars 6 z] = .ok [⟨[.nan, .nan, .fin 9, .fin 9, .fin 7, .fin 7], 3⟩] ∧
    call E0 .«max» [("period", .int 4)] [Bta.bars 6 z] = .ok [⟨[.nan, .nan, .nan, .fin 9, .fin 9, .fin 7], 4⟩] ∧
    call E0 .«max» [("period", .int 2)] [⟨[.nan, .nan, .fin 9, .fin 9, .fin 7, .fin 7], 3⟩] =
      .ok [⟨[.nan, .nan, .nan, .fin 9, .fin 9, .fin 7], 4⟩] := by decide +kernel

example : call E0 .mom [("period", .int 3)] [Bta.bars 6 z] = .ok [⟨[.nan, .nan, .nan, .fin 6, .fin (-4), .fin 2], 4⟩] ∧
    (call E0 .mom [("period", .int 1)] [Bta.bars 6 z] >>= call E0 .«sum» [("period", .int 3)]) =
      .ok [⟨[.nan, .nan, .nan, .fin 6, .fin (-4), .fin 2], 4⟩] := by decide +kernel

example (E : Env (Ext ℚ)) : (call E .mom [("period", .int 1)] [Bta.bars 6 z] >>= call E .«sum» [("period", .int 3)]) =
    call E .mom [("period", .int 3)] [Bta.bars 6 z] := (C130_telescope E (p := 3) (q := 2) (bars_holds 6 z) (by omega) (by omega)).2.1

example (E : Env (Ext ℚ)) : call E .t3 [("period", .int 1)] [Line.diff 2 (Bta.bars 6 z)] = .ok [Line.diff 2 (Bta.bars 6 z)] :=
  C130_one E ((bars_holds 6 z).diff 2) (by omega) .t3 (by simp [Spec.overPeriod])

example : ∃ a b c, call E0 .rocr [("period", .int 2)] [Bta.bars 6 z] = .ok [a] ∧ call E0 .rocr [("period", .int 1)] [Bta.bars 6 z] = .ok [b] ∧
    call E0 .rocr [("period", .int 3)] [Bta.bars 6 z] = .ok [c] ∧ c = a * Line.ago (-2) b :=
  (C130_add E0 (p := 2) (q := 1) (bars_holds 6 z) (by omega) (by omega)).2.2 fun i _ h => by
    unfold z
    interval_cases i <;> norm_num

example : call E0 .obv [] [Bta.bars 6 z, Bta.bars 6 fun i => i + 1] = .ok [⟨[.nan, .fin 2, .fin (-1), .fin 3, .fin (-2), .fin (-2)], 2⟩] ∧
    call E0 .obv [] [Bta.bars 4 fun i => z (i + 2), Bta.bars 4 fun i => ((i + 2 : ℕ) : ℚ) + 1] = .ok [⟨[.nan, .fin 4, .fin (-1), .fin (-1)], 2⟩] := by
  decide +kernel

end Api
end Bta
