import Verif.Lemmas.Ewm
import Mathlib.Order.Bounds.Basic

/-!
# Operators, pointwise (continued): arithmetic, clipping, windows on exact values
-/

set_option linter.unusedSectionVars false
set_option linter.unusedVariables false

namespace Bta
open Line

section generic
variable {V : Type} [PyFloat V] {a b : Line V} {n m m' : ℕ} {g h : ℕ → V}

theorem rep_add (ha : RepW a n m g) (hb : RepW b n m' h) : Rep nan (a + b) n (max m m') (fun i => g i + h i) :=
  rep_binop ha hb
theorem rep_sub (ha : RepW a n m g) (hb : RepW b n m' h) : Rep nan (a - b) n (max m m') (fun i => g i - h i) :=
  rep_binop ha hb
theorem rep_mul (ha : RepW a n m g) (hb : RepW b n m' h) : Rep nan (a * b) n (max m m') (fun i => g i * h i) :=
  rep_binop ha hb
theorem rep_div (ha : RepW a n m g) (hb : RepW b n m' h) : Rep nan (a / b) n (max m m') (fun i => g i / h i) :=
  rep_binop ha hb
theorem rep_addS (ha : RepW a n m g) (c : V) : Rep nan (a.addS c) n m (fun i => g i + c) := rep_binopS ha
theorem rep_raddS (ha : RepW a n m g) (c : V) : Rep nan (raddS c a) n m (fun i => c + g i) := rep_binopS (f := fun x c => c + x) ha
theorem rep_subS (ha : RepW a n m g) (c : V) : Rep nan (a.subS c) n m (fun i => g i - c) := rep_binopS ha
theorem rep_rsubS (ha : RepW a n m g) (c : V) : Rep nan (rsubS c a) n m (fun i => c - g i) := rep_binopS (f := fun x c => c - x) ha
theorem rep_mulS (ha : RepW a n m g) (c : V) : Rep nan (a.mulS c) n m (fun i => g i * c) := rep_binopS ha
theorem rep_rmulS (ha : RepW a n m g) (c : V) : Rep nan (rmulS c a) n m (fun i => c * g i) := rep_binopS (f := fun x c => c * x) ha
theorem rep_divS (ha : RepW a n m g) (c : V) : Rep nan (a.divS c) n m (fun i => g i / c) := rep_binopS ha
theorem rep_rdivS (ha : RepW a n m g) (c : V) : Rep nan (rdivS c a) n m (fun i => c / g i) := rep_binopS (f := fun x c => c / x) ha
theorem rep_abs (ha : RepW a n m g) : Rep nan a.abs n m (fun i => absv (g i)) := rep_mapOp ha
theorem rep_clipLoS (ha : RepW a n m g) (c : V) : Rep nan (a.clipLoS c) n m (fun i => clipLo (g i) c) := rep_mapOp ha
theorem rep_clipHiS (ha : RepW a n m g) (c : V) : Rep nan (a.clipHiS c) n m (fun i => clipHi (g i) c) := rep_mapOp ha
theorem rep_ltL (ha : RepW a n m g) (hb : RepW b n m' h) : Rep true (ltL a b) n (max m m') (fun i => lt (g i) (h i)) :=
  rep_binop ha hb
theorem rep_gtL (ha : RepW a n m g) (hb : RepW b n m' h) : Rep true (gtL a b) n (max m m') (fun i => lt (h i) (g i)) :=
  rep_binop ha hb
theorem rep_ltS (ha : RepW a n m g) (c : V) : Rep true (ltS a c) n m (fun i => lt (g i) c) := rep_binopS ha
theorem rep_gtS (ha : RepW a n m g) (c : V) : Rep true (gtS a c) n m (fun i => lt c (g i)) := rep_binopS (f := fun x c => lt c x) ha
theorem rep_andL {a b : Line Bool} {g h : ℕ → Bool} (ha : RepW a n m g) (hb : RepW b n m' h) :
    Rep true (andL a b) n (max m m') (fun i => g i && h i) := rep_binop ha hb
theorem rep_mulB {b : Line Bool} {h : ℕ → Bool} (ha : RepW a n m g) (hb : RepW b n m' h) :
    Rep nan (mulB a b) n (max m m') (fun i => g i * ofBool (h i)) := rep_binop ha hb
theorem rep_rmulSB {a : Line Bool} {g : ℕ → Bool} (ha : RepW a n m g) (c : V) :
    Rep nan (rmulSB c a) n m (fun i => c * ofBool (g i)) := rep_binopS (f := fun x c => c * ofBool x) ha

end generic

section exact
variable {K : Type} [Field K] [LinearOrder K] [IsStrictOrderedRing K]
open Ext

theorem clipLo_fin (x c : K) : clipLo (fin x : Ext K) (fin c) = fin (max x c) := by
  unfold clipLo
  simp only [Ext.le_fin, Ext.isNaN_fin, Bool.or_false, decide_eq_true_eq]
  by_cases h : c ≤ x
  · rw [if_pos h, max_eq_left h]
  · rw [if_neg h, max_eq_right (le_of_lt (not_le.mp h))]

theorem clipHi_fin (x c : K) : clipHi (fin x : Ext K) (fin c) = fin (min x c) := by
  unfold clipHi
  simp only [Ext.le_fin, Ext.isNaN_fin, Bool.or_false, decide_eq_true_eq]
  by_cases h : x ≤ c
  · rw [if_pos h, min_eq_left h]
  · rw [if_neg h, min_eq_right (le_of_lt (not_le.mp h))]

theorem maxV_fin (x y : K) : maxV (fin x : Ext K) (fin y) = fin (max x y) := by
  unfold maxV
  simp only [Ext.lt_fin, decide_eq_true_eq]
  by_cases h : x < y
  · rw [if_pos h, max_eq_right h.le]
  · rw [if_neg h, max_eq_left (not_lt.mp h)]

theorem minV_fin (x y : K) : minV (fin x : Ext K) (fin y) = fin (min x y) := by
  unfold minV
  simp only [Ext.lt_fin, decide_eq_true_eq]
  by_cases h : y < x
  · rw [if_pos h, min_eq_right h.le]
  · rw [if_neg h, min_eq_left (not_lt.mp h)]

@[simp] theorem ofBool_true : (ofBool true : Ext K) = fin 1 := by simp [ofBool]
@[simp] theorem ofBool_false : (ofBool false : Ext K) = fin 0 := by simp [ofBool]

theorem foldl_maxV_fin (l : List K) : ∀ a : K, (l.map (fin : K → Ext K)).foldl maxV (fin a) = fin (l.foldl max a) := by
  induction l with
  | nil => intro a; rfl
  | cons y ys ih => intro a; simp only [List.map_cons, List.foldl_cons, maxV_fin, ih]

theorem foldl_minV_fin (l : List K) : ∀ a : K, (l.map (fin : K → Ext K)).foldl minV (fin a) = fin (l.foldl min a) := by
  induction l with
  | nil => intro a; rfl
  | cons y ys ih => intro a; simp only [List.map_cons, List.foldl_cons, minV_fin, ih]

theorem mem_wnd {α : Type} {x : ℕ → α} {w i : ℕ} (hw : w ≤ i + 1) {y : α} :
    y ∈ wnd x w i ↔ ∃ j, j < w ∧ y = x (i - j) := by
  unfold wnd
  rw [List.mem_map]
  constructor
  · rintro ⟨j, hj, rfl⟩
    have := List.mem_range.mp hj
    exact ⟨w - 1 - j, by omega, by congr 1; omega⟩
  · rintro ⟨j, hj, rfl⟩
    exact ⟨w - 1 - j, List.mem_range.mpr (by omega), by congr 1; omega⟩

theorem aggMax_wnd (x : ℕ → K) {w i : ℕ} (h1 : 1 ≤ w) (hw : w ≤ i + 1) :
    aggMax (wnd (fun i => (fin (x i) : Ext K)) w i) = fin (Spec.winMax x w i) := by
  unfold aggMax whenAllFin
  rw [wnd_fin, if_pos (all_fin _)]
  cases hc : wnd x w i with
  | nil => have := congrArg List.length hc; simp at this; omega
  | cons y ys =>
    simp only [List.map_cons, foldl_maxV_fin]
    congr 1
    refine IsGreatest.unique (s := {y | ∃ j, j < w ∧ y = x (i - j)}) ⟨?_, ?_⟩ (Spec.winMax_isGreatest x h1 i)
    · refine (mem_wnd hw).mp ?_
      rw [hc]
      rcases Spec.foldl_max_mem ys y with h | h
      · rw [h]; exact List.mem_cons_self
      · exact List.mem_cons_of_mem _ h
    · intro z hz
      have := (mem_wnd hw).mpr hz
      rw [hc] at this
      rcases List.mem_cons.mp this with h | h
      · subst h; exact Spec.foldl_max_ge_init ys _
      · exact Spec.foldl_max_ge ys _ z h

theorem aggMin_wnd (x : ℕ → K) {w i : ℕ} (h1 : 1 ≤ w) (hw : w ≤ i + 1) :
    aggMin (wnd (fun i => (fin (x i) : Ext K)) w i) = fin (Spec.winMin x w i) := by
  unfold aggMin whenAllFin
  rw [wnd_fin, if_pos (all_fin _)]
  cases hc : wnd x w i with
  | nil => have := congrArg List.length hc; simp at this; omega
  | cons y ys =>
    simp only [List.map_cons, foldl_minV_fin]
    congr 1
    refine IsLeast.unique (s := {y | ∃ j, j < w ∧ y = x (i - j)}) ⟨?_, ?_⟩ (Spec.winMin_isLeast x h1 i)
    · refine (mem_wnd hw).mp ?_
      rw [hc]
      rcases Spec.foldl_min_mem ys y with h | h
      · rw [h]; exact List.mem_cons_self
      · exact List.mem_cons_of_mem _ h
    · intro z hz
      have := (mem_wnd hw).mpr hz
      rw [hc] at this
      rcases List.mem_cons.mp this with h | h
      · subst h; exact Spec.foldl_min_le_init ys _
      · exact Spec.foldl_min_le ys _ z h

/-! ### lines with finite values -/

variable {a b : Line (Ext K)} {n m m' : ℕ} {x y : ℕ → K}

theorem Holds.add (ha : Holds a n m x) (hb : Holds b n m' y) : Shows (a + b) n (max m m') (fun i => x i + y i) :=
  rep_add ha hb
theorem Holds.sub (ha : Holds a n m x) (hb : Holds b n m' y) : Shows (a - b) n (max m m') (fun i => x i - y i) :=
  (rep_sub ha hb).congr rfl (fun i _ _ => Ext.fin_sub _ _)
theorem Holds.mul (ha : Holds a n m x) (hb : Holds b n m' y) : Shows (a * b) n (max m m') (fun i => x i * y i) :=
  rep_mul ha hb
theorem Holds.div (ha : Holds a n m x) (hb : Holds b n m' y) (h0 : ∀ i, max m m' ≤ i + 1 → i < n → y i ≠ 0) :
    Shows (a / b) n (max m m') (fun i => x i / y i) :=
  (rep_div ha hb).congr rfl (fun i h1 h2 => Ext.fin_div _ (h0 i h1 h2))
theorem Holds.addS (ha : Holds a n m x) (c : K) : Shows (a.addS (fin c)) n m (fun i => x i + c) := rep_addS ha _
theorem Holds.subS (ha : Holds a n m x) (c : K) : Shows (a.subS (fin c)) n m (fun i => x i - c) :=
  (rep_subS ha _).congr rfl (fun i _ _ => Ext.fin_sub _ _)
theorem Holds.rsubS (ha : Holds a n m x) (c : K) : Shows (Line.rsubS (fin c) a) n m (fun i => c - x i) :=
  (rep_rsubS ha _).congr rfl (fun i _ _ => Ext.fin_sub _ _)
theorem Holds.mulS (ha : Holds a n m x) (c : K) : Shows (a.mulS (fin c)) n m (fun i => x i * c) := rep_mulS ha _
theorem Holds.rmulS (ha : Holds a n m x) (c : K) : Shows (Line.rmulS (fin c) a) n m (fun i => c * x i) := rep_rmulS ha _
theorem Holds.divS (ha : Holds a n m x) {c : K} (hc : c ≠ 0) : Shows (a.divS (fin c)) n m (fun i => x i / c) :=
  (rep_divS ha _).congr rfl (fun i _ _ => Ext.fin_div _ hc)
theorem Holds.abs (ha : Holds a n m x) : Shows a.abs n m (fun i => |x i|) := rep_abs ha
theorem Holds.clipLoS (ha : Holds a n m x) (c : K) : Shows (a.clipLoS (fin c)) n m (fun i => max (x i) c) :=
  (rep_clipLoS ha _).congr rfl (fun i _ _ => clipLo_fin _ _)
theorem Holds.clipHiS (ha : Holds a n m x) (c : K) : Shows (a.clipHiS (fin c)) n m (fun i => min (x i) c) :=
  (rep_clipHiS ha _).congr rfl (fun i _ _ => clipHi_fin _ _)
theorem Holds.clipLoL (ha : Holds a n m x) (hb : Holds b n m' y) :
    Shows (Line.clipLoL a b) n (max m m') (fun i => max (x i) (y i)) :=
  (rep_clipLoL ha hb).congr rfl (fun i _ _ => clipLo_fin _ _)
theorem Holds.clipHiL (ha : Holds a n m x) (hb : Holds b n m' y) :
    Shows (Line.clipHiL a b) n (max m m') (fun i => min (x i) (y i)) :=
  (rep_clipHiL ha hb).congr rfl (fun i _ _ => clipHi_fin _ _)
theorem Holds.diff (ha : Holds a n m x) (s : ℕ) : Shows (Line.diff s a) n (m + s) (fun i => x i - x (i - s)) :=
  (rep_diff ha).congr rfl (fun i _ _ => Ext.fin_sub _ _)
theorem Holds.shift (ha : Holds a n m x) (s : ℕ) : Shows (Line.shift (s : Int) a) n (m + s) (fun i => x (i - s)) :=
  rep_shift ha
theorem Holds.ago (ha : Holds a n m x) {s : ℕ} (hs : 1 ≤ s) :
    Shows (Line.ago (-(s : Int)) a) n (m + s) (fun i => x (i - s)) := rep_ago hs ha
theorem Holds.mapOp (ha : Holds a n m x) {f : Ext K → Ext K} {F : K → K} (hf : ∀ v, f (fin v) = fin (F v)) :
    Shows (Line.mapOp f a) n m (fun i => F (x i)) := (rep_mapOp ha).congr rfl (fun i _ _ => hf _)

theorem Holds.rollSum (ha : Holds a n m x) {p : ℕ} (hp : 1 ≤ p) :
    Shows (rolling p aggSum a) n (m + p - 1) (fun i => Spec.winSum x p i) :=
  (rep_rolling hp ha).congr rfl (fun i h1 _ => aggSum_wnd x (by have := ha.pos; omega))
theorem Holds.rollMean (ha : Holds a n m x) {p : ℕ} (hp : 1 ≤ p) :
    Shows (rolling p aggMean a) n (m + p - 1) (fun i => Spec.winMean x p i) :=
  (rep_rolling hp ha).congr rfl (fun i h1 _ => aggMean_wnd x hp (by have := ha.pos; omega))
theorem Holds.rollMax (ha : Holds a n m x) {p : ℕ} (hp : 1 ≤ p) :
    Shows (rolling p aggMax a) n (m + p - 1) (fun i => Spec.winMax x p i) :=
  (rep_rolling hp ha).congr rfl (fun i h1 _ => aggMax_wnd x hp (by have := ha.pos; omega))
theorem Holds.rollMin (ha : Holds a n m x) {p : ℕ} (hp : 1 ≤ p) :
    Shows (rolling p aggMin a) n (m + p - 1) (fun i => Spec.winMin x p i) :=
  (rep_rolling hp ha).congr rfl (fun i h1 _ => aggMin_wnd x hp (by have := ha.pos; omega))

/-- finite data as an input line -/
def bars (n : ℕ) (x : ℕ → K) : Line (Ext K) := ofSeries ((List.range n).map fun i => fin (x i))

theorem bars_holds (n : ℕ) (x : ℕ → K) : Holds (bars n x) n 1 x := RepW.ofSeries n _

theorem holds_congr {l : Line (Ext K)} {n m m' : ℕ} {x y : ℕ → K} (H : Holds l n m x) (hm : m = m')
    (e : ∀ i, m' ≤ i + 1 → i < n → x i = y i) : Holds l n m' y :=
  H.congr hm (fun i h1 h2 => by rw [e i h1 h2])

theorem shows_congr {l : Line (Ext K)} {n m m' : ℕ} {x y : ℕ → K} (H : Shows l n m x) (hm : m = m')
    (e : ∀ i, m' ≤ i + 1 → i < n → x i = y i) : Shows l n m' y :=
  H.congr hm (fun i h1 h2 => by rw [e i h1 h2])

end exact

end Bta
