import Verif.Lemmas.Ewm2
import Verif.Lemmas.Avg

/-!
# The moving averages of the library conform to their formulas
-/

set_option linter.unusedSectionVars false
set_option linter.unusedVariables false

namespace Bta
open Line

theorem Gives.bind {ε α β : Type} {c : Except ε α} {k : α → Except ε β} {P : α → Prop} {Q : β → Prop}
    (h : Gives c P) (hk : ∀ r, P r → Gives (k r) Q) : Gives (c >>= k) Q := by
  obtain ⟨r, h1, h2⟩ := h
  rw [h1]
  exact hk r h2

theorem Gives.pure {ε α : Type} {r : α} {P : α → Prop} (h : P r) : Gives (Pure.pure r : Except ε α) P := ⟨r, rfl, h⟩

theorem Gives.ok {ε α : Type} {r : α} {P : α → Prop} (h : P r) : Gives (.ok r : Except ε α) P := ⟨r, rfl, h⟩

theorem Gives.imp {ε α : Type} {c : Except ε α} {P Q : α → Prop} (h : Gives c P) (hi : ∀ r, P r → Q r) : Gives c Q := by
  obtain ⟨r, h1, h2⟩ := h
  exact ⟨r, h1, hi r h2⟩

variable {K : Type} [Field K] [LinearOrder K] [IsStrictOrderedRing K]
open Ext

theorem dotV_fin : ∀ (xs ws : List K), dotV (xs.map (fin : K → Ext K)) (ws.map fin) = fin (List.zipWith (· * ·) xs ws).sum := by
  intro xs ws
  unfold dotV
  rw [← sumV_fin]
  congr 1
  induction xs generalizing ws with
  | nil => simp
  | cons x xs ih =>
    cases ws with
    | nil => simp
    | cons w ws => simp only [List.map_cons, List.zipWith_cons_cons, Ext.fin_mul, ih]

/-- dot product of a window with weights -/
theorem aggDot_wnd (x : ℕ → K) (w : ℕ → K) {p i : ℕ} (hp : p ≤ i + 1) :
    aggApply (fun l => dotV l ((List.range p).map fun j => (fin (w j) : Ext K))) (wnd (fun i => (fin (x i) : Ext K)) p i)
      = fin (∑ j ∈ Finset.range p, w (p - 1 - j) * x (i - j)) := by
  unfold aggApply whenAllFin
  rw [wnd_fin, if_pos (all_fin _)]
  have h2 : (List.range p).map (fun j => (fin (w j) : Ext K)) = ((List.range p).map w).map fin := by
    simp [Function.comp_def]
  rw [h2]
  simp only []
  rw [dotV_fin]
  congr 1
  have h3 : List.zipWith (· * ·) (wnd x p i) ((List.range p).map w)
      = (List.range p).map fun j => x (i + 1 - p + j) * w j := by
    unfold wnd
    rw [List.zipWith_map]
    generalize List.range p = l
    induction l with
    | nil => rfl
    | cons y ys ih => simp [ih]
  rw [h3, sum_map_range, ← Finset.sum_range_reflect]
  refine Finset.sum_congr rfl fun j hj => ?_
  have := Finset.mem_range.mp hj
  rw [mul_comm, show i + 1 - p + (p - 1 - j) = i - j from by omega]

variable {a : Line (Ext K)} {n m : ℕ} {x : ℕ → K}

theorem sma_isMA : IsMA (Ind.sma : MA (Ext K)) smaF ext1 := by
  intro p hp a n m x ha hn
  refine Gives.ok ?_
  exact shows_congr (ha.rollMean hp) (by unfold ext1; omega) fun i _ _ => rfl

theorem sumN_isMA : IsMA (Ind.sumNMA : MA (Ext K)) sumF ext1 := by
  intro p hp a n m x ha hn
  refine Gives.ok ?_
  exact shows_congr (ha.rollSum hp) (by unfold ext1; omega) fun i _ _ => rfl

theorem ema_isMA : IsMA (Ind.ema : MA (Ext K)) emaF ext1 := by
  intro p hp a n m x ha hn
  have := ha.pos
  unfold ext1 at hn
  obtain ⟨r, h1, h2⟩ := rep_ewmMean_avg ha hp (by omega) (2 / ((p : K) + 1))
  refine ⟨r, ?_, shows_congr h2 (by unfold ext1; omega) fun i _ _ => rfl⟩
  unfold Ind.ema Ind.emaG
  rw [alphaOfCom_span hp]
  exact h1

theorem smma_isMA : IsMA (Ind.smma : MA (Ext K)) smmaF ext1 := by
  intro p hp a n m x ha hn
  have := ha.pos
  unfold ext1 at hn
  obtain ⟨r, h1, h2⟩ := rep_ewmMean_avg ha hp (by omega) (1 / (p : K))
  refine ⟨r, ?_, shows_congr h2 (by unfold ext1; omega) fun i _ _ => rfl⟩
  unfold Ind.smma Ind.smmaG
  rw [alphaOfCom_com hp]
  exact h1

theorem sum_linear (p : ℕ) : ∑ j ∈ Finset.range p, ((p - j : ℕ) : K) = (p : K) * (p + 1) / 2 := by
  have : ∀ p : ℕ, ∑ j ∈ Finset.range p, ((p - j : ℕ) : K) = ∑ j ∈ Finset.range p, ((j : K) + 1) := by
    intro p
    rw [← Finset.sum_range_reflect]
    refine Finset.sum_congr rfl fun j hj => ?_
    have := Finset.mem_range.mp hj
    rw [show p - (p - 1 - j) = j + 1 from by omega]
    push_cast; ring
  rw [this]
  induction p with
  | zero => simp
  | succ p ih => rw [Finset.sum_range_succ, ih]; push_cast; ring

theorem wma_isMA : IsMA (Ind.wma : MA (Ext K)) wmaF ext1 := by
  intro p hp a n m x ha hn
  have hpos := ha.pos
  refine Gives.ok ?_
  have hw : (Ind.wmaWeights p : List (Ext K)) = (List.range p).map fun j => fin ((j + 1 : ℕ) : K) := by
    simp [Ind.wmaWeights]
  have hc : (lit 2 / lit ((p * (p + 1) : ℕ) : ℚ) : Ext K) = fin (2 / ((p : K) * (p + 1))) := by
    rw [Ext.lit_def, Ext.fin_div_lit _ (by
      have : 0 < p * (p + 1) := Nat.mul_pos (by omega) (by omega)
      exact_mod_cast this.ne')]
    congr 1; push_cast; ring
  have hpk : (0 : K) < (p : K) := by exact_mod_cast hp
  rw [hw, hc]
  have r := (rep_rmulS (rep_rolling (w := p) hp ha (agg := aggApply fun w => dotV w ((List.range p).map fun j => fin ((j + 1 : ℕ) : K)))).toRepW
    (fin (2 / ((p : K) * (p + 1)))))
  refine r.congr (by unfold ext1; omega) ?_
  intro i h1 _
  rw [aggDot_wnd x (fun j => ((j + 1 : ℕ) : K)) (by unfold ext1 at h1; omega), Ext.fin_mul]
  congr 1
  unfold wmaF Spec.wma
  rw [sum_linear]
  have : ∑ j ∈ Finset.range p, ((p - 1 - j + 1 : ℕ) : K) * x (i - j) = ∑ j ∈ Finset.range p, ((p - j : ℕ) : K) * x (i - j) := by
    refine Finset.sum_congr rfl fun j hj => ?_
    have := Finset.mem_range.mp hj
    rw [show p - 1 - j + 1 = p - j from by omega]
  rw [this]
  field_simp

theorem trima_isMA : IsMA (Ind.trima : MA (Ext K)) trimaF ext1 := by
  intro p hp a n m x ha hn
  have hpos := ha.pos
  unfold Ind.trima
  simp only [Ind.sma]
  refine Gives.ok ?_
  by_cases h : p % 2 = 1
  · rw [if_pos h]
    have h1 : 1 ≤ (p + 1) / 2 := by omega
    refine shows_congr (Holds.rollMean (ha.rollMean h1).toRepW h1) (by unfold ext1; omega) ?_
    intro i hi _
    exact winMean_winMean x h1 h1 (by omega) (Or.inl rfl)
  · rw [if_neg h]
    have h1 : 1 ≤ p / 2 := by omega
    refine shows_congr (Holds.rollMean (ha.rollMean h1).toRepW (p := p / 2 + 1) (by omega)) (by unfold ext1; omega) ?_
    intro i hi _
    exact winMean_winMean x (by omega) h1 (by omega) (Or.inr rfl)

/-! ### chains -/

section chain
variable {f : MA (Ext K)} {F : ℕ → (ℕ → K) → ℕ → ℕ → K} {e : ℕ → ℕ}

/-- one more application in a chain -/
theorem IsMA.step (hf : IsMA f F e) {p : ℕ} (hp : 1 ≤ p) {x : ℕ → K} {m : ℕ} (k : ℕ) {l : Line (Ext K)} {n : ℕ} (hm : 1 ≤ m)
    (hl : Holds l n (m + k * e p) (Spec.iter F e p x (m - 1) k)) (hn : m + (k + 1) * e p ≤ n) :
    Gives (f p l) fun r => Shows r n (m + (k + 1) * e p) (Spec.iter F e p x (m - 1) (k + 1)) := by
  have hn' : m + k * e p + e p ≤ n := by rw [Nat.succ_mul] at hn; omega
  refine (hf p hp l n _ _ hl hn').imp fun r hr => ?_
  refine shows_congr hr (by rw [Nat.succ_mul]; omega) fun i _ _ => ?_
  simp only [Spec.iter]
  rw [show m + k * e p - 1 = m - 1 + k * e p from by omega]

theorem iter_start {p : ℕ} (ha : Holds a n m x) : Holds a n (m + 0 * e p) (Spec.iter F e p x (m - 1) 0) :=
  holds_congr ha (by omega) fun _ _ _ => rfl

theorem IsMA.iter1 (hf : IsMA f F e) {p : ℕ} (hp : 1 ≤ p) (ha : Holds a n m x) (hn : m + 1 * e p ≤ n) :
    Gives (f p a) fun r => Shows r n (m + 1 * e p) (Spec.iter F e p x (m - 1) 1) :=
  hf.step hp 0 ha.pos (iter_start ha) (by simpa using hn)

end chain

end Bta
