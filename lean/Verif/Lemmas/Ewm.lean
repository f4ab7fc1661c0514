import Verif.Lemmas.Rep
import Verif.Spec.Basic

/-!
# Seeded exponential smoothing (`_ewm`)
-/

set_option linter.unusedSectionVars false

namespace Bta
open Line

variable {V : Type} [PyFloat V]

/-- the value stored as seed -/
def seedVal (seed : Seed) (s : List V) (p1 pidx p2 : Int) : V :=
  match seed with
  | .avg => meanSkipNa (pySlice s p1 p2)
  | .last => (pyGet s pidx).getD nan
  | .sum => sumSkipNa (pySlice s p1 p2)
  | .none => nan
  | .zero => lit 0
  | .zfill => lit 0

theorem ewmPrefix_ok {a : Line V} {seed : Seed} {p1 : Int} {P2 : ℕ} (h1 : 1 ≤ P2) (h2 : P2 ≤ a.series.length) :
    ewmPrefix a seed p1 ((P2 : Int) - 1) (P2 : Int) = .ok [seedVal seed a.series p1 ((P2 : Int) - 1) P2] := by
  have hlen : pyStart a.series.length (P2 : Int) - pyStart a.series.length ((P2 : Int) - 1) = 1 := by
    rw [pyStart_nat, pyStart_pred _ h1]; omega
  have hget : pyGet a.series ((P2 : Int) - 1) = some (a.series[P2 - 1]'(by omega)) := by
    unfold pyGet
    have : ((P2 : Int) - 1) = ((P2 - 1 : ℕ) : Int) := by omega
    rw [this, if_pos (by omega), Int.toNat_natCast, List.getElem?_eq_getElem]
  unfold ewmPrefix
  simp only [hlen]
  cases seed <;> simp [seedVal, hget]

theorem ewmNew_ok {c : EwmCfg} {a : Line V} {P2 : ℕ} (hp : c.p2 a.minperiod = P2) (h1 : 1 ≤ P2)
    (h2 : P2 ≤ a.series.length) :
    ewmNew c a = .ok ⟨(P2 : Int) - 1,
      seedVal c.seed a.series ((P2 : Int) - c.pval) ((P2 : Int) - 1) P2 :: a.series.drop P2⟩ := by
  unfold ewmNew
  simp only [hp, ewmPrefix_ok h1 h2, pyFrom, pyStart_nat, Nat.min_eq_left h2]
  rfl

/-- too short an input: IndexError -/
theorem ewmNew_short {c : EwmCfg} {a : Line V} {P2 : ℕ} (hp : c.p2 a.minperiod = P2)
    (h2 : a.series.length < P2) (hs : c.seed = .avg ∨ c.seed = .sum ∨ c.seed = .last ∨ c.seed = .zero) :
    ewmNew c a = .error .indexError := by
  have hlen : pyStart a.series.length (P2 : Int) - pyStart a.series.length ((P2 : Int) - 1) = 0 := by
    rw [pyStart_nat, pyStart_pred _ (by omega)]; omega
  have hget : pyGet a.series ((P2 : Int) - 1) = none := by
    unfold pyGet
    have : ((P2 : Int) - 1) = ((P2 - 1 : ℕ) : Int) := by omega
    rw [this, if_pos (by omega), Int.toNat_natCast, List.getElem?_eq_none (by omega)]
  unfold ewmNew
  rw [hp]
  unfold ewmPrefix
  simp only [hlen]
  rcases hs with h | h | h | h <;> simp [h, hget]

theorem drop_tail {l : Line V} {n m : ℕ} {g : ℕ → V} (h : RepW l n m g) {k : ℕ} (hk : m ≤ k + 1) :
    l.series.drop k = tail n k g := by
  refine tail_ext ?_ ?_
  · rw [List.length_drop, h.len]
  · intro j hj
    rw [List.getElem?_drop, show k + j = j + k from by omega]
    exact h.val _ (by omega) (by omega)

theorem slice_wnd {l : Line V} {n m : ℕ} {g : ℕ → V} (h : RepW l n m g) {p P2 : ℕ} (h1 : 1 ≤ p) (hp : m + p ≤ P2 + 1)
    (hn : P2 ≤ n) : pySlice l.series ((P2 : Int) - p) P2 = wnd g p (P2 - 1) := by
  have hpos := h.pos
  unfold pySlice
  have : ((P2 : Int) - p) = ((P2 - p : ℕ) : Int) := by omega
  rw [this, pyStart_nat, pyStart_nat, h.len]
  apply List.ext_getElem?
  intro i
  rw [List.getElem?_drop, List.getElem?_take]
  unfold wnd
  by_cases hi : i < p
  · rw [if_pos (by omega), h.val _ (by omega) (by omega)]
    simp only [List.getElem?_map, List.getElem?_range hi, Option.map_some]
    congr 2; omega
  · rw [if_neg (by omega), List.getElem?_eq_none (by simp; omega)]

/-- general result of an operation on an `_ewm` object whose result values start exactly at the final minimum
period -/
theorem rep_ewmCall {c : EwmCfg} {a : Line V} {n m P2 : ℕ} {g E : ℕ → V} (ha : RepW a n m g)
    (hp : c.p2 a.minperiod = P2) (h1 : m ≤ P2) (h2 : P2 ≤ n)
    (hmp : max ((m : Int) + (c.pval - c.pearly - 1)) c.alphaP = P2)
    {op : List V → Except Err (List V)}
    (hop : op (seedVal c.seed a.series ((P2 : Int) - c.pval) ((P2 : Int) - 1) P2 :: tail n P2 g)
      = .ok (tail n (P2 - 1) E)) :
    ∃ o r, ewmNew c a = .ok o ∧ ewmCall c a o op = .ok r ∧ Rep nan r n P2 E := by
  have hpos := ha.pos
  refine ⟨_, ⟨setFrom n nan ((P2 : Int) - 1) (tail n (P2 - 1) E), (P2 : Int)⟩,
    ewmNew_ok hp (by omega) (by rw [ha.len]; exact h2), ?_, ?_⟩
  · unfold ewmCall
    simp only []
    rw [drop_tail ha (by omega), hop]
    simp only []
    rw [if_pos (by rw [pyStart_pred _ (by omega), ha.len, tail_length]; omega)]
    rw [ha.mp, hmp, clone_mp_pos (by omega), ha.len]
  · refine Rep.build (M := P2) (by omega) (le_refl _) ?_ rfl rfl
    intro i _ _; omega

/-! ### exact arithmetic -/

section exact
variable {K : Type} [Field K] [LinearOrder K] [IsStrictOrderedRing K]
open Ext

theorem sumV_fin (l : List K) : sumV (l.map (fin : K → Ext K)) = fin l.sum := by
  unfold sumV
  have : ∀ (l : List K) (a : K), List.foldl (· + ·) (fin a : Ext K) (l.map fin) = fin (a + l.sum) := by
    intro l
    induction l with
    | nil => intro a; simp
    | cons x xs ih =>
      intro a
      simp only [List.map_cons, List.foldl_cons, List.sum_cons, Ext.fin_add]
      rw [ih, add_assoc]
  have h := this l 0
  simpa using h

theorem all_fin (l : List K) : (l.map (fin : K → Ext K)).all isFin = true := by
  simp

theorem filter_fin (l : List K) :
    (l.map (fin : K → Ext K)).filter (fun x => !isNaN x) = l.map fin := by
  rw [List.filter_eq_self]
  intro a ha
  obtain ⟨x, _, rfl⟩ := List.mem_map.mp ha
  simp

theorem wnd_fin (x : ℕ → K) (w i : ℕ) : wnd (fun i => (fin (x i) : Ext K)) w i = (wnd x w i).map fin := by
  simp [wnd, Function.comp_def]

theorem wnd_congr {α : Type} {g h : ℕ → α} {w i : ℕ} (hw : w ≤ i + 1)
    (e : ∀ j, i + 1 ≤ j + w → j ≤ i → g j = h j) : wnd g w i = wnd h w i := by
  unfold wnd
  apply List.map_congr_left
  intro j hj
  have := List.mem_range.mp hj
  exact e _ (by omega) (by omega)

theorem sum_map_range (f : ℕ → K) (w : ℕ) : ((List.range w).map f).sum = ∑ j ∈ Finset.range w, f j := by
  induction w with
  | zero => simp
  | succ w ih => rw [List.range_succ, List.map_append, List.sum_append, ih, Finset.sum_range_succ]; simp

theorem wnd_sum (x : ℕ → K) {w i : ℕ} (hw : w ≤ i + 1) : (wnd x w i).sum = Spec.winSum x w i := by
  unfold wnd Spec.winSum
  rw [← Finset.sum_range_reflect]
  rw [sum_map_range]
  apply Finset.sum_congr rfl
  intro j hj
  have := Finset.mem_range.mp hj
  congr 1; omega

theorem aggSum_wnd (x : ℕ → K) {w i : ℕ} (hw : w ≤ i + 1) :
    aggSum (wnd (fun i => (fin (x i) : Ext K)) w i) = fin (Spec.winSum x w i) := by
  unfold aggSum whenAllFin
  rw [wnd_fin, if_pos (all_fin _), sumV_fin, wnd_sum x hw]

theorem aggMean_wnd (x : ℕ → K) {w i : ℕ} (h1 : 1 ≤ w) (hw : w ≤ i + 1) :
    aggMean (wnd (fun i => (fin (x i) : Ext K)) w i) = fin (Spec.winMean x w i) := by
  unfold aggMean whenAllFin
  rw [wnd_fin, if_pos (all_fin _)]
  simp only []
  rw [sumV_fin, wnd_sum x hw, List.length_map, wnd_length, Ext.fin_div_lit _ (by exact_mod_cast (by omega : w ≠ 0))]
  simp [Spec.winMean]

theorem meanSkipNa_wnd (x : ℕ → K) {w i : ℕ} (h1 : 1 ≤ w) (hw : w ≤ i + 1) :
    meanSkipNa (wnd (fun i => (fin (x i) : Ext K)) w i) = fin (Spec.winMean x w i) := by
  unfold meanSkipNa
  rw [wnd_fin, filter_fin]
  simp only []
  rw [if_neg (by
    intro h
    have : (List.map (fin : K → Ext K) (wnd x w i)).length = 0 := by
      rw [List.isEmpty_iff.mp h]; rfl
    simp at this; omega)]
  rw [sumV_fin, wnd_sum x hw, List.length_map, wnd_length, Ext.fin_div_lit _ (by exact_mod_cast (by omega : w ≠ 0))]
  simp [Spec.winMean]

theorem sumSkipNa_wnd (x : ℕ → K) {w i : ℕ} (hw : w ≤ i + 1) :
    sumSkipNa (wnd (fun i => (fin (x i) : Ext K)) w i) = fin (Spec.winSum x w i) := by
  unfold sumSkipNa
  rw [wnd_fin, filter_fin, sumV_fin, wnd_sum x hw]

theorem prepL_fin (l : List K) : prepL (l.map (fin : K → Ext K)) = l.map fin := by
  simp [prepL]

theorem ewmGo_fin (a : K) (x : ℕ → K) (n s : ℕ) (v : K) :
    ∀ (r j : ℕ), n - (s + j + 1) = r →
      ewmGo (fin a : Ext K) (fin (Spec.expRec a x s v j)) (fin 1) (tail n (s + j + 1) (fun i => fin (x i)))
        = tail n (s + j + 1) (fun i => fin (Spec.expRec a x s v (i - s))) := by
  intro r
  induction r with
  | zero =>
    intro j hr
    have h0 : ∀ g : ℕ → Ext K, tail n (s + j + 1) g = [] := by
      intro g; apply List.eq_nil_of_length_eq_zero; simp [hr]
    rw [h0, h0]; rfl
  | succ r ih =>
    intro j hr
    have hc : ∀ g : ℕ → Ext K, tail n (s + j + 1) g = g (s + j + 1) :: tail n (s + j + 1 + 1) g := by
      intro g
      symm
      refine tail_ext (by simp; omega) ?_
      intro i hi
      cases i with
      | zero => simp
      | succ i =>
        rw [List.getElem?_cons_succ, tail_get _ _ _ _ (by omega)]
        congr 2; omega
    rw [hc, hc]
    simp only [ewmGo, Ext.isNaN_fin, Ext.lit_def, Ext.fin_mul, Ext.fin_sub, Ext.eqv_fin, Rat.cast_one, one_mul,
      Ext.fin_add, Bool.false_eq_true, if_false]
    have hv : (if (decide (Spec.expRec a x s v j = x (s + j + 1))) = true then (fin (Spec.expRec a x s v j) : Ext K)
        else fin ((1 - a) * Spec.expRec a x s v j + a * x (s + j + 1)) / fin (1 - a + a))
        = fin (Spec.expRec a x s v (j + 1)) := by
      by_cases he : Spec.expRec a x s v j = x (s + j + 1)
      · rw [if_pos (by simpa using he)]
        simp [Spec.expRec, he]
      · rw [if_neg (by simpa using he), show (1 - a + a : K) = 1 from by ring, Ext.fin_div _ one_ne_zero]
        congr 1
        simp only [Spec.expRec]
        ring
    rw [hv]
    have := ih (j + 1) (by omega)
    rw [show s + j + 1 - s = j + 1 from by omega]
    congr 1

theorem tail_cons {α : Type} {n k : ℕ} (g : ℕ → α) (h : k < n) : tail n k g = g k :: tail n (k + 1) g := by
  symm
  refine tail_ext (by simp; omega) ?_
  intro i hi
  cases i with
  | zero => simp
  | succ i =>
    rw [List.getElem?_cons_succ, tail_get _ _ _ _ (by omega)]
    congr 2; omega

theorem tail_nil {α : Type} {n k : ℕ} (g : ℕ → α) (h : n ≤ k) : tail n k g = [] := by
  apply List.eq_nil_of_length_eq_zero; simp; omega

/-- the smoothing kernel on a seed followed by finite data -/
theorem ewmL_fin (a : K) (x : ℕ → K) {n s : ℕ} (hs : s < n) (v : K) :
    ewmL (fin a : Ext K) (fin v :: tail n (s + 1) (fun i => fin (x i)))
      = tail n s (fun i => fin (Spec.expRec a x s v (i - s))) := by
  have hprep : prepL ((fin v : Ext K) :: tail n (s + 1) (fun i => fin (x i)))
      = fin v :: tail n (s + 1) (fun i => fin (x i)) := by
    have : (fin v : Ext K) :: tail n (s + 1) (fun i => fin (x i)) = (v :: tail n (s + 1) x).map fin := by
      rw [List.map_cons, map_tail]
    rw [this, prepL_fin]
  unfold ewmL
  rw [hprep]
  simp only []
  rw [tail_cons (n := n) (k := s) _ hs]
  have := ewmGo_fin a x n s v (n - (s + 0 + 1)) 0 rfl
  simp only [Spec.expRec, Nat.add_zero] at this
  simp only [Ext.lit_def, Rat.cast_one, Nat.sub_self, Spec.expRec]
  rw [this]

/-- `line._ewm(span/com ...).mean()` with the default seed (mean of the first `p` values) -/
theorem rep_ewmMean_avg {a : Line (Ext K)} {n m : ℕ} {x : ℕ → K} (ha : RepW a n m (fun i => fin (x i)))
    {p : ℕ} (hp : 1 ≤ p) (hn : m + p - 1 ≤ n) (al : K) :
    ∃ r, ewmMean { pval := p } (fin al) a = .ok r ∧
      Rep nan r n (m + p - 1) (fun i => fin (Spec.expAvg al x (m - 1) p i)) := by
  have hpos := ha.pos
  have hp2 : EwmCfg.p2 { pval := (p : Int) } a.minperiod = ((m + p - 1 : ℕ) : Int) := by
    unfold EwmCfg.p2
    simp only [ha.mp, ne_eq, not_true_eq_false, if_false]
    rw [if_neg (by omega)]
    omega
  have hseed : seedVal Seed.avg a.series (((m + p - 1 : ℕ) : Int) - p) (((m + p - 1 : ℕ) : Int) - 1)
      ((m + p - 1 : ℕ) : Int) = fin (Spec.winMean x p (m + p - 2)) := by
    unfold seedVal
    simp only []
    rw [slice_wnd ha hp (by omega) hn, meanSkipNa_wnd x hp (by omega)]
    congr 2
  obtain ⟨o, r, h1, h2, h3⟩ := rep_ewmCall (c := { pval := (p : Int) }) ha hp2 (by omega) hn (by
      simp only; omega) (op := fun t => .ok (ewmL (fin al) t))
      (E := fun i => fin (Spec.expRec al x (m + p - 2) (Spec.winMean x p (m + p - 2)) (i - (m + p - 2))))
      (by
        simp only [hseed]
        have := ewmL_fin al x (n := n) (s := m + p - 2) (by omega) (Spec.winMean x p (m + p - 2))
        rw [show m + p - 2 + 1 = m + p - 1 from by omega] at this
        rw [this]
        congr 2)
  refine ⟨r, ?_, ?_⟩
  · unfold ewmMean
    rw [h1]
    exact h2
  · refine h3.congr rfl ?_
    intro i _ _
    unfold Spec.expAvg
    rw [show m - 1 + p - 1 = m + p - 2 from by omega]

theorem alphaOfCom_span {p : ℕ} (hp : 1 ≤ p) :
    alphaOfCom (comOfSpan (lit (p : ℚ) : Ext K)) = fin (2 / ((p : K) + 1)) := by
  unfold alphaOfCom comOfSpan
  simp only [Ext.lit_def, Ext.fin_sub]
  have h2 : ((2 : ℚ) : K) ≠ 0 := by norm_num
  rw [Ext.fin_div _ h2, Ext.fin_add]
  have hpk : (0 : K) < (p : K) := by exact_mod_cast hp
  have h3 : ((1 : ℚ) : K) + (((p : ℚ) : K) - ((1 : ℚ) : K)) / ((2 : ℚ) : K) = ((p : K) + 1) / 2 := by
    push_cast; ring
  rw [h3, Ext.fin_div _ (by positivity)]
  congr 1
  push_cast
  field_simp

theorem alphaOfCom_com {p : ℕ} (hp : 1 ≤ p) :
    alphaOfCom (lit ((p : ℚ) - 1) : Ext K) = fin (1 / (p : K)) := by
  unfold alphaOfCom
  simp only [Ext.lit_def, Ext.fin_add]
  have hpk : (0 : K) < (p : K) := by exact_mod_cast hp
  have h3 : ((1 : ℚ) : K) + (((p : ℚ) - 1 : ℚ) : K) = (p : K) := by push_cast; ring
  rw [h3, Ext.fin_div _ hpk.ne']
  congr 1
  push_cast; ring

end exact

end Bta
