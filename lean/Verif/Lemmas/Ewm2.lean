import Verif.Lemmas.Calc
import Verif.Ind.Core

/-!
# Seeded exponential smoothing: other seeds, offsets, accumulation
-/

set_option linter.unusedSectionVars false
set_option linter.unusedVariables false

namespace Bta
open Line

section generic
variable {V : Type} [PyFloat V]

/-- like `rep_ewmCall`, with a declared minimum period which may be before the first value -/
theorem rep_ewmCall_off {c : EwmCfg} {a : Line V} {n m M P2 : ℕ} {g E : ℕ → V} (ha : RepW a n m g)
    (hp : c.p2 a.minperiod = P2) (h1 : m ≤ P2) (h2 : P2 ≤ n) (hM1 : 1 ≤ M) (hM : M ≤ P2)
    (hmp : max ((m : Int) + (c.pval - c.pearly - 1)) c.alphaP = M)
    {op : List V → Except Err (List V)}
    (hop : op (seedVal c.seed a.series ((P2 : Int) - c.pval) ((P2 : Int) - 1) P2 :: tail n P2 g)
      = .ok (tail n (P2 - 1) E)) :
    ∃ o r, ewmNew c a = .ok o ∧ ewmCall c a o op = .ok r ∧ Rep nan r n M (fun i => if i + 1 < P2 then nan else E i) := by
  have hpos := ha.pos
  refine ⟨_, ⟨setFrom n nan ((P2 : Int) - 1) (tail n (P2 - 1) E), (M : Int)⟩,
    ewmNew_ok hp (by omega) (by rw [ha.len]; exact h2), ?_, ?_⟩
  · unfold ewmCall
    simp only []
    rw [drop_tail ha (by omega), hop]
    simp only []
    rw [if_pos (by rw [pyStart_pred _ (by omega), ha.len, tail_length]; omega)]
    rw [ha.mp, hmp, clone_mp_pos (by omega), ha.len]
  · have H : Rep nan (⟨setFrom n nan ((P2 : Int) - 1) (tail n (P2 - 1) E), (P2 : Int)⟩ : Line V) n P2 E :=
      Rep.build (M := P2) (by omega) (le_refl _) (by intro i _ _; omega) rfl rfl
    refine { len := H.len, mp := rfl, pos := hM1, val := ?_, pre := ?_ }
    · intro i hi hn
      by_cases h : i + 1 < P2
      · rw [if_pos h]; exact H.pre i h hn
      · rw [if_neg h]; exact H.val i (by omega) hn
    · intro i hi hn
      exact H.pre i (by omega) hn

end generic

section exact
variable {K : Type} [Field K] [LinearOrder K] [IsStrictOrderedRing K]
open Ext

/-- seeded mean with any seed whose value is the number `v` -/
theorem rep_ewmMean_off {c : EwmCfg} {a : Line (Ext K)} {n m M P2 : ℕ} {x : ℕ → K} (ha : Holds a n m x)
    (hp : c.p2 a.minperiod = P2) (h1 : m ≤ P2) (h2 : P2 ≤ n) (hM1 : 1 ≤ M) (hM : M ≤ P2)
    (hmp : max ((m : Int) + (c.pval - c.pearly - 1)) c.alphaP = M) {v : K}
    (hv : seedVal c.seed a.series ((P2 : Int) - c.pval) ((P2 : Int) - 1) P2 = fin v) (al : K) :
    ∃ r, ewmMean c (fin al) a = .ok r ∧
      Rep nan r n M (fun i => if i + 1 < P2 then nan else fin (Spec.expRec al x (P2 - 1) v (i - (P2 - 1)))) := by
  have hpos := ha.pos
  obtain ⟨o, r, h3, h4, h5⟩ := rep_ewmCall_off ha hp h1 h2 hM1 hM hmp (op := fun t => .ok (ewmL (fin al) t))
    (E := fun i => fin (Spec.expRec al x (P2 - 1) v (i - (P2 - 1)))) (by
      simp only [hv]
      have := ewmL_fin al x (n := n) (s := P2 - 1) (by omega) v
      rw [show P2 - 1 + 1 = P2 from by omega] at this
      rw [this])
  exact ⟨r, by unfold ewmMean; rw [h3]; exact h4, h5⟩

theorem seedVal_avg {a : Line (Ext K)} {n m : ℕ} {x : ℕ → K} (ha : Holds a n m x) {p P2 : ℕ} (hp : 1 ≤ p)
    (h1 : m + p ≤ P2 + 1) (h2 : P2 ≤ n) :
    seedVal .avg a.series ((P2 : Int) - p) ((P2 : Int) - 1) P2 = fin (Spec.winMean x p (P2 - 1)) := by
  have := ha.pos
  unfold seedVal
  simp only []
  rw [slice_wnd ha hp h1 h2, meanSkipNa_wnd x hp (by omega)]

theorem seedVal_sum {a : Line (Ext K)} {n m : ℕ} {x : ℕ → K} (ha : Holds a n m x) {p P2 : ℕ} (hp : 1 ≤ p)
    (h1 : m + p ≤ P2 + 1) (h2 : P2 ≤ n) :
    seedVal .sum a.series ((P2 : Int) - p) ((P2 : Int) - 1) P2 = fin (Spec.winSum x p (P2 - 1)) := by
  have := ha.pos
  unfold seedVal
  simp only []
  rw [slice_wnd ha hp h1 h2, sumSkipNa_wnd x (by omega)]

theorem seedVal_last {a : Line (Ext K)} {n m : ℕ} {x : ℕ → K} (ha : Holds a n m x) {P2 : ℕ} {q : Int}
    (h1 : m ≤ P2) (h2 : P2 ≤ n) :
    seedVal .last a.series q ((P2 : Int) - 1) P2 = fin (x (P2 - 1)) := by
  have hpos := ha.pos
  unfold seedVal
  simp only []
  have hget : pyGet a.series ((P2 : Int) - 1) = some (fin (x (P2 - 1))) := by
    unfold pyGet
    have : ((P2 : Int) - 1) = ((P2 - 1 : ℕ) : Int) := by omega
    rw [this, if_pos (by omega), Int.toNat_natCast]
    exact ha.val _ (by omega) (by omega)
  rw [hget]; rfl

/-- accumulating recursion `y := b y + a x` -/
def accRec (al be : K) (x : ℕ → K) (s : ℕ) (v : K) : ℕ → K
  | 0 => v
  | j + 1 => be * accRec al be x s v j + al * x (s + j + 1)

theorem smAccGo_fin (al be : K) (x : ℕ → K) (n s : ℕ) (v : K) :
    ∀ (r j : ℕ), n - (s + j + 1) = r →
      smAccGo (fin al : Ext K) (fin be) (fin (accRec al be x s v j)) (tail n (s + j + 1) (fun i => fin (x i)))
        = tail n (s + j + 1) (fun i => fin (accRec al be x s v (i - s))) := by
  intro r
  induction r with
  | zero =>
    intro j hr
    rw [tail_nil _ (by omega), tail_nil _ (by omega)]; rfl
  | succ r ih =>
    intro j hr
    rw [tail_cons _ (by omega : s + j + 1 < n), tail_cons _ (by omega : s + j + 1 < n)]
    simp only [smAccGo, Ext.fin_mul, Ext.fin_add]
    have := ih (j + 1) (by omega)
    rw [show s + j + 1 - s = j + 1 from by omega]
    congr 1

theorem smAcc_fin (al be : K) (x : ℕ → K) {n s : ℕ} (hs : s < n) (v : K) :
    smAcc (fin al : Ext K) (fin be) (fin v :: tail n (s + 1) (fun i => fin (x i)))
      = .ok (tail n s (fun i => fin (accRec al be x s v (i - s)))) := by
  unfold smAcc
  rw [tail_cons (n := n) (k := s) _ hs]
  have := smAccGo_fin al be x n s v (n - (s + 0 + 1)) 0 rfl
  simp only [accRec, Nat.add_zero] at this
  simp only [Nat.sub_self, accRec]
  rw [this]

theorem lfilterGo_eq_smAccGo' (al be : K) : ∀ (l : List (Ext K)) (y : Ext K),
    lfilterGo (fin al) (fin be) y l = smAccGo (fin al) (fin be) y l := by
  intro l
  induction l with
  | nil => intro y; rfl
  | cons z zs ih =>
    intro y
    have hc : ∀ a b : Ext K, a + b = b + a := by
      intro a b
      cases a <;> cases b <;> try rfl
      simp [add_comm]
    simp only [lfilterGo, smAccGo, ih, hc (fin al * z)]

theorem lfilter_fin (scipy : Bool) {al : K} (hal : al ≠ 0) {be : K} (hbe : be ≠ 0 ∨ be = 1 - al) (x : ℕ → K) {n s : ℕ}
    (hs : s < n) (v : K) :
    lfilter scipy (fin al : Ext K) (some (fin be)) (fin v :: tail n (s + 1) (fun i => fin (x i)))
      = .ok (tail n s (fun i => fin (accRec al be x s v (i - s)))) := by
  have hb : betaOf (fin al : Ext K) (some (fin be)) = fin be := by
    unfold betaOf
    simp only [Ext.lit_def, Ext.eqv_fin, decide_eq_true_eq, Ext.fin_sub]
    split_ifs with h
    · rcases hbe with h' | h'
      · exact absurd (by simpa using h) h'
      · rw [h']; simp
    · rfl
  unfold lfilter
  rw [hb]
  have hsm := smAcc_fin al be x hs v
  cases scipy with
  | false => rw [if_neg (by simp)]; exact hsm
  | true =>
    rw [if_pos rfl]
    rw [← hsm]
    unfold spLfilter smAcc
    simp only [lfilterGo, Ext.lit_def, Ext.fin_div v hal, Ext.fin_mul, Ext.fin_add]
    have e : al * (v / al) + be * ((0 : ℚ) : K) = v := by
      rw [mul_div_cancel₀ _ hal]; simp
    rw [e, lfilterGo_eq_smAccGo']

theorem prepL_cons_tail (x : ℕ → K) (n s : ℕ) (v : K) :
    prepL ((fin v : Ext K) :: tail n s (fun i => fin (x i))) = fin v :: tail n s (fun i => fin (x i)) := by
  have : (fin v : Ext K) :: tail n s (fun i => fin (x i)) = (v :: tail n s x).map fin := by
    rw [List.map_cons, map_tail]
  rw [this, prepL_fin]

/-- accumulation with a seed of value `v` -/
theorem rep_ewmLfilter {c : EwmCfg} {a : Line (Ext K)} {n m P2 : ℕ} {x : ℕ → K} (ha : Holds a n m x) (scipy : Bool)
    (hp : c.p2 a.minperiod = P2) (h1 : m ≤ P2) (h2 : P2 ≤ n)
    (hmp : max ((m : Int) + (c.pval - c.pearly - 1)) c.alphaP = P2) {v : K}
    (hv : seedVal c.seed a.series ((P2 : Int) - c.pval) ((P2 : Int) - 1) P2 = fin v)
    {al : K} (hal : al ≠ 0) {be : K} (hbe : be ≠ 0 ∨ be = 1 - al) :
    ∃ r, ewmLfilter scipy c (fin al) (some (fin be)) a = .ok r ∧
      Shows r n P2 (fun i => accRec al be x (P2 - 1) v (i - (P2 - 1))) := by
  have hpos := ha.pos
  obtain ⟨o, r, h3, h4, h5⟩ := rep_ewmCall ha hp h1 h2 hmp (op := fun t => lfilter scipy (fin al) (some (fin be)) (prepL t))
    (E := fun i => fin (accRec al be x (P2 - 1) v (i - (P2 - 1)))) (by
      simp only [hv]
      rw [prepL_cons_tail]
      have := lfilter_fin scipy hal hbe x (n := n) (s := P2 - 1) (by omega) v
      rw [show P2 - 1 + 1 = P2 from by omega] at this
      rw [this])
  exact ⟨r, by unfold ewmLfilter; rw [h3]; exact h4, h5⟩

end exact
end Bta
