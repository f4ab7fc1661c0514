import Verif.Spec.Sar
import Verif.Lemmas.Osc
import Verif.Props.Ma

/-!
# Parabolic stop and reverse: C38, C39
-/

set_option linter.unusedSectionVars false
set_option linter.unusedVariables false

namespace Bta
open Line Ext

variable {K : Type} [Field K] [LinearOrder K] [IsStrictOrderedRing K]
variable {h l : Line (Ext K)} {n m m' : ℕ} {H L : ℕ → K}

/-! ### the loop of `sar` -/

theorem max3_fin (a b c : K) : Ind.max3 (fin a : Ext K) (fin b) (fin c) = fin (max (max a b) c) := by
  unfold Ind.max3; rw [maxV_fin, maxV_fin]
theorem min3_fin (a b c : K) : Ind.min3 (fin a : Ext K) (fin b) (fin c) = fin (min (min a b) c) := by
  unfold Ind.min3; rw [minV_fin, minV_fin]

/-- loop variables of the model for a position, with the prices of the previous bar -/
def sarSt (H L : ℕ → K) (q : ℕ) (s : Spec.Stop K) : Ind.SarSt (Ext K) :=
  ⟨s.long, fin s.stop, fin s.ext, fin s.af, fin (H q), fin (L q)⟩

theorem sarStep_spec (af am : K) (H L : ℕ → K) (q i : ℕ) (s : Spec.Stop K) :
    Ind.sarStep (fin af) (fin am) (sarSt H L q s) (fin (H i)) (fin (L i)) =
      (fin (Spec.stopShown H L i s), sarSt H L i (Spec.stopNext (fun _ => af) (fun _ => am) H L q i s)) := by
  obtain ⟨lg, st, ex, a⟩ := s
  unfold Ind.sarStep sarSt Spec.stopNext Spec.stopShown Spec.Hit
  cases lg
  · simp only [Bool.false_eq_true, if_false, Ext.le_fin, decide_eq_true_eq, Ext.lt_fin]
    by_cases c : st ≤ H i
    · simp [c, Ext.fin_sub, Ext.fin_mul, Ext.fin_add, min3_fin]
    · simp only [c, if_false]
      by_cases d : L i < ex
      · simp [d, Ext.fin_sub, Ext.fin_mul, Ext.fin_add, max3_fin, minV_fin, min_eq_right d.le]
      · simp [d, Ext.fin_sub, Ext.fin_mul, Ext.fin_add, max3_fin, min_eq_left (not_lt.mp d)]
  · simp only [if_true, Ext.le_fin, decide_eq_true_eq, Ext.lt_fin]
    by_cases c : L i ≤ st
    · simp [c, Ext.fin_sub, Ext.fin_mul, Ext.fin_add, max3_fin]
    · simp only [c, if_false]
      by_cases d : ex < H i
      · simp [d, Ext.fin_sub, Ext.fin_mul, Ext.fin_add, min3_fin, minV_fin, max_eq_right d.le]
      · simp [d, Ext.fin_sub, Ext.fin_mul, Ext.fin_add, min3_fin, max_eq_left (not_lt.mp d)]

theorem sarGo_spec (af am : K) (s0 : Spec.Stop K) (H L : ℕ → K) (f n : ℕ) : ∀ (c k : ℕ), n - (f + 1 + k) = c →
    Ind.sarGo (fin af) (fin am) (sarSt H L (f + 1 + (k - 1)) (Spec.stopAt s0 (fun _ => af) (fun _ => am) H L f k))
        (tail n (f + 1 + k) fun i => ((fin (H i) : Ext K), (fin (L i) : Ext K)))
      = tail n (f + 1 + k) fun i =>
        fin (Spec.stopShown H L i (Spec.stopAt s0 (fun _ => af) (fun _ => am) H L f (i - (f + 1)))) := by
  intro c
  induction c with
  | zero => intro k hk; rw [tail_nil _ (by omega), tail_nil _ (by omega)]; rfl
  | succ c ih =>
    intro k hk
    have hlt : f + 1 + k < n := by omega
    rw [tail_cons (fun i => ((fin (H i) : Ext K), (fin (L i) : Ext K))) hlt,
      tail_cons (fun i => (fin (Spec.stopShown H L i (Spec.stopAt s0 (fun _ => af) (fun _ => am) H L f (i - (f + 1)))) : Ext K)) hlt]
    unfold Ind.sarGo
    rw [sarStep_spec]
    have e1 : f + 1 + k - (f + 1) = k := by omega
    have := ih (k + 1) (by omega)
    rw [Nat.add_sub_cancel] at this
    rw [e1]
    congr 1

theorem sarInit_spec (af : K) (H L : ℕ → K) (f : ℕ) :
    Ind.sarInit (fin af) (fin (H f)) (fin (L f)) (fin (H (f + 1))) (fin (L (f + 1)))
      = sarSt H L (f + 1) (Spec.stopAuto (fun _ => af) H L f) := by
  unfold Ind.sarInit Spec.stopAuto
  simp only [Ext.fin_sub, Ext.lit_def, Ext.lt_fin, Rat.cast_zero, maxV_fin]
  by_cases c : H (f + 1) - H f < L f - L (f + 1)
  · by_cases d : L (f + 1) < L f
    · simp [c, d, ofBool, sarSt]
    · simp [c, d, ofBool, sarSt]
  · simp [c, ofBool, sarSt]

theorem applySar_spec {F : List (Ext K × Ext K) → Except Err (List (Ext K))} (hh : Holds h n m H) (hl : Holds l n m' L) {g : ℕ → Ext K}
    (hF : F (tail n (max m m' - 1) fun i => ((fin (H i) : Ext K), (fin (L i) : Ext K))) = .ok (tail n (max m m' - 1) g))
    (h0 : g (max m m' - 1) = Ext.nan) :
    Gives (Ind.applySar F h l) fun r => Delivers r n (max m m' + 1) g := by
  have hp := hh.pos
  unfold Ind.applySar
  have e : max h.minperiod l.minperiod = ((max m m' : ℕ) : Int) := by rw [hh.mp, hl.mp, imax_cast]
  simp only [e]
  rw [pyFrom_tail hh (by omega), pyFrom_tail hl (by omega), zip_tail, hF]
  refine ⟨_, rfl, ?_⟩
  rw [clone_mp_pos (by omega)]
  unfold Line.period
  rw [if_neg (by omega)]
  refine Rep.build (M := max m m') (by omega) (by omega) ?_ ?_ ?_
  · intro i q1 q2 q3
    rw [show i = max m m' - 1 from by omega, h0]
  · simp only [hh.len]; rfl
  · simp only []; omega

/-- **C38** (values) With two or more bars of data `sar` delivers Wilder's stop and reverse from the second of them on. -/
theorem C38_values (hh : Holds h n m H) (hl : Holds l n m' L) (hn : max m m' + 1 ≤ n) (af am : K) :
    Gives (Ind.sar (fin af) (fin am) h l) fun r => Shows r n (max m m' + 1) fun i =>
      Spec.stopShown H L i (Spec.stopAt (Spec.stopAuto (fun _ => af) H L (max m m' - 1)) (fun _ => af) (fun _ => am) H L
        (max m m' - 1) (i - max m m')) := by
  have hp := hh.pos
  set f := max m m' - 1 with hf
  have hM : max m m' = f + 1 := by omega
  unfold Ind.sar
  have key := applySar_spec (F := Ind.sarize (fin af) (fin am)) hh hl (g := fun i => if i = f then Ext.nan else fin (Spec.stopShown H L i
    (Spec.stopAt (Spec.stopAuto (fun _ => af) H L f) (fun _ => af) (fun _ => am) H L f (i - (f + 1))))) ?_ (by rw [if_pos hf.symm])
  · obtain ⟨r, hr, hd⟩ := key
    refine ⟨r, hr, hd.congr rfl fun i q1 q2 => ?_⟩
    rw [if_neg (by omega), hM]
  · rw [← hf, tail_cons _ (by omega : f < n), tail_cons _ (by omega : f + 1 < n), tail_cons _ (by omega : f < n)]
    unfold Ind.sarize
    simp only []
    rw [sarInit_spec, if_pos trivial]
    have := sarGo_spec af am (Spec.stopAuto (fun _ => af) H L f) H L f n _ 0 rfl
    simp only [Nat.add_zero] at this
    rw [tail_cons _ (by omega : f + 1 < n)] at this
    simp only [Spec.stopAt, Nat.zero_sub, Nat.add_zero] at this
    rw [this]
    congr 2
    refine tail_ext (by simp) fun j hj => ?_
    rw [tail_get _ _ _ _ hj, if_neg (by omega)]

/-- **C38** (boundary) On fewer than two bars of data the call raises. -/
theorem C38_short_raises (hh : Holds h n m H) (hl : Holds l n m' L) (hn : n < max m m' + 1) (af am : K) :
    Ind.sar (fin af) (fin am) h l = .error .indexError := by
  have hp := hh.pos
  unfold Ind.sar Ind.applySar
  have e : max h.minperiod l.minperiod = ((max m m' : ℕ) : Int) := by rw [hh.mp, hl.mp, imax_cast]
  simp only [e]
  rw [pyFrom_tail hh (by omega), pyFrom_tail hl (by omega), zip_tail]
  by_cases c : max m m' - 1 < n
  · rw [tail_cons _ c, tail_nil _ (by omega)]; rfl
  · rw [tail_nil _ (by omega)]; rfl

/-! ### invariants of the stop -/

section invariants
variable (AF AM : Bool → K) (H L : ℕ → K) (f : ℕ)

/-- position before bar `f + 1 + k` -/
local notation "St" => Spec.stopAt (Spec.stopAuto AF H L f) AF AM H L f

theorem stop_af (hb : ∀ b, AF b ≤ AM b) (h0 : ∀ b, 0 ≤ AF b) : ∀ k,
    AF ((St k).long) ≤ (St k).af ∧ (St k).af ≤ AM ((St k).long) := by
  intro k
  induction k with
  | zero =>
    unfold Spec.stopAt Spec.stopAuto
    split
    · exact ⟨le_refl _, hb _⟩
    · exact ⟨le_refl _, hb _⟩
  | succ k ih =>
    rw [Spec.stopAt]
    set s := St k
    unfold Spec.stopNext
    split
    · split
      · exact ⟨le_refl _, hb _⟩
      · exact ⟨le_refl _, hb _⟩
    · split
      · rename_i hl
        rw [hl] at ih
        simp only []
        have := h0 true
        have := hb true
        split
        · exact ⟨le_min (by linarith) (by linarith), min_le_right _ _⟩
        · exact ih
      · rename_i hl
        rw [Bool.not_eq_true] at hl
        rw [hl] at ih
        simp only []
        have := h0 false
        have := hb false
        split
        · exact ⟨le_min (by linarith) (by linarith), min_le_right _ _⟩
        · exact ih

/-- a set of numbers with all numbers between any two of them -/
def Convex1 (P : K → Prop) : Prop := ∀ a b t, P a → P b → 0 ≤ t → t ≤ 1 → P (a + t * (b - a))

theorem stop_range {P : K → Prop} (hP : Convex1 P) (hb : ∀ b, AF b ≤ AM b) (h0 : ∀ b, 0 ≤ AF b) (h1 : ∀ b, AM b ≤ 1) : ∀ k,
    (∀ j, f ≤ j → j ≤ f + 1 + (k - 1) → P (H j) ∧ P (L j)) → P (St k).stop ∧ P (St k).ext := by
  have pmax : ∀ a b, P a → P b → P (max a b) := fun a b ha hb => by rcases max_choice a b with h | h <;> rw [h] <;> assumption
  have pmin : ∀ a b, P a → P b → P (min a b) := fun a b ha hb => by rcases min_choice a b with h | h <;> rw [h] <;> assumption
  intro k
  induction k with
  | zero =>
    intro hj
    have q0 := hj f (le_refl _) (by omega)
    have q1 := hj (f + 1) (by omega) (by omega)
    unfold Spec.stopAt Spec.stopAuto
    split
    · exact ⟨q0.1, q1.2⟩
    · exact ⟨q0.2, q1.1⟩
  | succ k ih =>
    intro hj
    obtain ⟨i1, i2⟩ := ih fun j q1 q2 => hj j q1 (by omega)
    obtain ⟨c1, c2⟩ := hj (f + 1 + k) (by omega) (by omega)
    obtain ⟨d1, d2⟩ := hj (f + 1 + (k - 1)) (by omega) (by omega)
    obtain ⟨a1, a2⟩ := stop_af AF AM H L f hb h0 (k + 1)
    have aF : ∀ b, AF b ≤ 1 := fun b => le_trans (hb b) (h1 b)
    have g0 : 0 ≤ (St (k + 1)).af := le_trans (h0 _) a1
    have g1 : (St (k + 1)).af ≤ 1 := le_trans a2 (h1 _)
    rw [Spec.stopAt] at g0 g1 ⊢
    set s := St k
    unfold Spec.stopNext at g0 g1 ⊢
    split
    · split
      · exact ⟨pmax _ _ (pmax _ _ (hP _ _ _ i2 c2 (h0 _) (aF _)) c1) d1, c2⟩
      · exact ⟨pmin _ _ (pmin _ _ (hP _ _ _ i2 c1 (h0 _) (aF _)) c2) d2, c1⟩
    · rename_i hh
      rw [if_neg hh] at g0 g1
      split
      · rename_i hl
        rw [if_pos hl] at g0 g1
        exact ⟨pmin _ _ (pmin _ _ (hP _ _ _ i1 (pmax _ _ i2 c1) g0 g1) c2) d2, pmax _ _ i2 c1⟩
      · rename_i hl
        rw [if_neg hl] at g0 g1
        exact ⟨pmax _ _ (pmax _ _ (hP _ _ _ i1 (pmin _ _ i2 c2) g0 g1) c1) d1, pmin _ _ i2 c2⟩

/-- the stop is beyond the prices of the last two bars, and the extreme beyond the stop -/
theorem stop_side (hv : ∀ i, f ≤ i → L i ≤ H i) : ∀ k,
    ((St k).long = true → (St k).stop ≤ L (f + k) ∧ (2 ≤ k → (St k).stop ≤ L (f + k - 1)) ∧ (St k).stop ≤ (St k).ext) ∧
    ((St k).long = false → H (f + k) ≤ (St k).stop ∧ (2 ≤ k → H (f + k - 1) ≤ (St k).stop) ∧ (St k).ext ≤ (St k).stop) := by
  intro k
  cases k with
  | zero =>
    have v0 := hv f (le_refl _)
    have v1 := hv (f + 1) (by omega)
    unfold Spec.stopAt Spec.stopAuto
    split
    · rename_i c
      refine ⟨by simp, fun _ => ⟨le_refl _, by omega, by linarith [c.1]⟩⟩
    · rename_i c
      refine ⟨fun _ => ⟨le_refl _, by omega, ?_⟩, by simp⟩
      simp only []
      by_contra hc
      exact c ⟨by linarith, by linarith⟩
  | succ k =>
    have v1 := hv (f + 1 + k) (by omega)
    rw [Spec.stopAt]
    set s := St k
    have e0 : f + (k + 1) = f + 1 + k := by omega
    have e1 : 2 ≤ k + 1 → f + 1 + k - 1 = f + 1 + (k - 1) := by omega
    rw [e0]
    unfold Spec.stopNext
    split
    · split
      · refine ⟨by simp, fun _ => ⟨?_, fun hk => ?_, ?_⟩⟩
        · exact le_trans (le_max_right _ _) (le_max_left _ _)
        · rw [e1 hk]; exact le_max_right _ _
        · exact le_trans v1 (le_trans (le_max_right _ _) (le_max_left _ _))
      · refine ⟨fun _ => ⟨?_, fun hk => ?_, ?_⟩, by simp⟩
        · exact le_trans (min_le_left _ _) (min_le_right _ _)
        · rw [e1 hk]; exact min_le_right _ _
        · exact le_trans (le_trans (min_le_left _ _) (min_le_right _ _)) v1
    · split
      · refine ⟨fun _ => ⟨?_, fun hk => ?_, ?_⟩, by simp⟩
        · exact le_trans (min_le_left _ _) (min_le_right _ _)
        · rw [e1 hk]; exact min_le_right _ _
        · exact le_trans (le_trans (min_le_left _ _) (min_le_right _ _)) (le_trans v1 (le_max_right _ _))
      · refine ⟨by simp, fun _ => ⟨?_, fun hk => ?_, ?_⟩⟩
        · exact le_trans (le_max_right _ _) (le_max_left _ _)
        · rw [e1 hk]; exact le_max_right _ _
        · exact le_trans (min_le_right _ _) (le_trans v1 (le_trans (le_max_right _ _) (le_max_left _ _)))

/-- the stop of a position which is kept does not move back -/
theorem stop_mono (hv : ∀ i, f ≤ i → L i ≤ H i) (hb : ∀ b, AF b ≤ AM b) (h0 : ∀ b, 0 ≤ AF b) (k : ℕ)
    (hk : ¬ Spec.Hit H L (f + 1 + k) (St k)) :
    ((St k).long = true → (St k).stop ≤ (St (k + 1)).stop) ∧ ((St k).long = false → (St (k + 1)).stop ≤ (St k).stop) := by
  obtain ⟨s1, s2⟩ := stop_side AF AM H L f hv k
  obtain ⟨t1, t2⟩ := stop_side AF AM H L f hv (k + 1)
  obtain ⟨a1, _⟩ := stop_af AF AM H L f hb h0 (k + 1)
  have g0 : 0 ≤ (St (k + 1)).af := le_trans (h0 _) a1
  have hq : f + 1 + (k - 1) = f + k ∨ f + 1 + (k - 1) = f + 1 + k := by omega
  rw [Spec.stopAt] at g0 ⊢
  set s := St k
  have hk' := hk
  unfold Spec.Hit at hk'
  unfold Spec.stopNext at g0 ⊢
  rw [if_neg hk] at g0 ⊢
  constructor
  · intro hl
    obtain ⟨r1, _, r3⟩ := s1 hl
    rw [if_pos hl] at hk' g0 ⊢
    refine le_min (le_min ?_ (le_of_lt (not_le.mp hk'))) ?_
    · have : 0 ≤ max s.ext (H (f + 1 + k)) - s.stop := by linarith [le_max_left s.ext (H (f + 1 + k))]
      have := mul_nonneg g0 this
      simp only [] at this
      linarith
    · rcases hq with e | e
      · rw [e]; exact r1
      · rw [e]; exact le_of_lt (not_le.mp hk')
  · intro hl
    obtain ⟨r1, _, r3⟩ := s2 hl
    have hl' : ¬ s.long = true := by rw [hl]; simp
    rw [if_neg hl'] at hk' g0 ⊢
    refine max_le (max_le ?_ (le_of_lt (not_le.mp hk'))) ?_
    · have : 0 ≤ s.stop - min s.ext (L (f + 1 + k)) := by linarith [min_le_left s.ext (L (f + 1 + k))]
      have := mul_nonneg g0 this
      simp only [] at this
      nlinarith
    · rcases hq with e | e
      · rw [e]; exact r1
      · rw [e]; exact le_of_lt (not_le.mp hk')

/-- direction after bar `r ≥ f` -/
local notation "Tr" => fun r : ℕ => Spec.Stop.long (St (r - f))

/-- the extreme is the highest high (lowest low) since the bar in which the position was opened -/
theorem stop_ext : ∀ k,
    ((St k).long = true → ∃ j, f + 1 ≤ j ∧ j ≤ f + 1 + (k - 1) ∧ (j = f + 1 ∨ (St (j - 1 - f)).long = false) ∧
      (∀ r, j ≤ r → r < f + 1 + k → (St (r - f)).long = true) ∧
      (∀ r, j ≤ r → r ≤ f + 1 + (k - 1) → H r ≤ (St k).ext) ∧ ∃ r, j ≤ r ∧ r ≤ f + 1 + (k - 1) ∧ (St k).ext = H r) ∧
    ((St k).long = false → ∃ j, f + 1 ≤ j ∧ j ≤ f + 1 + (k - 1) ∧ (j = f + 1 ∨ (St (j - 1 - f)).long = true) ∧
      (∀ r, j ≤ r → r < f + 1 + k → (St (r - f)).long = false) ∧
      (∀ r, j ≤ r → r ≤ f + 1 + (k - 1) → (St k).ext ≤ L r) ∧ ∃ r, j ≤ r ∧ r ≤ f + 1 + (k - 1) ∧ (St k).ext = L r) := by
  intro k
  induction k with
  | zero =>
    unfold Spec.stopAt
    unfold Spec.stopAuto
    split
    · refine ⟨by simp, fun _ => ⟨f + 1, by omega, by omega, Or.inl rfl, fun r q1 q2 => by omega, fun r q1 q2 => ?_,
        f + 1, by omega, by omega, rfl⟩⟩
      rw [show r = f + 1 from by omega]
    · refine ⟨fun _ => ⟨f + 1, by omega, by omega, Or.inl rfl, fun r q1 q2 => by omega, fun r q1 q2 => ?_,
        f + 1, by omega, by omega, rfl⟩, by simp⟩
      rw [show r = f + 1 from by omega]
  | succ k ih =>
    have key : ∀ r, r < f + 1 + (k + 1) → ¬ r < f + 1 + k → f + 1 ≤ r → (St (r - f)).long = (St (k + 1)).long := fun r q1 q2 q3 => by
      rw [show r - f = k + 1 from by omega]
    by_cases hh : Spec.Hit H L (f + 1 + k) (St k)
    · cases hl : (St k).long with
      | true =>
        have e : St (k + 1) = ⟨false, max (max ((St k).ext + AF false * (L (f + 1 + k) - (St k).ext)) (H (f + 1 + k)))
            (H (f + 1 + (k - 1))), L (f + 1 + k), AF false⟩ := by
          rw [Spec.stopAt]; unfold Spec.stopNext; rw [if_pos hh, if_pos hl]
        refine ⟨by rw [e]; simp, fun _ => ⟨f + 1 + k, by omega, by omega, ?_, fun r q1 q2 => ?_, fun r q1 q2 => ?_,
          f + 1 + k, by omega, by omega, by rw [e]⟩⟩
        · by_cases hk : k = 0
          · left; omega
          · right; rw [show f + 1 + k - 1 - f = k from by omega]; exact hl
        · rw [key r q2 (by omega) (by omega), e]
        · rw [e, show r = f + 1 + k from by omega]
      | false =>
        have hl' : ¬ (St k).long = true := by rw [hl]; simp
        have e : St (k + 1) = ⟨true, min (min ((St k).ext + AF true * (H (f + 1 + k) - (St k).ext)) (L (f + 1 + k)))
            (L (f + 1 + (k - 1))), H (f + 1 + k), AF true⟩ := by
          rw [Spec.stopAt]; unfold Spec.stopNext; rw [if_pos hh, if_neg hl']
        refine ⟨fun _ => ⟨f + 1 + k, by omega, by omega, ?_, fun r q1 q2 => ?_, fun r q1 q2 => ?_,
          f + 1 + k, by omega, by omega, by rw [e]⟩, by rw [e]; simp⟩
        · by_cases hk : k = 0
          · left; omega
          · right; rw [show f + 1 + k - 1 - f = k from by omega]; exact hl
        · rw [key r q2 (by omega) (by omega), e]
        · rw [e, show r = f + 1 + k from by omega]
    · cases hl : (St k).long with
      | true =>
        have e1 : (St (k + 1)).long = true := by
          rw [Spec.stopAt]; unfold Spec.stopNext; rw [if_neg hh, if_pos hl]
        have e2 : (St (k + 1)).ext = max (St k).ext (H (f + 1 + k)) := by
          rw [Spec.stopAt]; unfold Spec.stopNext; rw [if_neg hh, if_pos hl]
        obtain ⟨j, j1, j2, j3, j4, j5, r0, j6, j7, j8⟩ := ih.1 hl
        refine ⟨fun _ => ⟨j, j1, by omega, j3, fun r q1 q2 => ?_, fun r q1 q2 => ?_, ?_⟩, by rw [e1]; simp⟩
        · by_cases hr : r < f + 1 + k
          · exact j4 r q1 hr
          · rw [key r q2 hr (by omega), e1]
        · rw [e2]
          by_cases hr : r ≤ f + 1 + (k - 1)
          · exact le_trans (j5 r q1 hr) (le_max_left _ _)
          · rw [show r = f + 1 + k from by omega]; exact le_max_right _ _
        · rw [e2]
          rcases max_choice (St k).ext (H (f + 1 + k)) with hc | hc
          · exact ⟨r0, j6, by omega, by rw [hc]; exact j8⟩
          · exact ⟨f + 1 + k, by omega, by omega, hc⟩
      | false =>
        have hl' : ¬ (St k).long = true := by rw [hl]; simp
        have e1 : (St (k + 1)).long = false := by
          rw [Spec.stopAt]; unfold Spec.stopNext; rw [if_neg hh, if_neg hl']
        have e2 : (St (k + 1)).ext = min (St k).ext (L (f + 1 + k)) := by
          rw [Spec.stopAt]; unfold Spec.stopNext; rw [if_neg hh, if_neg hl']
        obtain ⟨j, j1, j2, j3, j4, j5, r0, j6, j7, j8⟩ := ih.2 hl
        refine ⟨by rw [e1]; simp, fun _ => ⟨j, j1, by omega, j3, fun r q1 q2 => ?_, fun r q1 q2 => ?_, ?_⟩⟩
        · by_cases hr : r < f + 1 + k
          · exact j4 r q1 hr
          · rw [key r q2 hr (by omega), e1]
        · rw [e2]
          by_cases hr : r ≤ f + 1 + (k - 1)
          · exact le_trans (min_le_left _ _) (j5 r q1 hr)
          · rw [show r = f + 1 + k from by omega]; exact min_le_right _ _
        · rw [e2]
          rcases min_choice (St k).ext (L (f + 1 + k)) with hc | hc
          · exact ⟨r0, j6, by omega, by rw [hc]; exact j8⟩
          · exact ⟨f + 1 + k, by omega, by omega, hc⟩

theorem stop_turn (k : ℕ) : (St (k + 1)).long = (if Spec.Hit H L (f + 1 + k) (St k) then !(St k).long else (St k).long) := by
  rw [Spec.stopAt]
  unfold Spec.stopNext
  split <;> split <;> simp_all

end invariants

/-! ## C38 -/

/-- What the reported values `S` mean, given the direction `T` of the position after each bar (`T f` before the first reported
bar `f + 1`). -/
structure _root_.Spec.IsStop (H L : ℕ → K) (f n : ℕ) (S : ℕ → K) (T : ℕ → Bool) : Prop where
  /-- the position is short at first exactly if the low fell by more than the high rose -/
  start : T f = false ↔ L (f + 1) < L f ∧ H (f + 1) - H f < L f - L (f + 1)
  /-- a long position which is kept: the stop is below the low of the bar and not above that of the bar before -/
  keepLong : ∀ i, f < i → i < n → T (i - 1) = true → T i = true → S i < L i ∧ S i ≤ L (i - 1)
  /-- a short position which is kept -/
  keepShort : ∀ i, f < i → i < n → T (i - 1) = false → T i = false → H i < S i ∧ H (i - 1) ≤ S i
  /-- while a long position is kept its stop never falls -/
  monoLong : ∀ i, f < i → i + 1 < n → T (i - 1) = true → T i = true → T (i + 1) = true → S i ≤ S (i + 1)
  /-- while a short position is kept its stop never rises -/
  monoShort : ∀ i, f < i → i + 1 < n → T (i - 1) = false → T i = false → T (i + 1) = false → S (i + 1) ≤ S i
  /-- a long position is reversed: the value is the highest high since the bar `j` in which it was opened
  (the first position counts from bar `f + 1` on) -/
  turnShort : ∀ i, f < i → i < n → T (i - 1) = true → T i = false → ∃ j, f < j ∧ j ≤ max (i - 1) (f + 1) ∧
    (j = f + 1 ∨ T (j - 1) = false) ∧ (∀ r, j ≤ r → r < i → T r = true) ∧
    (∀ r, j ≤ r → r ≤ max (i - 1) (f + 1) → H r ≤ S i) ∧ ∃ r, j ≤ r ∧ r ≤ max (i - 1) (f + 1) ∧ S i = H r
  /-- a short position is reversed: the lowest low since it was opened -/
  turnLong : ∀ i, f < i → i < n → T (i - 1) = false → T i = true → ∃ j, f < j ∧ j ≤ max (i - 1) (f + 1) ∧
    (j = f + 1 ∨ T (j - 1) = true) ∧ (∀ r, j ≤ r → r < i → T r = false) ∧
    (∀ r, j ≤ r → r ≤ max (i - 1) (f + 1) → S i ≤ L r) ∧ ∃ r, j ≤ r ∧ r ≤ max (i - 1) (f + 1) ∧ S i = L r
  /-- each value is in the range of the prices seen so far -/
  range : ∀ i, f < i → i < n → ∀ lo hi, (∀ j, f ≤ j → j ≤ i → lo ≤ L j ∧ H j ≤ hi) → lo ≤ S i ∧ S i ≤ hi

theorem isStop {H L : ℕ → K} {f : ℕ} (n : ℕ) {AF AM : Bool → K} (hb : ∀ b, AF b ≤ AM b) (h0 : ∀ b, 0 ≤ AF b) (h1 : ∀ b, AM b ≤ 1)
    (hv : ∀ i, f ≤ i → L i ≤ H i) :
    Spec.IsStop H L f n (fun i => Spec.stopShown H L i (Spec.stopAt (Spec.stopAuto AF H L f) AF AM H L f (i - (f + 1))))
      (fun r => (Spec.stopAt (Spec.stopAuto AF H L f) AF AM H L f (r - f)).long) := by
  have turn := stop_turn AF AM H L f
  have side := stop_side AF AM H L f hv
  have mono := stop_mono AF AM H L f hv hb h0
  have ext := stop_ext AF AM H L f
  have rng := fun (P : K → Prop) (hP : Convex1 P) => stop_range AF AM H L f hP hb h0 h1
  set St := Spec.stopAt (Spec.stopAuto AF H L f) AF AM H L f with hSt
  have idx : ∀ i, f < i → ∃ k, i = f + 1 + k := fun i hi => ⟨i - (f + 1), by omega⟩
  have e1 : ∀ k, f + 1 + k - (f + 1) = k := fun k => by omega
  have e2 : ∀ k, f + 1 + k - 1 - f = k := fun k => by omega
  have e3 : ∀ k, f + 1 + k - f = k + 1 := fun k => by omega
  have e4 : ∀ k, max (f + 1 + k - 1) (f + 1) = f + 1 + (k - 1) := fun k => by omega
  refine ⟨?_, ?_, ?_, ?_, ?_, ?_, ?_, ?_⟩
  · simp only [Nat.sub_self]
    rw [hSt]
    unfold Spec.stopAt Spec.stopAuto
    split
    · rename_i c; simp [c]
    · rename_i c; simp [c]
  · intro i hi hn t0 t1
    obtain ⟨k, rfl⟩ := idx i hi
    simp only [e1, e2, e3] at t0 t1 ⊢
    have hk : ¬ Spec.Hit H L (f + 1 + k) (St k) := fun hc => by rw [turn, if_pos hc, t0] at t1; simp at t1
    unfold Spec.stopShown
    rw [if_neg hk]
    unfold Spec.Hit at hk
    rw [if_pos t0] at hk
    refine ⟨not_le.mp hk, ?_⟩
    rw [show f + 1 + k - 1 = f + k from by omega]
    exact ((side k).1 t0).1
  · intro i hi hn t0 t1
    obtain ⟨k, rfl⟩ := idx i hi
    simp only [e1, e2, e3] at t0 t1 ⊢
    have hk : ¬ Spec.Hit H L (f + 1 + k) (St k) := fun hc => by rw [turn, if_pos hc, t0] at t1; simp at t1
    unfold Spec.stopShown
    rw [if_neg hk]
    unfold Spec.Hit at hk
    rw [if_neg (by rw [t0]; simp)] at hk
    refine ⟨not_le.mp hk, ?_⟩
    rw [show f + 1 + k - 1 = f + k from by omega]
    exact ((side k).2 t0).1
  · intro i hi hn t0 t1 t2
    obtain ⟨k, rfl⟩ := idx i hi
    have e5 : f + 1 + k + 1 - f = k + 1 + 1 := by omega
    have e6 : f + 1 + k + 1 - (f + 1) = k + 1 := by omega
    simp only [e1, e2, e3, e5, e6] at t0 t1 t2 ⊢
    have hk : ¬ Spec.Hit H L (f + 1 + k) (St k) := fun hc => by rw [turn, if_pos hc, t0] at t1; simp at t1
    have hk2 : ¬ Spec.Hit H L (f + 1 + (k + 1)) (St (k + 1)) := fun hc => by rw [turn, if_pos hc, t1] at t2; simp at t2
    unfold Spec.stopShown
    rw [if_neg hk, Nat.add_assoc (f + 1), if_neg hk2]
    exact (mono k hk).1 t0
  · intro i hi hn t0 t1 t2
    obtain ⟨k, rfl⟩ := idx i hi
    have e5 : f + 1 + k + 1 - f = k + 1 + 1 := by omega
    have e6 : f + 1 + k + 1 - (f + 1) = k + 1 := by omega
    simp only [e1, e2, e3, e5, e6] at t0 t1 t2 ⊢
    have hk : ¬ Spec.Hit H L (f + 1 + k) (St k) := fun hc => by rw [turn, if_pos hc, t0] at t1; simp at t1
    have hk2 : ¬ Spec.Hit H L (f + 1 + (k + 1)) (St (k + 1)) := fun hc => by rw [turn, if_pos hc, t1] at t2; simp at t2
    unfold Spec.stopShown
    rw [if_neg hk, Nat.add_assoc (f + 1), if_neg hk2]
    exact (mono k hk).2 t0
  · intro i hi hn t0 t1
    obtain ⟨k, rfl⟩ := idx i hi
    simp only [e1, e2, e3] at t0 t1 ⊢
    have hk : Spec.Hit H L (f + 1 + k) (St k) := by
      by_contra hc; rw [turn, if_neg hc, t0] at t1; simp at t1
    unfold Spec.stopShown
    rw [if_pos hk, e4]
    obtain ⟨j, j1, j2, j3, j4, j5, j6⟩ := (ext k).1 t0
    exact ⟨j, by omega, j2, j3, j4, j5, j6⟩
  · intro i hi hn t0 t1
    obtain ⟨k, rfl⟩ := idx i hi
    simp only [e1, e2, e3] at t0 t1 ⊢
    have hk : Spec.Hit H L (f + 1 + k) (St k) := by
      by_contra hc; rw [turn, if_neg hc, t0] at t1; simp at t1
    unfold Spec.stopShown
    rw [if_pos hk, e4]
    obtain ⟨j, j1, j2, j3, j4, j5, j6⟩ := (ext k).2 t0
    exact ⟨j, by omega, j2, j3, j4, j5, j6⟩
  · intro i hi hn lo hi' hr
    obtain ⟨k, rfl⟩ := idx i hi
    simp only [e1]
    have hP : Convex1 fun v : K => lo ≤ v ∧ v ≤ hi' := fun a b t ha hb q0 q1 => by
      constructor <;> nlinarith [ha.1, ha.2, hb.1, hb.2]
    obtain ⟨p1, p2⟩ := rng _ hP k fun j q1 q2 => by
      obtain ⟨c1, c2⟩ := hr j q1 (by omega)
      have := hv j q1
      exact ⟨⟨by linarith, c2⟩, ⟨c1, by linarith⟩⟩
    unfold Spec.stopShown
    split
    · exact p2
    · exact p1

/-- **C38** For `0 ≤ af ≤ afmax ≤ 1`, lows not above highs and two or more bars of data, the values of `sar` are stops in the
sense of `Spec.IsStop`. -/
theorem C38_sar (hh : Holds h n m H) (hl : Holds l n m' L) (hn : max m m' + 1 ≤ n) {af am : K} (h0 : 0 ≤ af) (hb : af ≤ am)
    (h1 : am ≤ 1) (hv : ∀ i, max m m' - 1 ≤ i → L i ≤ H i) :
    Gives (Ind.sar (fin af) (fin am) h l) fun r => ∃ S T, Shows r n (max m m' + 1) S ∧ Spec.IsStop H L (max m m' - 1) n S T := by
  have hp := hh.pos
  obtain ⟨r, hr, hs⟩ := C38_values hh hl hn af am
  have := isStop n (f := max m m' - 1) (AF := fun _ => af) (AM := fun _ => am) (fun _ => hb) (fun _ => h0) (fun _ => h1) hv
  rw [show max m m' - 1 + 1 = max m m' from by omega] at this
  exact ⟨r, hr, _, _, hs, this⟩

/-- **C38** The acceleration stays between `af` and `afmax` in all bars. -/
theorem C38_acceleration {af am : K} (h0 : 0 ≤ af) (hb : af ≤ am) (H L : ℕ → K) (f k : ℕ) :
    af ≤ (Spec.stopAt (Spec.stopAuto (fun _ => af) H L f) (fun _ => af) (fun _ => am) H L f k).af ∧
    (Spec.stopAt (Spec.stopAuto (fun _ => af) H L f) (fun _ => af) (fun _ => am) H L f k).af ≤ am :=
  stop_af (fun _ => af) (fun _ => am) H L f (fun _ => hb) (fun _ => h0) k

def exSarH : Line (Ext ℚ) := bars 6 fun i => [10, 12, 14, 13, 9, 8].getD i 0
def exSarL : Line (Ext ℚ) := bars 6 fun i => [8, 10, 12, 11, 7, 6].getD i 0

example : Ind.sar (fin (1/50)) (fin (1/5)) exSarH exSarL =
    .ok ⟨[.nan, .fin 8, .fin (202/25), .fin (5198/625), .fin 14, .fin (693/50)], 2⟩ := by decide +kernel

/-! ## C39 -/

/-- acceleration parameters of sarext by direction -/
def side (lg sh : K) (b : Bool) : K := if b then lg else sh

/-- The loop variables of `sarext` describe the position (the acceleration of the other direction does not matter). -/
def ExtRel (H L : ℕ → K) (q : ℕ) (e : Ind.SarExtSt (Ext K)) (s : Spec.Stop K) : Prop :=
  e.trend = s.long ∧ e.sar = fin s.stop ∧ e.ep = fin s.ext ∧ (if s.long then e.aflong else e.afshort) = fin s.af ∧
  e.hi = fin (H q) ∧ e.lo = fin (L q)

/-- value with the sign of the direction -/
def signed (b : Bool) (v : K) : K := if b then v else -v

theorem sarExtStep_spec {sv al aml as ams o : K} (H L : ℕ → K) (q i : ℕ) (e : Ind.SarExtSt (Ext K)) (s : Spec.Stop K)
    (he : ExtRel H L q e s) :
    (Ind.sarExtStep ⟨fin sv, fin al, fin aml, fin as, fin ams, fin o⟩ e (fin (H i)) (fin (L i))).1
      = fin (signed (Spec.stopNextOff o (side al as) (side aml ams) H L q i s).long (Spec.stopShownOff o H L i s)) ∧
    ExtRel H L i (Ind.sarExtStep ⟨fin sv, fin al, fin aml, fin as, fin ams, fin o⟩ e (fin (H i)) (fin (L i))).2
      (Spec.stopNextOff o (side al as) (side aml ams) H L q i s) := by
  obtain ⟨lg, st, ex, a⟩ := s
  obtain ⟨tr, sr, ep, el, es, hi, lo⟩ := e
  obtain ⟨h1, h2, h3, h4, h5, h6⟩ := he
  simp only at h1 h2 h3 h4 h5 h6
  subst h1 h2 h3 h5 h6
  unfold Ind.sarExtStep Spec.stopNextOff Spec.stopNext Spec.stopShownOff Spec.stopRev Spec.Hit ExtRel
  cases tr
  · simp only [Bool.false_eq_true, if_false] at h4
    subst h4
    simp only [Bool.false_eq_true, if_false, Ext.le_fin, decide_eq_true_eq, Ext.lt_fin]
    by_cases c : st ≤ H i
    · simp [c, Ext.fin_sub, Ext.fin_mul, Ext.fin_add, min3_fin, signed, side]
    · simp only [c, if_false]
      by_cases d : L i < ex
      · simp [d, Ext.fin_sub, Ext.fin_mul, Ext.fin_add, max3_fin, minV_fin, min_eq_right d.le, signed, side]
      · simp [d, Ext.fin_sub, Ext.fin_mul, Ext.fin_add, max3_fin, min_eq_left (not_lt.mp d), signed, side]
  · simp only [if_true] at h4
    subst h4
    simp only [if_true, Ext.le_fin, decide_eq_true_eq, Ext.lt_fin]
    by_cases c : L i ≤ st
    · simp [c, Ext.fin_sub, Ext.fin_mul, Ext.fin_add, max3_fin, signed, side]
    · simp only [c, if_false]
      by_cases d : ex < H i
      · simp [d, Ext.fin_sub, Ext.fin_mul, Ext.fin_add, min3_fin, minV_fin, max_eq_right d.le, signed, side]
      · simp [d, Ext.fin_sub, Ext.fin_mul, Ext.fin_add, min3_fin, max_eq_left (not_lt.mp d), signed, side]

theorem sarExtGo_spec {sv al aml as ams o : K} (s0 : Spec.Stop K) (H L : ℕ → K) (f n : ℕ) :
    ∀ (c k : ℕ) (e : Ind.SarExtSt (Ext K)), n - (f + 1 + k) = c →
    ExtRel H L (f + 1 + (k - 1)) e (Spec.stopAtOff o s0 (side al as) (side aml ams) H L f k) →
    Ind.sarExtGo ⟨fin sv, fin al, fin aml, fin as, fin ams, fin o⟩ e
        (tail n (f + 1 + k) fun i => ((fin (H i) : Ext K), (fin (L i) : Ext K)))
      = tail n (f + 1 + k) fun i =>
        fin (signed (Spec.stopAtOff o s0 (side al as) (side aml ams) H L f (i - f)).long
          (Spec.stopShownOff o H L i (Spec.stopAtOff o s0 (side al as) (side aml ams) H L f (i - (f + 1))))) := by
  intro c
  induction c with
  | zero => intro k e hk _; rw [tail_nil _ (by omega), tail_nil _ (by omega)]; rfl
  | succ c ih =>
    intro k e hk he
    have hlt : f + 1 + k < n := by omega
    rw [tail_cons (fun i => ((fin (H i) : Ext K), (fin (L i) : Ext K))) hlt,
      tail_cons (fun i => (fin (signed (Spec.stopAtOff o s0 (side al as) (side aml ams) H L f (i - f)).long
          (Spec.stopShownOff o H L i (Spec.stopAtOff o s0 (side al as) (side aml ams) H L f (i - (f + 1))))) : Ext K)) hlt]
    unfold Ind.sarExtGo
    obtain ⟨r1, r2⟩ := sarExtStep_spec (sv := sv) (o := o) H L (f + 1 + (k - 1)) (f + 1 + k) e _ he
    have e1 : f + 1 + k - (f + 1) = k := by omega
    have e2 : f + 1 + k - f = k + 1 := by omega
    have := ih (k + 1) _ (by omega) (by rw [Nat.add_sub_cancel]; exact r2)
    rw [e1, e2, r1]
    congr 1

/-- the position with which `sarext` starts: automatic for `startval = 0`, else long with the stop at `startval` or short with the
stop at its absolute value -/
def _root_.Spec.extStart (sv al as : K) (H L : ℕ → K) (f : ℕ) : Spec.Stop K :=
  if sv = 0 then Spec.stopAuto (side al as) H L f
  else if 0 < sv then ⟨true, sv, H (f + 1), al⟩ else ⟨false, -sv, L (f + 1), as⟩

theorem sarExtInit_spec {sv al aml as ams o : K} (H L : ℕ → K) (f : ℕ) :
    ExtRel H L (f + 1) (Ind.sarExtInit ⟨fin sv, fin al, fin aml, fin as, fin ams, fin o⟩
      (fin (H f)) (fin (L f)) (fin (H (f + 1))) (fin (L (f + 1)))) (Spec.extStart sv al as H L f) := by
  unfold Ind.sarExtInit Spec.extStart
  simp only [Ext.fin_sub, Ext.lit_def, Ext.lt_fin, Rat.cast_zero, maxV_fin, Ext.eqv_fin, decide_eq_true_eq]
  by_cases z : sv = 0
  · simp only [z, if_true]
    unfold Spec.stopAuto
    by_cases c : H (f + 1) - H f < L f - L (f + 1)
    · by_cases d : L (f + 1) < L f
      · simp [c, d, ofBool, ExtRel, side]
      · simp [c, d, ofBool, ExtRel, side]
    · simp [c, ofBool, ExtRel, side]
  · simp only [z, if_false]
    by_cases p : 0 < sv
    · simp [p, ExtRel]
    · have : sv < 0 := lt_of_le_of_ne (not_lt.mp p) z
      simp [p, ExtRel, abs_of_neg this]

/-- **C39** (values) `sarext` with all its parameters: Wilder's stop with the accelerations, the start and the offset on
reversals given, with the sign of the position after the bar. -/
theorem C39_offset_values (hh : Holds h n m H) (hl : Holds l n m' L) (hn : max m m' + 1 ≤ n) (sv al aml as ams o : K) :
    Gives (Ind.sarext ⟨fin sv, fin al, fin aml, fin as, fin ams, fin o⟩ h l) fun r => Shows r n (max m m' + 1) fun i =>
      signed (Spec.stopAtOff o (Spec.extStart sv al as H L (max m m' - 1)) (side al as) (side aml ams) H L (max m m' - 1)
          (i - (max m m' - 1))).long
        (Spec.stopShownOff o H L i (Spec.stopAtOff o (Spec.extStart sv al as H L (max m m' - 1)) (side al as) (side aml ams) H L
          (max m m' - 1) (i - max m m'))) := by
  have hp := hh.pos
  set f := max m m' - 1 with hf
  have hM : max m m' = f + 1 := by omega
  unfold Ind.sarext
  set St := Spec.stopAtOff o (Spec.extStart sv al as H L f) (side al as) (side aml ams) H L f with hSt
  have key := applySar_spec (F := Ind.sarExtize ⟨fin sv, fin al, fin aml, fin as, fin ams, fin o⟩) hh hl
    (g := fun i => if i = f then Ext.nan else fin (signed (St (i - f)).long (Spec.stopShownOff o H L i (St (i - (f + 1)))))) ?_
    (by rw [if_pos hf.symm])
  · obtain ⟨r, hr, hd⟩ := key
    refine ⟨r, hr, hd.congr rfl fun i q1 q2 => ?_⟩
    rw [if_neg (by omega), hM]
  · rw [← hf, tail_cons _ (by omega : f < n), tail_cons _ (by omega : f + 1 < n), tail_cons _ (by omega : f < n)]
    unfold Ind.sarExtize
    simp only []
    rw [if_pos trivial]
    have := sarExtGo_spec (sv := sv) (o := o) (al := al) (as := as) (aml := aml) (ams := ams) (Spec.extStart sv al as H L f) H L f n _ 0 _ rfl
      (sarExtInit_spec (o := o) (al := al) (as := as) (aml := aml) (ams := ams) H L f)
    simp only [Nat.add_zero] at this
    rw [tail_cons _ (by omega : f + 1 < n)] at this
    rw [this]
    congr 2
    refine tail_ext (by simp) fun j hj => ?_
    rw [tail_get _ _ _ _ hj, if_neg (by omega)]

theorem stopNextOff_zero (AF AM : Bool → K) (H L : ℕ → K) (q i : ℕ) (s : Spec.Stop K) :
    Spec.stopNextOff 0 AF AM H L q i s = Spec.stopNext AF AM H L q i s := by
  have : Spec.stopRev 0 s = s.ext := by unfold Spec.stopRev; split <;> simp
  unfold Spec.stopNextOff
  rw [this]
  split <;> rfl

theorem stopAtOff_zero (s0 : Spec.Stop K) (AF AM : Bool → K) (H L : ℕ → K) (f : ℕ) :
    Spec.stopAtOff 0 s0 AF AM H L f = Spec.stopAt s0 AF AM H L f := by
  funext k
  induction k with
  | zero => rfl
  | succ k ih =>
    show Spec.stopNextOff 0 AF AM H L _ _ _ = Spec.stopNext AF AM H L _ _ _
    rw [ih, stopNextOff_zero]

theorem stopShownOff_zero (H L : ℕ → K) (i : ℕ) (s : Spec.Stop K) : Spec.stopShownOff 0 H L i s = Spec.stopShown H L i s := by
  unfold Spec.stopShownOff Spec.stopShown Spec.stopRev
  split <;> [split <;> simp; rfl]

/-- **C39** (values) `sarext` without offset: Wilder's stop with the accelerations and the start given, with the sign of the
position after the bar. -/
theorem C39_values (hh : Holds h n m H) (hl : Holds l n m' L) (hn : max m m' + 1 ≤ n) (sv al aml as ams : K) :
    Gives (Ind.sarext ⟨fin sv, fin al, fin aml, fin as, fin ams, fin 0⟩ h l) fun r => Shows r n (max m m' + 1) fun i =>
      signed (Spec.stopAt (Spec.extStart sv al as H L (max m m' - 1)) (side al as) (side aml ams) H L (max m m' - 1)
          (i - (max m m' - 1))).long
        (Spec.stopShown H L i (Spec.stopAt (Spec.extStart sv al as H L (max m m' - 1)) (side al as) (side aml ams) H L
          (max m m' - 1) (i - max m m'))) := by
  have := C39_offset_values hh hl hn sv al aml as ams 0
  simpa only [stopAtOff_zero, stopShownOff_zero] using this

/-- **C39** (offset) In the bar in which a long position is closed the stop shown is the highest price of the position plus
the offset, in the bar in which a short one is closed the lowest price minus the offset: with a nonnegative offset and a
nonnegative stop never on the wrong side of the extreme. -/
theorem C39_offset_away {o : K} (ho : 0 ≤ o) (i : ℕ) (s : Spec.Stop K) (hs : 0 ≤ s.stop) (hit : Spec.Hit H L i s) :
    (s.long = true → s.ext ≤ Spec.stopShownOff o H L i s) ∧ (s.long = false → Spec.stopShownOff o H L i s ≤ s.ext) := by
  have := mul_nonneg hs ho
  unfold Spec.stopShownOff Spec.stopRev
  rw [if_pos hit]
  refine ⟨fun h => ?_, fun h => ?_⟩
  · rw [if_pos h]; linarith
  · rw [if_neg (by rw [h]; simp)]; linarith

/-- **C39** With the default start and offset and the same accelerations for both directions, on positive prices:
the absolute value of `sarext` is `sar`, and `sarext` is positive exactly while the position is long.  (`T` is the direction
which belongs to the stops `S` of `sar` in the sense of C38.) -/
theorem C39_sarext (hh : Holds h n m H) (hl : Holds l n m' L) (hn : max m m' + 1 ≤ n) {af am : K} (h0 : 0 ≤ af) (hb : af ≤ am)
    (h1 : am ≤ 1) (hv : ∀ i, max m m' - 1 ≤ i → 0 < L i ∧ L i ≤ H i) :
    ∃ S T X, (Gives (Ind.sar (fin af) (fin am) h l) fun r => Shows r n (max m m' + 1) S) ∧
      (Gives (Ind.sarext ⟨fin 0, fin af, fin am, fin af, fin am, fin 0⟩ h l) fun r => Shows r n (max m m' + 1) X) ∧
      Spec.IsStop H L (max m m' - 1) n S T ∧
      ∀ i, max m m' + 1 ≤ i + 1 → i < n → |X i| = S i ∧ (T i = true → 0 < X i) ∧ (T i = false → X i < 0) := by
  have hp := hh.pos
  have hs := C38_values hh hl hn af am
  have hx := C39_values hh hl hn 0 af am af am
  set f := max m m' - 1 with hf
  have hM : max m m' = f + 1 := by omega
  have es : ∀ a : K, side a a = fun _ => a := fun a => by funext b; unfold side; split <;> rfl
  have e0 : Spec.extStart 0 af af H L f = Spec.stopAuto (fun _ => af) H L f := by
    unfold Spec.extStart; rw [if_pos rfl, es]
  rw [e0, es, es] at hx
  have hst := isStop n (f := f) (AF := fun _ => af) (AM := fun _ => am) (fun _ => hb) (fun _ => h0) (fun _ => h1) (fun i hi => (hv i hi).2)
  rw [← hM] at hst
  refine ⟨_, _, _, hs, hx, hst, fun i q1 q2 => ?_⟩
  have hpos : 0 < Spec.stopShown H L i (Spec.stopAt (Spec.stopAuto (fun _ => af) H L f) (fun _ => af) (fun _ => am) H L f (i - max m m')) := by
    have hP : Convex1 fun v : K => 0 < v := fun a b t ha hb q0 q1 => by
      rcases q0.eq_or_lt with e | e
      · rw [← e]; simpa using ha
      · have := mul_pos e hb
        have : 0 ≤ (1 - t) * a := mul_nonneg (by linarith) ha.le
        nlinarith
    obtain ⟨p1, p2⟩ := stop_range (fun _ => af) (fun _ => am) H L f hP (fun _ => hb) (fun _ => h0) (fun _ => h1) (i - max m m')
      fun j c1 c2 => ⟨by have := hv j c1; linarith [this.1, this.2], (hv j c1).1⟩
    unfold Spec.stopShown
    split
    · exact p2
    · exact p1
  unfold signed
  refine ⟨?_, fun ht => ?_, fun ht => ?_⟩
  · split
    · exact abs_of_pos hpos
    · rw [abs_neg]; exact abs_of_pos hpos
  · rw [if_pos ht]; exact hpos
  · rw [if_neg (by rw [ht]; simp)]; linarith

example : Ind.sarext ⟨fin 0, fin (1/50), fin (1/5), fin (1/50), fin (1/5), fin 0⟩ exSarH exSarL =
    .ok ⟨[.nan, .fin 8, .fin (202/25), .fin (5198/625), .fin (-14), .fin (-693/50)], 2⟩ := by decide +kernel

/-- an offset of 10 %: the long position with extreme 14 and stop 8.54… ends at 14 + 0.854… -/
example : Ind.sarext ⟨fin 0, fin (1/50), fin (1/5), fin (1/50), fin (1/5), fin (1/10)⟩ exSarH exSarL =
    .ok ⟨[.nan, .fin 8, .fin (202/25), .fin (5198/625), .fin (-1160501/78125), .fin (-28705712/1953125)], 2⟩ := by decide +kernel

end Bta
