import Verif.Lemmas.Ht

/-!
# The Hilbert loop on prices which are not finite

A price which is nan or infinite makes all running values of the loop nan in the same round, so that `int` raises.
-/

set_option linter.unusedSectionVars false

namespace Bta
open Line Ext

variable {K : Type} [Field K] [LinearOrder K] [IsStrictOrderedRing K]

/-- nan or infinite -/
def NF : Ext K → Prop
  | fin _ => False
  | _ => True

theorem nf_iff {x : Ext K} : NF x ↔ ∀ v, x ≠ fin v := by
  cases x <;> simp [NF]

theorem not_nf {x : Ext K} : ¬ NF x ↔ ∃ v, x = fin v := by
  cases x <;> simp [NF]

theorem NF.add_fin {x : Ext K} (h : NF x) (c : K) : NF (x + fin c) := by
  cases x <;> first | exact h.elim | trivial
theorem NF.fin_add {x : Ext K} (h : NF x) (c : K) : NF (fin c + x) := by
  cases x <;> first | exact h.elim | trivial
theorem NF.add {x y : Ext K} (h : NF x) (g : NF y) : NF (x + y) := by
  cases x <;> cases y <;> first | exact h.elim | exact g.elim | trivial
theorem NF.sub_fin {x : Ext K} (h : NF x) (c : K) : NF (x - fin c) := by
  cases x <;> first | exact h.elim | trivial
theorem NF.fin_sub {x : Ext K} (h : NF x) (c : K) : NF (fin c - x) := by
  cases x <;> first | exact h.elim | trivial
theorem NF.sub {x y : Ext K} (h : NF x) (g : NF y) : NF (x - y) := by
  cases x <;> cases y <;> first | exact h.elim | exact g.elim | trivial
theorem NF.infSign (c : K) : NF (Ext.infSign c) := by
  unfold Ext.infSign
  split_ifs <;> trivial

theorem NF.mul_fin {x : Ext K} (h : NF x) (c : K) : NF (x * fin c) := by
  cases x with
  | fin _ => exact h.elim
  | pinf => exact NF.infSign c
  | ninf => exact NF.infSign (-c)
  | nan => trivial
theorem NF.fin_mul {x : Ext K} (h : NF x) (c : K) : NF (fin c * x) := by
  cases x with
  | fin _ => exact h.elim
  | pinf => exact NF.infSign c
  | ninf => exact NF.infSign (-c)
  | nan => trivial
theorem NF.div {x y : Ext K} (h : NF x) (g : NF y) : x / y = .nan := by
  cases x <;> cases y <;> first | exact h.elim | exact g.elim | rfl

theorem NF.truthy {x : Ext K} (h : NF x) : Ind.truthy x = true := by
  cases x with
  | fin _ => exact h.elim
  | pinf => rfl
  | ninf => rfl
  | nan => rfl

namespace Ind

theorem htHt_nf {x : List (Ext K)} {i : Int} {a b c : K} (adj : K) (h0 : NF (htAt x i)) (h2 : htAt x (i - 2) = fin a)
    (h4 : htAt x (i - 4) = fin b) (h6 : htAt x (i - 6) = fin c) : NF (htHt x (fin adj) i) := by
  unfold htHt
  rw [h2, h4, h6]
  simp only [lit_def, fin_mul]
  exact ((((h0.fin_mul _).add_fin _).sub_fin _).sub_fin _).mul_fin _

/-- a deque whose newest value is not finite -/
theorem htHt_buf_nf (f : ℕ → K) {v : Ext K} (hv : NF v) (adj : K) : NF (htHt (deqAppend (buf f) v) (fin adj) 6) :=
  htHt_nf (a := f 1) (b := f 3) (c := f 5) adj (show NF v from hv) rfl rfl rfl

/-- the period is lost -/
theorem htPeriod_nf {F : HtFns (Ext K)} {T : Spec.Trig K} (hF : F.Agrees T) {re im : Ext K} (hr : NF re) (hi : NF im) (p : K) :
    htPeriod F re im (fin p) = .nan := by
  unfold htPeriod
  simp only [hr.truthy, hi.truthy, Bool.and_self, if_true, hi.div hr, hF.atanNan, hF.deg, lit_def, Ext.fin_mul]
  rfl

/-- a round with a price which is not finite -/
theorem htStep_nf {F : HtFns (Ext K)} {T : Spec.Trig K} (hF : F.Agrees T) {price : List (Ext K)} {i : ℕ} {a b c : K}
    (h0 : NF (htAt price i)) (h2 : htAt price ((i : Int) - 2) = fin a) (h4 : htAt price ((i : Int) - 4) = fin b)
    (h6 : htAt price ((i : Int) - 6) = fin c) (s : Spec.Ht K) : (htStep F price i (emb s)).smooth = .nan := by
  have hadj : (lit (75 / 1000) * (emb s).period + lit (54 / 100) : Ext K) = fin (75 / 1000 * s.period + 54 / 100) := by
    simp [emb]
  have l5 : (lit (1 / 5) : Ext K) = fin (1 / 5) := by simp
  have l45 : (lit (4 / 5) : Ext K) = fin (4 / 5) := by simp
  have l33 : (lit (33 / 100) : Ext K) = fin (33 / 100) := by simp
  have l67 : (lit (67 / 100) : Ext K) = fin (67 / 100) := by simp
  unfold htStep
  simp only [hadj]
  set adj := 75 / 1000 * s.period + 54 / 100 with hA
  have hd := htHt_nf adj h0 h2 h4 h6
  generalize htHt price (fin adj) (i : Int) = d at hd ⊢
  simp only [emb]
  have hi10 : htAt (deqAppend (buf s.det) d) (-4) = fin (s.det 2) := rfl
  have hq10 := htHt_buf_nf s.det hd adj
  generalize htHt (deqAppend (buf s.det) d) (fin adj) 6 = q10 at hq10 ⊢
  rw [hi10]
  have hjq := htHt_buf_nf s.q1 hq10 adj
  generalize htHt (deqAppend (buf s.q1) q10) (fin adj) 6 = jq at hjq ⊢
  rw [deqAppend_buf, htHt_buf]
  simp only [l5, l45, l33, l67, Ext.fin_mul]
  have hI := ((hjq.fin_sub (s.det 2)).fin_mul (1 / 5)).add_fin (4 / 5 * s.i2)
  have hQ := ((hq10.add_fin (Spec.hilbert (Spec.push s.i1 (s.det 2)) * adj)).fin_mul (1 / 5)).add_fin (4 / 5 * s.q2)
  rw [htPeriod_nf hF
    ((((hI.mul_fin s.i2).add (hQ.mul_fin s.q2)).fin_mul (1 / 5)).add_fin (4 / 5 * s.re))
    ((((hI.mul_fin s.q2).sub (hQ.mul_fin s.i2)).fin_mul (1 / 5)).add_fin (4 / 5 * s.im))]
  rfl

/-- only these prices are read -/
theorem htStep_congr {V : Type} [PyFloat V] (F : HtFns V) {price price' : List V} {i : ℕ}
    (h0 : htAt price i = htAt price' i) (h2 : htAt price ((i : Int) - 2) = htAt price' ((i : Int) - 2))
    (h4 : htAt price ((i : Int) - 4) = htAt price' ((i : Int) - 4)) (h6 : htAt price ((i : Int) - 6) = htAt price' ((i : Int) - 6))
    (s : HtSt V) : htStep F price i s = htStep F price' i s := by
  have : ∀ adj, htHt price adj (i : Int) = htHt price' adj (i : Int) := by
    intro adj; unfold htHt; rw [h0, h2, h4, h6]
  unfold htStep
  simp only [this]

/-- the finite part of a value -/
def finPart : Ext K → K
  | fin v => v
  | _ => 0

/-- finite prices instead -/
def finPrices (price : List (Ext K)) (j : ℕ) : K := finPart ((price[j]?).getD .nan)

theorem sees_finPrices (price : List (Ext K)) :
    Sees ((List.range price.length).map fun j => fin (finPrices price j)) price.length (finPrices price) :=
  ⟨by simp, fun j hj => by simp [hj]⟩

/-- bar `j` has a finite price -/
def FinAt (price : List (Ext K)) (j : ℕ) : Prop := ∃ v, price[j]? = some (fin v)

theorem htAt_nat (price : List (Ext K)) (j : ℕ) : htAt price (j : Int) = (price[j]?).getD .nan := by
  unfold htAt pyGet
  rw [if_pos (by omega), Int.toNat_natCast]
  rfl

theorem FinAt.at {price : List (Ext K)} {j : ℕ} (h : FinAt price j) : htAt price (j : Int) = fin (finPrices price j) := by
  obtain ⟨v, hv⟩ := h
  rw [htAt_nat, finPrices, hv]
  rfl

theorem FinAt.lt {price : List (Ext K)} {j : ℕ} (h : FinAt price j) : j < price.length := by
  obtain ⟨v, hv⟩ := h
  exact (List.getElem?_eq_some_iff.mp hv).1

/-- a round of the loop, if the prices up to its bar are finite -/
theorem htStep_fin {F : HtFns (Ext K)} {T : Spec.Trig K} (hF : F.Agrees T) (hT : T.Ok) {price : List (Ext K)} {i : ℕ}
    (h6 : 6 ≤ i) (h : ∀ j, j ≤ i → FinAt price j) (s : Spec.Ht K) :
    htStep F price i (emb s) = emb (Spec.htNext T (fun b => finPrices price (i - b)) s) := by
  have hs := sees_finPrices price
  have hi := (h i (le_refl _)).lt
  rw [← htStep_emb hF hT hs hi h6]
  have e2 : ((i : Int) - 2) = ((i - 2 : ℕ) : Int) := by omega
  have e4 : ((i : Int) - 4) = ((i - 4 : ℕ) : Int) := by omega
  have e6 : ((i : Int) - 6) = ((i - 6 : ℕ) : Int) := by omega
  apply htStep_congr
  · rw [hs.at hi, (h i (le_refl _)).at]
  · rw [e2, hs.at (by omega), (h _ (by omega)).at]
  · rw [e4, hs.at (by omega), (h _ (by omega)).at]
  · rw [e6, hs.at (by omega), (h _ (by omega)).at]

theorem int_emb {F : HtFns (Ext K)} {T : Spec.Trig K} (hF : F.Agrees T) (s : Spec.Ht K) :
    F.int ((emb s).smooth + lit (1 / 2)) = .ok (Spec.htBars T s) := by
  unfold Spec.htBars emb
  simp only [lit_def, fin_add, hF.int]
  norm_num

/-- `int` does not raise on finite prices -/
theorem htInts_fin {F : HtFns (Ext K)} {T : Spec.Trig K} (hF : F.Agrees T) (hT : T.Ok) {price : List (Ext K)} :
    ∀ (k i : ℕ) (s : Spec.Ht K), 6 ≤ i → (∀ j, j < i + k → FinAt price j) → htInts F price k i (emb s) = .ok () := by
  intro k
  induction k with
  | zero => intro i s _ _; rfl
  | succ k ih =>
    intro i s h6 h
    unfold htInts
    rw [htStep_fin hF hT h6 (fun j hj => h j (by omega)), int_emb hF]
    exact ih (i + 1) _ (by omega) (fun j hj => h j (by omega))

/-- `int` raises in the first round with a price which is not finite -/
theorem htInts_nf {F : HtFns (Ext K)} {T : Spec.Trig K} (hF : F.Agrees T) (hT : T.Ok) {price : List (Ext K)} :
    ∀ (k i : ℕ) (s : Spec.Ht K), 6 ≤ i → (∀ j, j < i → FinAt price j) → (∃ j, j < i + k ∧ ¬ FinAt price j) →
      htInts F price k i (emb s) = .error .valueError := by
  intro k
  induction k with
  | zero => rintro i s _ h ⟨j, hj, hn⟩; exact absurd (h j hj) hn
  | succ k ih =>
    rintro i s h6 h ⟨j, hj, hn⟩
    unfold htInts
    by_cases hi : FinAt price i
    · have h' : ∀ j, j ≤ i → FinAt price j := fun j hj => by
        rcases Nat.lt_or_eq_of_le hj with hlt | rfl
        · exact h j hlt
        · exact hi
      rw [htStep_fin hF hT h6 h', int_emb hF]
      exact ih (i + 1) _ (by omega) (fun j hj => h' j (by omega)) ⟨j, by omega, hn⟩
    · have e2 : ((i : Int) - 2) = ((i - 2 : ℕ) : Int) := by omega
      have e4 : ((i : Int) - 4) = ((i - 4 : ℕ) : Int) := by omega
      have e6 : ((i : Int) - 6) = ((i - 6 : ℕ) : Int) := by omega
      have hnf : NF (htAt price (i : Int)) := by
        rw [htAt_nat, nf_iff]
        intro v hv
        cases hp : price[i]? with
        | none => rw [hp] at hv; cases hv
        | some w => rw [hp] at hv; exact hi ⟨v, by rw [hp]; exact congrArg some hv⟩
      rw [htStep_nf hF hnf (e2 ▸ (h _ (by omega)).at) (e4 ▸ (h _ (by omega)).at) (e6 ▸ (h _ (by omega)).at)]
      rw [show (Ext.nan + lit (1 / 2) : Ext K) = .nan from rfl, hF.intNan]

end Ind
end Bta
