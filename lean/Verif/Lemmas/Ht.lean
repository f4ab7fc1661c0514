import Verif.Spec.Ht
import Verif.Ind.Ht
import Verif.Lemmas.Calc
import Mathlib.Tactic.IntervalCases

/-!
# Hilbert transform: bounds of the specification, refinement of the specification by the model
-/

set_option linter.unusedSectionVars false
set_option linter.unusedVariables false

namespace Spec
variable {K : Type} [Field K] [LinearOrder K] [IsStrictOrderedRing K]

/-! ### bounds -/

theorem htLimit_ge (raw : K) {p : K} : 6 / 5 + 4 / 5 * p ≤ htLimit raw p := by
  have h : (6 : K) ≤ min (max (max (min raw (3 / 2 * p)) (67 / 100 * p)) 6) 50 := le_min (le_max_right _ _) (by norm_num)
  unfold htLimit
  linarith

theorem htLimit_le (raw : K) {p : K} : htLimit raw p ≤ 10 + 4 / 5 * p := by
  have h : min (max (max (min raw (3 / 2 * p)) (67 / 100 * p)) 6) 50 ≤ (50 : K) := min_le_right _ _
  unfold htLimit
  linarith

theorem htLimit_le' (raw : K) {p B : K} (hp : 0 ≤ p) (h1 : p ≤ B) (h2 : 6 ≤ B * (3 / 2)) :
    htLimit raw p ≤ 11 / 10 * B := by
  have h : min (max (max (min raw (3 / 2 * p)) (67 / 100 * p)) 6) 50 ≤ 3 / 2 * B := by
    refine le_trans (min_le_left _ _) (max_le (max_le (le_trans (min_le_right _ _) (by linarith)) (by linarith)) (by linarith))
  unfold htLimit
  linarith

/-- the invariant of the loop -/
structure HtInv (k : ℕ) (s : Ht K) : Prop where
  p0 : 0 ≤ s.period
  p50 : s.period ≤ 50
  pg : s.period ≤ 6 * (11 / 10) ^ k
  pl : 6 - 6 * (4 / 5) ^ k ≤ s.period
  s0 : 0 ≤ s.smooth
  s50 : s.smooth ≤ 50
  sg : s.smooth ≤ 6 * (11 / 10) ^ k
  sl : 6 - 13 * (4 / 5) ^ k ≤ s.smooth

theorem htInv_zero : HtInv 0 (Ht.zero : Ht K) := by
  constructor <;> (simp [Ht.zero]; try norm_num)

theorem htInv_next (T : Trig K) (f : ℕ → K) {k : ℕ} {s : Ht K} (h : HtInv k s) : HtInv (k + 1) (htNext T f s) := by
  obtain ⟨p0, p50, pg, pl, s0, s50, sg, sl⟩ := h
  have hsm : (htNext T f s).smooth = 33 / 100 * (htNext T f s).period + 67 / 100 * s.smooth := rfl
  obtain ⟨raw, hraw⟩ : ∃ raw, (htNext T f s).period = htLimit raw s.period := ⟨_, rfl⟩
  have h11 : (1 : K) ≤ (11 / 10) ^ k := one_le_pow₀ (by norm_num)
  have h08 : (0 : K) < (4 / 5) ^ k := by positivity
  have e1 := htLimit_ge raw (p := s.period)
  have e2 := htLimit_le raw (p := s.period)
  have e3 : htLimit raw s.period ≤ 6 * (11 / 10) ^ (k + 1) := by
    have := htLimit_le' raw p0 pg (by linarith)
    rw [pow_succ]; linarith
  rw [← hraw] at e1 e2 e3
  have p11 : ((11 : K) / 10) ^ (k + 1) = (11 / 10) ^ k * (11 / 10) := pow_succ _ _
  have p08 : ((4 : K) / 5) ^ (k + 1) = (4 / 5) ^ k * (4 / 5) := pow_succ _ _
  constructor
  · linarith
  · linarith
  · exact e3
  · rw [p08]; linarith
  · rw [hsm]; linarith
  · rw [hsm]; linarith
  · rw [hsm, p11]; rw [p11] at e3; linarith
  · rw [hsm, p08]; linarith

theorem htRun_inv (T : Trig K) (y : ℕ → K) (start k : ℕ) : HtInv k (htRun T y start k) := by
  induction k with
  | zero => exact htInv_zero
  | succ k ih => exact htInv_next T _ ih

theorem htRun_smooth_pos (T : Trig K) (y : ℕ → K) (start k : ℕ) (hk : 1 ≤ k) : 0 < (htRun T y start k).smooth := by
  obtain ⟨k, rfl⟩ : ∃ j, k = j + 1 := ⟨k - 1, by omega⟩
  have h := htRun_inv T y start k
  have hsm : (htRun T y start (k + 1)).smooth
    = 33 / 100 * (htRun T y start (k + 1)).period + 67 / 100 * (htRun T y start k).smooth := rfl
  obtain ⟨raw, hraw⟩ : ∃ raw, (htRun T y start (k + 1)).period = htLimit raw (htRun T y start k).period := ⟨_, rfl⟩
  have e1 := htLimit_ge raw (p := (htRun T y start k).period)
  have := h.p0
  have := h.s0
  rw [hsm]; linarith

/-- 15 bars after the start the smoothed period is at least 5.5 -/
theorem htRun_smooth_ge (T : Trig K) (y : ℕ → K) (start k : ℕ) (hk : 15 ≤ k) :
    11 / 2 ≤ (htRun T y start k).smooth := by
  have h := (htRun_inv T y start k).sl
  have h1 : ((4 : K) / 5) ^ k ≤ (4 / 5) ^ 15 := pow_le_pow_of_le_one (by norm_num) (by norm_num) hk
  have h2 : (13 : K) * (4 / 5) ^ 15 ≤ 1 / 2 := by norm_num
  linarith

/-- the dominant cycle in whole bars: at most 50, at most 31 more than the number of bars seen by the loop -/
theorem htBars_le {T : Trig K} (hT : T.Ok) (y : ℕ → K) (start k : ℕ) :
    htBars T (htRun T y start k) ≤ 50 ∧ htBars T (htRun T y start k) ≤ 31 + k := by
  have h := htRun_inv T y start k
  obtain ⟨h1, _⟩ := hT.int ((htRun T y start k).smooth + 1 / 2) (by have := h.s0; linarith)
  unfold htBars
  have h50 : T.int ((htRun T y start k).smooth + 1 / 2) ≤ 50 := by
    by_contra hc
    have : (51 : K) ≤ (T.int ((htRun T y start k).smooth + 1 / 2) : K) := by exact_mod_cast (by omega : 51 ≤ _)
    have := h.s50
    linarith
  refine ⟨h50, ?_⟩
  by_cases hk : 19 ≤ k
  · omega
  · have hk : k < 19 := by omega
    have hb : 6 * ((11 : K) / 10) ^ k + 1 / 2 < 32 + k := by
      interval_cases k <;> norm_num
    by_contra hc
    have : (((32 + k : ℕ)) : K) ≤ (T.int ((htRun T y start k).smooth + 1 / 2) : K) := by exact_mod_cast (by omega : 32 + k ≤ _)
    push_cast at this
    have := h.sg
    linarith

theorem htBars_ge {T : Trig K} (hT : T.Ok) (y : ℕ → K) (start k : ℕ) (hk : 15 ≤ k) :
    6 ≤ htBars T (htRun T y start k) := by
  have h := htRun_smooth_ge T y start k hk
  obtain ⟨_, h2⟩ := hT.int ((htRun T y start k).smooth + 1 / 2) (by linarith)
  unfold htBars
  by_contra hc
  have : (T.int ((htRun T y start k).smooth + 1 / 2) : K) ≤ 5 := by exact_mod_cast (by omega : _ ≤ 5)
  linarith

end Spec

namespace Bta
open Line Ext

section exact
variable {K : Type} [Field K] [LinearOrder K] [IsStrictOrderedRing K]

/-- the functions of the model are those of the specification on finite values; `atan` of nan is nan, `int` of nan raises -/
structure HtFns.Agrees (F : HtFns (Ext K)) (T : Spec.Trig K) : Prop where
  atan : ∀ x, F.atan (fin x) = fin (T.atan x)
  sin : ∀ x, F.sin (fin x) = fin (T.sin x)
  cos : ∀ x, F.cos (fin x) = fin (T.cos x)
  int : ∀ x, F.int (fin x) = .ok (T.int x)
  deg : F.rad2deg = fin T.deg
  atanNan : F.atan .nan = .nan
  intNan : F.int .nan = .error .valueError

/-- functions of the model made from those of the specification -/
def HtFns.ofTrig (T : Spec.Trig K) : HtFns (Ext K) where
  atan := fun x => match x with | fin a => fin (T.atan a) | _ => .nan
  sin := fun x => match x with | fin a => fin (T.sin a) | _ => .nan
  cos := fun x => match x with | fin a => fin (T.cos a) | _ => .nan
  int := fun x => match x with | fin a => .ok (T.int a) | .nan => .error .valueError | _ => .error .overflowError
  rad2deg := fin T.deg

theorem HtFns.ofTrig_agrees (T : Spec.Trig K) : (HtFns.ofTrig T).Agrees T := ⟨fun _ => rfl, fun _ => rfl, fun _ => rfl, fun _ => rfl, rfl, rfl, rfl⟩

namespace Ind

/-- the last seven values of a history, oldest first -/
def buf (f : ℕ → K) : List (Ext K) := [fin (f 6), fin (f 5), fin (f 4), fin (f 3), fin (f 2), fin (f 1), fin (f 0)]

theorem deqAppend_buf (f : ℕ → K) (v : K) : deqAppend (buf f) (fin v) = buf (Spec.push f v) := rfl

theorem htAt_buf (f : ℕ → K) : htAt (buf f) (-4) = fin (f 3) ∧ htAt (buf f) 6 = fin (f 0) := ⟨rfl, rfl⟩

theorem htHt_buf (f : ℕ → K) (adj : K) : htHt (buf f) (fin adj) 6 = fin (Spec.hilbert f * adj) := by
  have h6 : htAt (buf f) 6 = fin (f 0) := rfl
  have h4 : htAt (buf f) (6 - 2) = fin (f 2) := rfl
  have h2 : htAt (buf f) (6 - 4) = fin (f 4) := rfl
  have h0 : htAt (buf f) (6 - 6) = fin (f 6) := rfl
  unfold htHt Spec.hilbert
  rw [h6, h4, h2, h0]
  simp

/-- model state of a state of the specification -/
def emb (s : Spec.Ht K) : HtSt (Ext K) :=
  ⟨buf s.det, buf s.i1, buf s.q1, fin s.i2, fin s.q2, fin s.re, fin s.im, fin s.period, fin s.smooth⟩

theorem emb_zero : (HtSt.init : HtSt (Ext K)) = emb Spec.Ht.zero := by
  simp [HtSt.init, emb, Spec.Ht.zero, buf, List.replicate]

theorem truthy_fin (x : K) : truthy (fin x : Ext K) = decide (x ≠ 0) := by
  simp [truthy]

theorem htPeriod_fin {F : HtFns (Ext K)} {T : Spec.Trig K} (hF : F.Agrees T) (hT : T.Ok) (re im p : K) :
    htPeriod F (fin re) (fin im) (fin p) = fin (Spec.htLimit (Spec.htRaw T re im p) p) := by
  have key : (if truthy (fin re : Ext K) && truthy (fin im : Ext K) then
      lit 360 / (F.rad2deg * F.atan (fin im / fin re)) else fin p : Ext K) = fin (Spec.htRaw T re im p) := by
    unfold Spec.htRaw
    by_cases h : re ≠ 0 ∧ im ≠ 0
    · rw [if_pos h, if_pos (by simp [truthy_fin, h.1, h.2]), hF.deg, fin_div _ h.1, hF.atan, fin_mul, lit_def,
        fin_div _ (mul_ne_zero hT.deg.ne' (hT.atan _ (div_ne_zero h.2 h.1)))]
      simp
    · rw [if_neg h, if_neg (by simp only [truthy_fin]; simpa using h)]
  unfold htPeriod Spec.htLimit
  simp only []
  rw [key]
  simp only [lit_def, fin_mul, minV_fin, maxV_fin, fin_add]
  norm_num
  rw [mul_comm p, mul_comm p]

/-- prices as the loop sees them -/
structure Sees (price : List (Ext K)) (L : ℕ) (y : ℕ → K) : Prop where
  len : price.length = L
  val : ∀ j, j < L → price[j]? = some (fin (y j))

theorem Sees.at {price : List (Ext K)} {L : ℕ} {y : ℕ → K} (h : Sees price L y) {j : ℕ} (hj : j < L) :
    htAt price (j : Int) = fin (y j) := by
  unfold htAt pyGet
  rw [if_pos (by omega), Int.toNat_natCast, h.val j hj]
  rfl

theorem htHt_price {price : List (Ext K)} {L : ℕ} {y : ℕ → K} (h : Sees price L y) {i : ℕ} (hi : i < L) (h6 : 6 ≤ i)
    (adj : K) : htHt price (fin adj) (i : Int) = fin (Spec.hilbert (fun b => y (i - b)) * adj) := by
  have e2 : ((i : Int) - 2) = ((i - 2 : ℕ) : Int) := by omega
  have e4 : ((i : Int) - 4) = ((i - 4 : ℕ) : Int) := by omega
  have e6 : ((i : Int) - 6) = ((i - 6 : ℕ) : Int) := by omega
  unfold htHt Spec.hilbert
  rw [e2, e4, e6, h.at hi, h.at (by omega), h.at (by omega), h.at (by omega)]
  simp

theorem htStep_emb {F : HtFns (Ext K)} {T : Spec.Trig K} (hF : F.Agrees T) (hT : T.Ok) {price : List (Ext K)} {L : ℕ}
    {y : ℕ → K} (h : Sees price L y) {i : ℕ} (hi : i < L) (h6 : 6 ≤ i) (s : Spec.Ht K) :
    htStep F price i (emb s) = emb (Spec.htNext T (fun b => y (i - b)) s) := by
  have hadj : (lit (75 / 1000) * (emb s).period + lit (54 / 100) : Ext K) = fin (75 / 1000 * s.period + 54 / 100) := by
    simp [emb]
  have l5 : (lit (1 / 5) : Ext K) = fin (1 / 5) := by simp
  have l45 : (lit (4 / 5) : Ext K) = fin (4 / 5) := by simp
  have l33 : (lit (33 / 100) : Ext K) = fin (33 / 100) := by simp
  have l67 : (lit (67 / 100) : Ext K) = fin (67 / 100) := by simp
  unfold htStep Spec.htNext
  simp only [hadj, htHt_price h hi h6]
  simp only [emb, deqAppend_buf, htHt_buf, (htAt_buf _).1, l5, l45, l33, l67, fin_mul, fin_add, fin_sub, htPeriod_fin hF hT]
  rfl

theorem htGo_length {V σ : Type} (step : Nat → σ → σ) (out : σ → V) : ∀ k i s, (htGo step out k i s).length = k := by
  intro k
  induction k with
  | zero => intro i s; rfl
  | succ k ih => intro i s; simp [htGo, ih]

theorem htGo_get {V σ : Type} {step : Nat → σ → σ} {out : σ → V} {st : ℕ → σ} {start L : ℕ}
    (hst : ∀ k, start + k < L → step (start + k) (st k) = st (k + 1)) :
    ∀ k q j, start + q + k ≤ L → j < k → (htGo step out k (start + q) (st q))[j]? = some (out (st (q + j + 1))) := by
  intro k
  induction k with
  | zero => intro q j _ h; omega
  | succ k ih =>
    intro q j h1 h2
    unfold htGo
    rw [hst q (by omega)]
    cases j with
    | zero => simp
    | succ j =>
      simp only [List.getElem?_cons_succ]
      rw [show start + q + 1 = start + (q + 1) from by omega, ih (q + 1) j (by omega) (by omega)]
      congr 3
      omega

/-- the buffer written by a loop which goes through the states `st` -/
theorem htBuf_tail {V σ : Type} [PyFloat V] {step : Nat → σ → σ} {out : σ → V} {st : ℕ → σ} {start n o : ℕ} 
    (hst : ∀ k, start + k < n - o → step (start + k) (st k) = st (k + 1)) :
    htBuf start (n - o) step out (st 0)
      = tail n o (fun i => if i - o < start then lit 0 else out (st (i - o + 1 - start))) := by
  apply tail_ext
  · unfold htBuf
    rw [List.length_append, List.length_replicate, htGo_length]
    omega
  · intro j hj
    unfold htBuf
    rw [show j + o - o = j from by omega]
    by_cases h : j < start
    · rw [if_pos h, List.getElem?_append_left (by simp; omega), List.getElem?_replicate, if_pos (by omega)]
    · rw [if_neg h, List.getElem?_append_right (by simp; omega), List.length_replicate]
      have := htGo_get (out := out) hst (n - o - start) 0 (j - min start (n - o)) (by omega) (by omega)
      rw [show start + 0 = start from rfl] at this
      rw [this]
      congr 3
      omega

theorem sees_zero {n o start : ℕ} {x : ℕ → K} :
    Sees (htZero start (tail n o fun i => fin (x i))) (n - o) (fun j => if j < start then 0 else x (o + j)) := by
  have hL : (tail n o fun i => (fin (x i) : Ext K)).length = n - o := by simp
  constructor
  · simp only [htZero, pyFill, pyStart, hL]
    simp
  · intro j hj
    have h0 : pyStart (n - o) (0 : Int) = 0 := by simpa using pyStart_nat (n - o) 0
    simp only [htZero, pyFill, hL, pyStart_nat, h0, List.take_zero, List.nil_append, Nat.sub_zero, Nat.zero_max]
    by_cases h : j < start
    · rw [List.getElem?_append_left (by simp; omega), List.getElem?_replicate, if_pos (by omega)]
      simp [h]
    · rw [List.getElem?_append_right (by simp; omega), List.length_replicate, List.getElem?_drop,
        show min start (n - o) + (j - min start (n - o)) = j from by omega, tail_get _ _ _ _ hj]
      simp [h, Nat.add_comm]

/-! ### the additional parts -/

theorem htDc_emb {F : HtFns (Ext K)} {T : Spec.Trig K} (hF : F.Agrees T) (s : Spec.Ht K) :
    htDc F (emb s) = Spec.htBars T s := by
  unfold htDc Spec.htBars emb
  simp only [lit_def, fin_add, hF.int]
  norm_num
  rfl

theorem foldl_add_fin {α : Type} (l : List α) (f : Ext K → α → Ext K) (g : α → K)
    (h : ∀ acc, ∀ a ∈ l, f (fin acc) a = fin (acc + g a)) : ∀ acc, l.foldl f (fin acc) = fin (acc + (l.map g).sum) := by
  induction l with
  | nil => intro acc; simp
  | cons a l ih =>
    intro acc
    rw [List.foldl_cons, h acc a (by simp), ih (fun acc b hb => h acc b (by simp [hb]))]
    simp [add_assoc]

theorem list_sum_range (g : ℕ → K) (d : ℕ) : ((List.range d).map g).sum = ∑ k ∈ Finset.range d, g k := by
  induction d with
  | zero => simp
  | succ d ih => rw [List.range_succ, List.map_append, List.sum_append, ih, Finset.sum_range_succ]; simp

theorem htPart_fin {F : HtFns (Ext K)} {T : Spec.Trig K} (hF : F.Agrees T) (hT : T.Ok) {w : Ext K → Ext K} {w' : K → K}
    (hw : ∀ x, w (fin x) = fin (w' x)) {price : List (Ext K)} {L : ℕ}
    {y : ℕ → K} (h : Sees price L y) {i d : ℕ} (hi : i < L) (hd : d ≤ i + 1) :
    htPart F w price i d = fin (Spec.htComp T w' y i d) := by
  unfold htPart Spec.htComp
  rw [show (lit 0 : Ext K) = fin 0 from by simp,
    foldl_add_fin (g := fun k : ℕ => w' (k * (360 / T.deg) / d) * y (i - k)), list_sum_range, zero_add]
  intro acc k hk
  have hk : k < d := by simpa using hk
  have hdK : (d : K) ≠ 0 := by exact_mod_cast (by omega : d ≠ 0)
  rw [show (i : Int) - (k : Int) = ((i - k : ℕ) : Int) from by omega, h.at (by omega), hF.deg, lit_def, lit_def, lit_def,
    fin_div _ hT.deg.ne', fin_mul, fin_div _ (by simpa using hdK), hw, fin_mul, fin_add]
  simp

theorem htPhase_fin {F : HtFns (Ext K)} {T : Spec.Trig K} (hF : F.Agrees T) (hT : T.Ok) {smooth : K} (hs : smooth ≠ 0)
    (re im prev : K) : htPhase F (fin smooth) (fin re) (fin im) (fin prev) = fin (Spec.htPhase T smooth re im prev) := by
  have key : (if lt (lit 0) (absv (fin im) : Ext K) then F.atan (fin re / fin im) * F.rad2deg
    else if le (absv (fin im) : Ext K) (lit (1 / 100)) then
      if lt (fin re : Ext K) (lit 0) then fin prev - lit 90 else if lt (lit 0) (fin re : Ext K) then fin prev + lit 90 else fin prev
    else fin prev : Ext K) = fin (if im ≠ 0 then T.atan (re / im) * T.deg
    else if re < 0 then prev - 90 else if 0 < re then prev + 90 else prev) := by
    by_cases h : im = 0
    · subst h
      simp
      split_ifs <;> rfl
    · rw [if_pos h, fin_div _ h, hF.atan, hF.deg, fin_mul, if_pos (by simp [h])]
  unfold htPhase Spec.htPhase
  simp only []
  rw [key]
  generalize (if im ≠ 0 then T.atan (re / im) * T.deg
    else if re < 0 then prev - 90 else if 0 < re then prev + 90 else prev) = b
  simp only [lit_def, fin_add, fin_div _ hs, lt_fin, decide_eq_true_eq]
  norm_num
  by_cases h : im < 0
  · simp only [h, if_true, lt_fin, decide_eq_true_eq, fin_sub]
    split_ifs <;> rfl
  · simp only [h, if_false, add_zero, lt_fin, decide_eq_true_eq, fin_sub]
    split_ifs <;> rfl

theorem htIt0_fin {n o i d : ℕ} {x : ℕ → K} (hi : i < n - o) (hd : d ≤ i + 1) :
    htIt0 (tail n o fun j => (fin (x j) : Ext K)) i d = fin (Spec.htMean (fun j => x (o + j)) d i) := by
  have hs : pySlice (tail n o fun j => (fin (x j) : Ext K)) ((i : Int) - ((d : Int) - 1)) ((i : Int) + 1)
      = wnd (fun j => fin (x j)) d (i + o) := by
    rw [← window_tail _ hi hd]
    unfold pySlice window
    rw [show (i : Int) - ((d : Int) - 1) = ((i + 1 - d : ℕ) : Int) from by omega,
      show (i : Int) + 1 = ((i + 1 : ℕ) : Int) from by omega, pyStart_nat, pyStart_nat, tail_length,
      Nat.min_eq_left (by omega), Nat.min_eq_left (by omega)]
  unfold htIt0 Spec.htMean
  simp only []
  rw [hs, wnd_fin, sumV_fin, wnd_sum x (by omega)]
  have he : Spec.winSum x d (i + o) = Spec.winSum (fun j => x (o + j)) d i := by
    unfold Spec.winSum
    apply Finset.sum_congr rfl
    intro k hk
    have := Finset.mem_range.mp hk
    rw [show i + o - k = o + (i - k) from by omega]
  rw [he]
  by_cases h : d = 0
  · subst h
    simp [Spec.winSum]
  · rw [if_pos (by omega), if_neg h, Ext.fin_div_lit _ (by exact_mod_cast h)]
    simp [Spec.winMean]

/-- state of the trend line after `k` bars -/
def tlEmb (T : Spec.Trig K) (y x : ℕ → K) (start k : ℕ) : TlSt (Ext K) :=
  ⟨emb (Spec.htRun T y start k), fin (Spec.htItRun T y x start k), fin (Spec.htItRun T y x start (k - 1)),
    fin (Spec.htItRun T y x start (k - 2)), fin (Spec.htTlRun T y x start k)⟩

theorem tlEmb_zero (T : Spec.Trig K) (y x : ℕ → K) (start : ℕ) : (TlSt.init : TlSt (Ext K)) = tlEmb T y x start 0 := by
  simp [TlSt.init, tlEmb, Spec.htItRun, Spec.htTlRun, emb_zero, Spec.htRun]

theorem tlNext_emb {F : HtFns (Ext K)} {T : Spec.Trig K} (hF : F.Agrees T) (hT : T.Ok) {n o start k : ℕ} {x : ℕ → K}
    (y : ℕ → K) (hs : 31 ≤ start) (hk : start + k < n - o) :
    tlNext F (tail n o fun j => fin (x j)) (start + k) (emb (Spec.htRun T y start (k + 1)))
      (tlEmb T y (fun j => x (o + j)) start k) = tlEmb T y (fun j => x (o + j)) start (k + 1) := by
  have hb := (Spec.htBars_le hT y start (k + 1)).2
  unfold tlNext
  simp only []
  rw [htDc_emb hF, htIt0_fin hk (by omega)]
  unfold tlEmb Spec.htTlRun
  have e : Spec.htMean (fun j => x (o + j)) (Spec.htBars T (Spec.htRun T y start (k + 1))) (start + k)
      = Spec.htItRun T y (fun j => x (o + j)) start (k + 1) := rfl
  rw [e, show k + 1 - 1 = k from rfl, show k + 1 - 2 = k - 1 from by omega, show k + 1 - 3 = k - 2 from by omega]
  simp only [lit_def, fin_mul, fin_add]
  rw [fin_div _ (by norm_num)]
  norm_num

/-- phase -/
theorem htPhStep_emb {F : HtFns (Ext K)} {T : Spec.Trig K} (hF : F.Agrees T) (hT : T.Ok) {price : List (Ext K)} {L : ℕ}
    {y : ℕ → K} (h : Sees price L y) {start k : ℕ} (hs : 31 ≤ start) (hk : start + k < L) :
    htPhStep F price (start + k) (emb (Spec.htRun T y start k), fin (Spec.htPhRun T y start k))
      = (emb (Spec.htRun T y start (k + 1)), fin (Spec.htPhRun T y start (k + 1))) := by
  have hb := (Spec.htBars_le hT y start (k + 1)).2
  have hp := Spec.htRun_smooth_pos T y start (k + 1) (by omega)
  have e : htStep F price (start + k) (emb (Spec.htRun T y start k)) = emb (Spec.htRun T y start (k + 1)) :=
    htStep_emb hF hT h hk (by omega) _
  unfold htPhStep
  simp only []
  rw [e, htDc_emb hF, htPart_fin hF hT hF.sin h hk (by omega), htPart_fin hF hT hF.cos h hk (by omega)]
  show (_, htPhase F (fin (Spec.htRun T y start (k + 1)).smooth) _ _ _) = _
  rw [htPhase_fin hF hT hp.ne']
  rfl

theorem htSin_fin {F : HtFns (Ext K)} {T : Spec.Trig K} (hF : F.Agrees T) (hT : T.Ok) (p : K) :
    htSin F (fin p) = fin (T.sin (p * (1 / T.deg))) := by
  unfold htSin
  rw [hF.deg, lit_def, fin_div _ hT.deg.ne', fin_mul, hF.sin]
  simp

theorem htLead_fin {F : HtFns (Ext K)} {T : Spec.Trig K} (hF : F.Agrees T) (hT : T.Ok) (p : K) :
    htLead F (fin p) = fin (T.sin ((p + 45) * (1 / T.deg))) := by
  unfold htLead
  rw [hF.deg, lit_def, lit_def, fin_div _ hT.deg.ne', fin_add, fin_mul, hF.sin]
  norm_num

open Classical in
/-- trend after `k` bars: 1 if trending, else 0 (0 at the beginning) -/
noncomputable def _root_.Spec.htTrendRun (T : Spec.Trig K) (y x : ℕ → K) (start : ℕ) : ℕ → ℕ
  | 0 => 0
  | k + 1 => if Spec.htTrending T y x start k then 1 else 0

/-- state of the trend mode after `k` bars -/
noncomputable def tmEmb (T : Spec.Trig K) (y x : ℕ → K) (start k : ℕ) : TmSt (Ext K) :=
  ⟨tlEmb T y x start k, fin (Spec.htPhRun T y start k), fin (Spec.htSinRun T y start k), fin (Spec.htLeadRun T y start k),
    Spec.htDays T y start k, Spec.htTrendRun T y x start k⟩

theorem tmEmb_zero (T : Spec.Trig K) (y x : ℕ → K) (start : ℕ) : (TmSt.init : TmSt (Ext K)) = tmEmb T y x start 0 := by
  simp [TmSt.init, tmEmb, tlEmb_zero T y x start, Spec.htPhRun, Spec.htSinRun, Spec.htLeadRun, Spec.htDays,
    Spec.htTrendRun]

theorem trend_if {A B C P R : Prop} [Decidable A] [Decidable B] [Decidable C] [Decidable P] [Decidable R]
    (h : R ↔ A ∨ (¬ C ∧ ¬ B ∧ ¬ P)) :
    (if A then 1 else if P then 0 else if B then 0 else if C then 0 else 1 : ℕ) = if R then 1 else 0 := by
  by_cases hA : A <;> by_cases hB : B <;> by_cases hC : C <;> by_cases hP : P <;> simp [h, hA, hB, hC, hP]

theorem trend_if0 {B C P R : Prop} [Decidable B] [Decidable C] [Decidable P] [Decidable R]
    (h : R ↔ (¬ C ∧ ¬ B ∧ ¬ P)) :
    (if P then 0 else if B then 0 else if C then 0 else 1 : ℕ) = if R then 1 else 0 := by
  by_cases hB : B <;> by_cases hC : C <;> by_cases hP : P <;> simp [h, hB, hC, hP]

theorem tmTrend_fin {smooth ph ph1 sine lead sine1 lead1 price line : K} (hs : smooth ≠ 0) {days : ℕ} {C : Prop} [Decidable C]
    (hC : C ↔ (lead < sine ∧ sine1 ≤ lead1) ∨ (sine < lead ∧ lead1 ≤ sine1)) {D : ℕ}
    (hD : D = (if C then 0 else days) + 1) {R : Prop} [Decidable R]
    (hR : R ↔ ((line ≠ 0 ∧ 15 / 1000 ≤ |price / line - 1|) ∨ (¬ C ∧ ¬ (D : K) < 1 / 2 * smooth ∧
      ¬ (67 / 100 * (360 / smooth) < ph - ph1 ∧ ph - ph1 < 3 / 2 * (360 / smooth))))) :
    tmTrend (fin smooth : Ext K) (fin ph) (fin ph1) (fin sine) (fin lead) (fin sine1) (fin lead1) (fin price) (fin line) days
      = (D, if R then 1 else 0) := by
  have hc : ((lt (fin lead : Ext K) (fin sine) && le (fin sine1 : Ext K) (fin lead1)) ||
      (lt (fin sine : Ext K) (fin lead) && le (fin lead1 : Ext K) (fin sine1))) = decide C := by
    rw [Bool.eq_iff_iff]
    simp [hC]
  have hDd : (if decide C = true then 0 else days) + 1 = D := by simp [hD]
  have h1 : lt (lit (D : ℚ) : Ext K) (lit (1 / 2) * fin smooth) = decide ((D : K) < 1 / 2 * smooth) := by simp
  have h2 : (lt (lit (67 / 100) * (lit 360 / fin smooth) : Ext K) (fin ph - fin ph1)
      && lt (fin ph - fin ph1 : Ext K) (lit (3 / 2) * (lit 360 / fin smooth)))
      = decide (67 / 100 * (360 / smooth) < ph - ph1 ∧ ph - ph1 < 3 / 2 * (360 / smooth)) := by
    simp [fin_div _ hs]
  have h3 : truthy (fin smooth : Ext K) = true := by simp [truthy_fin, hs]
  unfold tmTrend
  simp only []
  rw [hc, hDd, h1, h2, h3]
  simp only [if_true, decide_eq_true_eq, truthy_fin, ne_eq]
  congr 1
  by_cases hl : line = 0
  · have : R ↔ (¬ C ∧ ¬ (D : K) < 1 / 2 * smooth ∧
      ¬ (67 / 100 * (360 / smooth) < ph - ph1 ∧ ph - ph1 < 3 / 2 * (360 / smooth))) := by rw [hR]; simp [hl]
    rw [if_neg (by simp [hl])]
    exact trend_if0 this
  · have h4 : le (lit (15 / 1000)) (absv (fin price / fin line - lit 1) : Ext K) = decide (15 / 1000 ≤ |price / line - 1|) := by
      rw [fin_div _ hl]
      simp
    have : R ↔ (15 / 1000 ≤ |price / line - 1| ∨ (¬ C ∧ ¬ (D : K) < 1 / 2 * smooth ∧
      ¬ (67 / 100 * (360 / smooth) < ph - ph1 ∧ ph - ph1 < 3 / 2 * (360 / smooth)))) := by rw [hR]; simp [hl]
    rw [if_pos (by simp [hl]), h4]
    simp only [decide_eq_true_eq]
    exact trend_if this

theorem tmStep_emb {F : HtFns (Ext K)} {T : Spec.Trig K} (hF : F.Agrees T) (hT : T.Ok) {price : List (Ext K)} {n o : ℕ}
    {y x : ℕ → K} (h : Sees price (n - o) y) {start k : ℕ} (hs : 31 ≤ start) (hk : start + k < n - o) :
    tmStep F price (tail n o fun j => fin (x j)) (start + k) (tmEmb T y (fun j => x (o + j)) start k)
      = tmEmb T y (fun j => x (o + j)) start (k + 1) := by
  classical
  have hb := (Spec.htBars_le hT y start (k + 1)).2
  have hp := Spec.htRun_smooth_pos T y start (k + 1) (by omega)
  have e : htStep F price (start + k) (emb (Spec.htRun T y start k)) = emb (Spec.htRun T y start (k + 1)) :=
    htStep_emb hF hT h hk (by omega) _
  have e1 : (tmEmb T y (fun j => x (o + j)) start k).tl.ht = emb (Spec.htRun T y start k) := rfl
  have e2 : (tmEmb T y (fun j => x (o + j)) start k).tl = tlEmb T y (fun j => x (o + j)) start k := rfl
  have e3 : (tmEmb T y (fun j => x (o + j)) start k).ph = fin (Spec.htPhRun T y start k) := rfl
  have e4 : (tmEmb T y (fun j => x (o + j)) start k).sine = fin (Spec.htSinRun T y start k) := rfl
  have e5 : (tmEmb T y (fun j => x (o + j)) start k).lead = fin (Spec.htLeadRun T y start k) := rfl
  have e6 : (tmEmb T y (fun j => x (o + j)) start k).days = Spec.htDays T y start k := rfl
  have e7 : (emb (Spec.htRun T y start (k + 1))).smooth = fin (Spec.htRun T y start (k + 1)).smooth := rfl
  have e8 : Spec.htPhase T (Spec.htRun T y start (k + 1)).smooth
      (Spec.htComp T T.sin y (start + k) (Spec.htBars T (Spec.htRun T y start (k + 1))))
      (Spec.htComp T T.cos y (start + k) (Spec.htBars T (Spec.htRun T y start (k + 1)))) (Spec.htPhRun T y start k)
      = Spec.htPhRun T y start (k + 1) := rfl
  have e9 : (tlEmb T y (fun j => x (o + j)) start (k + 1)).out = fin (Spec.htTlRun T y (fun j => x (o + j)) start (k + 1)) := rfl
  unfold tmStep
  simp only []
  rw [e1, e, e2, e3, e4, e5, e6, e7, htDc_emb hF, htPart_fin hF hT hF.sin h hk (by omega),
    htPart_fin hF hT hF.cos h hk (by omega), htPhase_fin hF hT hp.ne', e8, htSin_fin hF hT, htLead_fin hF hT,
    tlNext_emb hF hT y hs hk, e9, show ((start + k : ℕ) : Int) = (start + k : ℕ) from rfl, h.at hk]
  have s1 : T.sin (Spec.htPhRun T y start (k + 1) * (1 / T.deg)) = Spec.htSinRun T y start (k + 1) := rfl
  have s2 : T.sin ((Spec.htPhRun T y start (k + 1) + 45) * (1 / T.deg)) = Spec.htLeadRun T y start (k + 1) := rfl
  rw [s1, s2, tmTrend_fin hp.ne' (C := Spec.htCross T y start k) (D := Spec.htDays T y start (k + 1))
    (R := Spec.htTrending T y (fun j => x (o + j)) start k) Iff.rfl rfl Iff.rfl]
  rfl

end Ind
end exact
end Bta
