import Verif.Lemmas.HtNan
import Verif.Lemmas.RelInst

/-!
# The Hilbert loops do not look ahead, on any prices `int` accepts
-/

set_option linter.unusedSectionVars false

namespace Bta
open Line Ext

namespace Ind

section generic
variable {V : Type} [PyFloat V]

/-- the prices up to bar `i` are the same -/
def SamePast (p p' : List V) (i : ℕ) : Prop := ∀ j, j ≤ i → htAt p (j : Int) = htAt p' (j : Int)

theorem htStep_past (F : HtFns V) {p p' : List V} {i : ℕ} (h : SamePast p p' i) (h6 : 6 ≤ i) (s : HtSt V) :
    htStep F p i s = htStep F p' i s := by
  have e2 : ((i : Int) - 2) = ((i - 2 : ℕ) : Int) := by omega
  have e4 : ((i : Int) - 4) = ((i - 4 : ℕ) : Int) := by omega
  have e6 : ((i : Int) - 6) = ((i - 6 : ℕ) : Int) := by omega
  apply htStep_congr
  · exact h i (le_refl _)
  · rw [e2]; exact h _ (by omega)
  · rw [e4]; exact h _ (by omega)
  · rw [e6]; exact h _ (by omega)

theorem htPart_past (F : HtFns V) (f : V → V) {p p' : List V} {i dc : ℕ} (h : SamePast p p' i) (hd : dc ≤ i + 1) :
    htPart F f p i dc = htPart F f p' i dc := by
  unfold htPart
  refine List.foldl_ext _ _ _ ?_
  intro acc j hj
  have hj := List.mem_range.mp hj
  rw [show ((i : Int) - (j : Int)) = ((i - j : ℕ) : Int) from by omega, h (i - j) (by omega)]

theorem htIt0_prefix {p p' : List V} {i dc : ℕ} (h : p <+: p') (hi : i < p.length) (hd : dc ≤ i + 1) :
    htIt0 p i dc = htIt0 p' i dc := by
  have hl := h.length_le
  obtain ⟨t, rfl⟩ := h
  have : pySlice p ((i : Int) - ((dc : Int) - 1)) ((i : Int) + 1) =
      pySlice (p ++ t) ((i : Int) - ((dc : Int) - 1)) ((i : Int) + 1) := by
    rw [show ((i : Int) - ((dc : Int) - 1)) = ((i + 1 - dc : ℕ) : Int) from by omega,
      show ((i : Int) + 1) = ((i + 1 : ℕ) : Int) from by omega]
    simp only [pySlice, pyStart_nat]
    rw [Nat.min_eq_left (by omega), Nat.min_eq_left (by omega), Nat.min_eq_left (by omega), Nat.min_eq_left (by omega)]
    rw [List.take_append_of_le_length (by omega)]
  unfold htIt0
  rw [this]

theorem htGo_inv_prefix {σ : Type} {step step' : Nat → σ → σ} (out : σ → V) {P : ℕ → σ → Prop} {n : ℕ}
    (hP : ∀ i s, P i s → i < n → step i s = step' i s ∧ P (i + 1) (step i s)) :
    ∀ k k' i s, k ≤ k' → i + k ≤ n → P i s → htGo step out k i s <+: htGo step' out k' i s := by
  intro k
  induction k with
  | zero => intro k' i s _ _ _; exact List.nil_prefix
  | succ k ih =>
    intro k' i s hk hn hs
    obtain ⟨k', rfl⟩ : ∃ j, k' = j + 1 := ⟨k' - 1, by omega⟩
    obtain ⟨h1, h2⟩ := hP i s hs (by omega)
    simp only [htGo]
    rw [← h1, List.prefix_cons_inj]
    exact ih k' (i + 1) _ (by omega) (by omega) h2

theorem htBuf_inv_prefix {σ : Type} {start n n' : ℕ} (hn : n ≤ n') {step step' : Nat → σ → σ} (out : σ → V) {s0 : σ}
    {P : ℕ → σ → Prop} (h0 : P start s0) (hP : ∀ i s, P i s → i < n → step i s = step' i s ∧ P (i + 1) (step i s)) :
    htBuf start n step out s0 <+: htBuf start n' step' out s0 := by
  unfold htBuf
  by_cases h : start ≤ n
  · rw [Nat.min_eq_left h, Nat.min_eq_left (by omega), List.prefix_append_right_inj]
    exact htGo_inv_prefix out hP _ _ _ _ (by omega) (by omega) h0
  · rw [Nat.min_eq_right (by omega), show n - start = 0 by omega]
    simp only [htGo, List.append_nil]
    refine List.IsPrefix.trans ?_ (List.prefix_append _ _)
    rw [List.prefix_replicate_iff]
    simp; omega

end generic

variable {K : Type} [Field K] [LinearOrder K] [IsStrictOrderedRing K]
variable {F : HtFns (Ext K)} {T : Spec.Trig K}

/-- the common part of the state at bar `i` of a loop which started at bar 31 -/
def At (T : Spec.Trig K) (p : List (Ext K)) (i : ℕ) (s : HtSt (Ext K)) : Prop :=
  31 ≤ i ∧ s = emb (Spec.htRun T (finPrices p) 31 (i - 31))

theorem At.zero (T : Spec.Trig K) (p : List (Ext K)) : At T p 31 HtSt.init := ⟨le_refl _, emb_zero⟩

theorem At.next (hF : F.Agrees T) (hT : T.Ok) {p : List (Ext K)} {i : ℕ} {s : HtSt (Ext K)} (h : At T p i s)
    (hp : ∀ j, j ≤ i → FinAt p j) : At T p (i + 1) (htStep F p i s) := by
  obtain ⟨h1, rfl⟩ := h
  refine ⟨by omega, ?_⟩
  rw [htStep_fin hF hT (by omega) hp, show i + 1 - 31 = (i - 31) + 1 by omega]
  simp only [Spec.htRun]
  rw [show 31 + (i - 31) = i by omega]

theorem At.bars (hF : F.Agrees T) (hT : T.Ok) {p : List (Ext K)} {i : ℕ} {s : HtSt (Ext K)} (h : At T p (i + 1) s) (hi : 31 ≤ i) :
    htDc F s ≤ i + 1 := by
  obtain ⟨h1, rfl⟩ := h
  rw [htDc_emb hF]
  have := (Spec.htBars_le hT (finPrices p) 31 (i + 1 - 31)).2
  omega

variable {p p' : List (Ext K)} {i : ℕ}

theorem htPhStep_past (hF : F.Agrees T) (hT : T.Ok) (h : SamePast p p' i) (hp : ∀ j, j ≤ i → FinAt p j)
    (s : HtSt (Ext K) × Ext K) (hs : At T p i s.1) :
    htPhStep F p i s = htPhStep F p' i s ∧ At T p (i + 1) (htPhStep F p i s).1 := by
  have h31 := hs.1
  have hn := hs.next hF hT hp
  have hd := hn.bars hF hT h31
  refine ⟨?_, hn⟩
  unfold htPhStep
  simp only [← htStep_past F h (by omega : 6 ≤ i)]
  rw [htPart_past F _ h hd, htPart_past F _ h hd]

theorem tlNext_past (hF : F.Agrees T) (hT : T.Ok) (h : SamePast p p' i) (hp : ∀ j, j ≤ i → FinAt p j)
    {q q' : List (Ext K)} (hq : q <+: q') (hi : i < q.length) (s : TlSt (Ext K)) (hs : At T p i s.ht) :
    tlNext F q i (htStep F p i s.ht) s = tlNext F q' i (htStep F p' i s.ht) s ∧
      At T p (i + 1) (tlNext F q i (htStep F p i s.ht) s).ht := by
  have h31 := hs.1
  have hn := hs.next hF hT hp
  have hd := hn.bars hF hT h31
  refine ⟨?_, hn⟩
  rw [← htStep_past F h (by omega : 6 ≤ i)]
  unfold tlNext
  rw [htIt0_prefix hq hi hd]

theorem tmStep_past (hF : F.Agrees T) (hT : T.Ok) (h : SamePast p p' i) (hp : ∀ j, j ≤ i → FinAt p j)
    {q q' : List (Ext K)} (hq : q <+: q') (hi : i < q.length) (s : TmSt (Ext K)) (hs : At T p i s.tl.ht) :
    tmStep F p q i s = tmStep F p' q' i s ∧ At T p (i + 1) (tmStep F p q i s).tl.ht := by
  have h31 := hs.1
  have hn := hs.next hF hT hp
  have hd := hn.bars hF hT h31
  have ht := tlNext_past hF hT h hp hq hi s.tl hs
  refine ⟨?_, hn⟩
  have hst := htStep_past F h (by omega : 6 ≤ i) s.tl.ht
  rw [hst] at hd
  have e := ht.1
  rw [hst] at e
  unfold tmStep
  simp only [hst, htPart_past F _ h hd, e, h i (le_refl _)]

end Ind

section lines
variable {K : Type} [Field K] [LinearOrder K] [IsStrictOrderedRing K]
open Ind

theorem htZero_get {V : Type} [PyFloat V] (start : ℕ) (t : List V) (j : ℕ) (hj : j < t.length) :
    (htZero start t)[j]? = if j < start then some (lit 0) else t[j]? := by
  have h0 : pyStart t.length (0 : Int) = 0 := by simpa using pyStart_nat t.length 0
  simp only [htZero, pyFill, pyStart_nat, h0, List.take_zero, List.nil_append, Nat.sub_zero, Nat.zero_max]
  split
  · rw [List.getElem?_append_left (by simp; omega), List.getElem?_replicate, if_pos (by omega)]
  · rw [List.getElem?_append_right (by simp; omega), List.length_replicate, List.getElem?_drop,
      show min start t.length + (j - min start t.length) = j from by omega]

theorem htZero_past {V : Type} [PyFloat V] {t t' : List V} (h : t <+: t') (start : ℕ) {i : ℕ} (hi : i < t.length) :
    SamePast (htZero start t) (htZero start t') i := by
  have hp := prefix_iff_get.mp h
  intro j hj
  unfold htAt pyGet
  rw [if_pos (by omega), if_pos (by omega), Int.toNat_natCast, htZero_get _ _ _ (by omega), htZero_get _ _ _ (by omega),
    hp.2 j (by omega)]

variable {F : HtFns (Ext K)} {T : Spec.Trig K} {a a' : Line (Ext K)} {n n' : ℕ}

/-- the prices the loop is given -/
def htTail (a : Line (Ext K)) : List (Ext K) := pyFrom (htSmooth a).series ((htSmooth a).minperiod - 1)

theorem htCheck_fin (hF : F.Agrees T) (hT : T.Ok) (h : ∀ j, 31 ≤ j → j < (htTail a).length → FinAt (htTail a) j) :
    htCheck F a = .ok () := by
  unfold htCheck
  simp only
  rw [emb_zero]
  by_cases hl : 31 ≤ (htTail a).length
  · refine htInts_fin hF hT _ _ _ (by omega) ?_
    intro j hj
    have hj : j < (htTail a).length := by unfold htTail at hl ⊢; omega
    unfold FinAt
    rw [show htZero 31 (pyFrom (htSmooth a).series ((htSmooth a).minperiod - 1)) = htZero 31 (htTail a) from rfl,
      htZero_get _ _ _ hj]
    split
    · exact ⟨_, rfl⟩
    · exact h j (by omega) hj
  · rw [show (pyFrom (htSmooth a).series ((htSmooth a).minperiod - 1)).length - 31 = 0 by unfold htTail at hl; omega]
    rfl

theorem htCheck_nf (hF : F.Agrees T) (hT : T.Ok) (h : ∃ j, 31 ≤ j ∧ j < (htTail a).length ∧ ¬ FinAt (htTail a) j) :
    htCheck F a = .error .valueError := by
  obtain ⟨j, h1, h2, h3⟩ := h
  unfold htCheck
  simp only
  rw [emb_zero]
  refine htInts_nf hF hT _ _ _ (by omega) ?_ ⟨j, by unfold htTail at h2; omega, ?_⟩
  · intro i hi
    unfold FinAt
    rw [show htZero 31 (pyFrom (htSmooth a).series ((htSmooth a).minperiod - 1)) = htZero 31 (htTail a) from rfl,
      htZero_get _ _ _ (by omega), if_pos hi]
    exact ⟨_, rfl⟩
  · intro hc
    unfold FinAt at hc
    rw [show htZero 31 (pyFrom (htSmooth a).series ((htSmooth a).minperiod - 1)) = htZero 31 (htTail a) from rfl,
      htZero_get _ _ _ h2, if_neg (by omega)] at hc
    exact h3 hc

theorem htCheck_ok (hF : F.Agrees T) (hT : T.Ok) (h : htCheck F a = .ok ()) {j : ℕ} (hj : j < (htTail a).length) :
    FinAt (htZero 31 (htTail a)) j := by
  by_contra hc
  have : ¬ j < 31 := by
    intro hlt
    unfold FinAt at hc
    rw [htZero_get _ _ _ hj, if_pos hlt] at hc
    exact hc ⟨_, rfl⟩
  rw [htCheck_nf hF hT ⟨j, by omega, hj, fun hf => hc (by
    unfold FinAt; rw [htZero_get _ _ _ hj, if_neg this]; exact hf)⟩] at h
  cases h

theorem htSmooth_ext2 (h : Ext2 n n' a a') : Ext2 n n' (htSmooth a) (htSmooth a') :=
  Ext2.period (LRel.ht4 (R := causalRel (Ext K) n n') h) 3

theorem htTail_prefix (h : Ext2 n n' a a') : htTail a <+: htTail a' := by
  have := htSmooth_ext2 h
  unfold htTail
  rw [← this.pref.mp]
  exact pyFrom_prefix this.pref.ser this.pref.pos

theorem htCheck_shorter (hF : F.Agrees T) (hT : T.Ok) (h : Ext2 n n' a a') (hc : htCheck F a' = .ok ()) : htCheck F a = .ok () := by
  have hp := htTail_prefix h
  refine htCheck_fin hF hT fun j h1 h2 => ?_
  have := htCheck_ok hF hT hc (j := j) (lt_of_lt_of_le h2 hp.length_le)
  unfold FinAt at this ⊢
  rw [htZero_get _ _ _ (lt_of_lt_of_le h2 hp.length_le), if_neg (by omega)] at this
  rw [(prefix_iff_get.mp hp).2 j h2]
  exact this

theorem ext2_apply {V : Type} [PyFloat V] {x x' : Line V} (h : Ext2 n n' x x') {g : List V → List V} (hg : ∀ xs, (g xs).length = xs.length)
    (hp : g (pyFrom x.series (x.minperiod - 1)) <+: g (pyFrom x'.series (x'.minperiod - 1))) :
    Ext2 n n' (apply g nan x) (apply g nan x') := by
  have h1 := h.pref.pos
  refine ⟨?_, by rw [apply_length hg, h.len], by rw [apply_length hg, h.len']⟩
  unfold apply
  rw [← h.pref.mp] at hp
  simp only [← h.pref.mp]
  exact pref_clone h1 (setFrom_prefix h.pref.ser.length_le h1 hp (by rw [hg, pyFrom_length]))

theorem ext2_apply2 {V : Type} [PyFloat V] {x x' y y' : Line V} (h : Ext2 n n' x x') (hm : y.minperiod ≤ x.minperiod) (hy : y.minperiod = y'.minperiod)
    {g : List V → List V → List V} (hg : ∀ xs ys, (g xs ys).length = xs.length)
    (hp : g (pyFrom x.series (x.minperiod - 1)) (pyFrom y.series (x.minperiod - 1)) <+:
      g (pyFrom x'.series (x.minperiod - 1)) (pyFrom y'.series (x.minperiod - 1))) :
    Ext2 n n' (apply2 g nan x y) (apply2 g nan x' y') := by
  have h1 := h.pref.pos
  have e : ∀ {m : ℕ} {z w : Line V}, z.series.length = m → (apply2 g nan z w).series.length = m := by
    intro m z w hz
    unfold apply2 stdop2
    simp only [clone]
    rw [setFrom_len, hz]
    rw [hg, pyFrom_length]
  refine ⟨?_, e h.len, e h.len'⟩
  unfold apply2 stdop2
  simp only [← h.pref.mp, ← hy, max_eq_left hm]
  exact pref_clone h1 (setFrom_prefix h.pref.ser.length_le h1 hp (by rw [hg, pyFrom_length]))

/-- the smoothed price: the value of the weighted mean at bar `i` -/
def htMean (g : ℕ → Ext K) (i : ℕ) : Ext K :=
  (((lit 4 * g i + lit 3 * g (i - 1)) + lit 2 * g (i - 2)) + g (i - 3)) / lit 10

/-- the smoothed price of any line -/
theorem htSmooth_rep {m : ℕ} {g : ℕ → Ext K} (h : RepW a n m g) : RepW (htSmooth a) n (m + 6) (htMean g) := by
  have h1 := rep_ago (s := 1) (by omega) h
  have h2 := rep_ago (s := 2) (by omega) h
  have h3 := rep_ago (s := 3) (by omega) h
  have h10 := rep_divS (rep_add (rep_add (rep_add (rep_rmulS h (lit 4)).toRepW (rep_rmulS h1.toRepW (lit 3)).toRepW).toRepW
    (rep_rmulS h2.toRepW (lit 2)).toRepW).toRepW h3.toRepW).toRepW (lit 10)
  refine ⟨h10.len, ?_, by omega, ?_⟩
  · have e := h10.mp
    have : (htSmooth a).minperiod = (((((rmulS (lit 4) a + rmulS (lit 3) (ago (-((1 : ℕ) : Int)) a)) +
      rmulS (lit 2) (ago (-((2 : ℕ) : Int)) a)) + ago (-((3 : ℕ) : Int)) a).divS (lit 10)).minperiod) + 3 := rfl
    rw [this, e]
    push_cast
    omega
  · intro i hi hn
    exact h10.val i (by omega) hn

theorem repW_any (hl : a.series.length = n) (hp : 1 ≤ a.minperiod) :
    RepW a n a.minperiod.toNat (fun i => a.series[i]?.getD nan) :=
  ⟨hl, by omega, by omega, fun i _ hi => by
    rw [List.getElem?_eq_getElem (by omega)]; rfl⟩

theorem htSmooth_mp (a : Line (Ext K)) (hp : 1 ≤ a.minperiod) : a.minperiod ≤ (htSmooth a).minperiod := by
  rw [(htSmooth_rep (repW_any rfl hp)).mp]; omega

theorem hilbert_ext2 (hF : F.Agrees T) (hT : T.Ok) (h : Ext2 n n' a a') (hc : htCheck F a' = .ok ()) (out : HtSt (Ext K) × Ext K → Ext K) :
    Ext2 n n' (apply (fun price => htBuf 31 price.length (htPhStep F (htZero 31 price)) out (HtSt.init, lit 0)) nan (htSmooth a))
      (apply (fun price => htBuf 31 price.length (htPhStep F (htZero 31 price)) out (HtSt.init, lit 0)) nan (htSmooth a')) := by
  have hp := htTail_prefix h
  refine ext2_apply (htSmooth_ext2 h) (fun _ => htBuf_length) ?_
  refine htBuf_inv_prefix hp.length_le out (P := fun i s => At T (htZero 31 (htTail a)) i s.1) (At.zero _ _) ?_
  intro i s hs hi
  exact htPhStep_past hF hT (htZero_past hp 31 hi)
    (fun j hj => htCheck_ok hF hT (htCheck_shorter hF hT h hc) (lt_of_le_of_lt hj hi)) s hs

theorem hilbert_ext2_tl (hF : F.Agrees T) (hT : T.Ok) (h : Ext2 n n' a a') (hc : htCheck F a' = .ok ()) :
    Ext2 n n' (apply2 (fun price price0 => htBuf 31 price.length (fun i s => tlNext F price0 i (htStep F (htZero 31 price) i s.ht) s)
        TlSt.out TlSt.init) nan (htSmooth a) a)
      (apply2 (fun price price0 => htBuf 31 price.length (fun i s => tlNext F price0 i (htStep F (htZero 31 price) i s.ht) s)
        TlSt.out TlSt.init) nan (htSmooth a') a') := by
  have hp := htTail_prefix h
  have hs := htSmooth_ext2 h
  have hm := hs.pref.mp
  refine ext2_apply2 hs (htSmooth_mp a h.pref.pos) h.pref.mp (fun _ _ => htBuf_length) ?_
  rw [show pyFrom (htSmooth a').series ((htSmooth a).minperiod - 1) = htTail a' from by unfold htTail; rw [hm]]
  refine htBuf_inv_prefix hp.length_le _ (P := fun i s => At T (htZero 31 (htTail a)) i s.ht) (At.zero _ _) ?_
  intro i s hs' hi
  exact tlNext_past hF hT (htZero_past hp 31 hi)
    (fun j hj => htCheck_ok hF hT (htCheck_shorter hF hT h hc) (lt_of_le_of_lt hj hi))
    (pyFrom_prefix h.pref.ser hs.pref.pos) (by
      have : i < (pyFrom (htSmooth a).series ((htSmooth a).minperiod - 1)).length := hi
      rw [pyFrom_length, hs.len] at this
      rw [pyFrom_length, h.len]; exact this) s hs'

theorem hilbert_ext2_tm (hF : F.Agrees T) (hT : T.Ok) (h : Ext2 n n' a a') (hc : htCheck F a' = .ok ()) :
    Ext2 n n' (apply2 (fun price price0 => htBuf 31 price.length (tmStep F (htZero 31 price) price0)
        (fun s : TmSt (Ext K) => (lit s.trend : Ext K)) TmSt.init) nan (htSmooth a) a)
      (apply2 (fun price price0 => htBuf 31 price.length (tmStep F (htZero 31 price) price0)
        (fun s : TmSt (Ext K) => (lit s.trend : Ext K)) TmSt.init) nan (htSmooth a') a') := by
  have hp := htTail_prefix h
  have hs := htSmooth_ext2 h
  have hm := hs.pref.mp
  refine ext2_apply2 hs (htSmooth_mp a h.pref.pos) h.pref.mp (fun _ _ => htBuf_length) ?_
  rw [show pyFrom (htSmooth a').series ((htSmooth a).minperiod - 1) = htTail a' from by unfold htTail; rw [hm]]
  refine htBuf_inv_prefix hp.length_le _ (P := fun i s => At T (htZero 31 (htTail a)) i s.tl.ht) (At.zero _ _) ?_
  intro i s hs' hi
  exact tmStep_past hF hT (htZero_past hp 31 hi)
    (fun j hj => htCheck_ok hF hT (htCheck_shorter hF hT h hc) (lt_of_le_of_lt hj hi))
    (pyFrom_prefix h.pref.ser hs.pref.pos) (by
      have : i < (pyFrom (htSmooth a).series ((htSmooth a).minperiod - 1)).length := hi
      rw [pyFrom_length, hs.len] at this
      rw [pyFrom_length, h.len]; exact this) s hs'

end lines
end Bta
