import Verif.Lemmas.Ewm

/-!
# Causality: results on extended data extend the results

`Pref l l'`: same minimum period (at least 1) and the series of `l` is a prefix of that of `l'`.
No law on values is used.
-/

set_option linter.unusedSectionVars false

namespace Bta
open Line

variable {α β γ V : Type}

structure Pref (l l' : Line α) : Prop where
  pos : 1 ≤ l.minperiod
  mp : l.minperiod = l'.minperiod
  ser : l.series <+: l'.series

/-- lifted to results which may be exceptions: if the shorter data give a result, so do the longer ones -/
def PrefE (x y : Except Err (Line α)) : Prop := ∀ r, x = .ok r → ∃ r', y = .ok r' ∧ Pref r r'

/-- a kernel which maps prefixes to prefixes and keeps the length -/
structure CausalL (g : List α → List β) : Prop where
  len : ∀ xs, (g xs).length = xs.length
  pre : ∀ xs ys, xs <+: ys → g xs <+: g ys

structure CausalL2 (g : List α → List β → List γ) : Prop where
  len : ∀ xs ys, xs.length = ys.length → (g xs ys).length = xs.length
  pre : ∀ xs xs' ys ys', xs <+: xs' → ys <+: ys' → xs.length = ys.length → xs'.length = ys'.length → g xs ys <+: g xs' ys'

theorem prefix_iff_get {xs ys : List α} :
    xs <+: ys ↔ xs.length ≤ ys.length ∧ ∀ i, i < xs.length → xs[i]? = ys[i]? := by
  rw [List.prefix_iff_getElem?]
  constructor
  · intro h
    constructor
    · by_contra hc
      have h1 := h (ys.length) (by omega)
      rw [List.getElem?_eq_none (le_refl _)] at h1
      cases h1
    · intro i hi
      rw [h i hi, List.getElem?_eq_getElem hi]
  · intro ⟨_, h⟩ i hi
    rw [← h i hi, List.getElem?_eq_getElem hi]

theorem pyStart_of_pos {n : ℕ} {mp : Int} (h : 1 ≤ mp) : pyStart n (mp - 1) = min (mp - 1).toNat n := by
  unfold pyStart
  rw [if_pos (by omega)]

theorem pyFrom_prefix {xs ys : List α} (h : xs <+: ys) {mp : Int} (hm : 1 ≤ mp) :
    pyFrom xs (mp - 1) <+: pyFrom ys (mp - 1) := by
  have hl := h.length_le
  unfold pyFrom
  rw [pyStart_of_pos hm, pyStart_of_pos hm]
  rw [prefix_iff_get] at h ⊢
  refine ⟨by simp; omega, ?_⟩
  intro i hi
  rw [List.length_drop] at hi
  rw [List.getElem?_drop, List.getElem?_drop, h.2 _ (by omega)]
  congr 1; omega

theorem setFrom_prefix {n n' : ℕ} (hn : n ≤ n') {fill : α} {mp : Int} (hm : 1 ≤ mp) {r r' : List α} (hr : r <+: r')
    (hl : r.length = n - pyStart n (mp - 1)) :
    setFrom n fill (mp - 1) r <+: setFrom n' fill (mp - 1) r' := by
  unfold setFrom
  rw [pyStart_of_pos hm] at hl ⊢
  rw [pyStart_of_pos hm]
  by_cases h : n ≤ (mp - 1).toNat
  · have : r = [] := List.eq_nil_of_length_eq_zero (by omega)
    subst this
    rw [List.append_nil]
    refine List.IsPrefix.trans ?_ (List.prefix_append _ _)
    rw [prefix_iff_get]
    refine ⟨by simp; omega, ?_⟩
    intro i hi
    simp only [List.length_replicate] at hi
    simp only [List.getElem?_replicate]
    rw [if_pos (by omega), if_pos (by omega)]
  · rw [show min (mp - 1).toNat n = (mp - 1).toNat from by omega,
      show min (mp - 1).toNat n' = (mp - 1).toNat from by omega]
    exact (List.prefix_append_right_inj _).mpr hr

theorem pyFrom_length {xs : List α} {i : Int} : (pyFrom xs i).length = xs.length - pyStart xs.length i := by
  simp [pyFrom]

theorem setFrom_len {n : ℕ} {fill : α} {i : Int} {r : List α} (h : r.length = n - pyStart n i) :
    (setFrom n fill i r).length = n := by
  have : pyStart n i ≤ n := by unfold pyStart; split <;> omega
  simp [setFrom, h]; omega

theorem CausalL.map (f : α → β) : CausalL (List.map f) where
  len := by simp
  pre := fun xs ys h => h.map f

theorem CausalL2.zipWith (f : α → β → γ) : CausalL2 (List.zipWith f) where
  len := by intro xs ys h; simp [h]
  pre := by
    intro xs xs' ys ys' h1 h2 h3 h4
    rw [prefix_iff_get] at *
    refine ⟨by simp; omega, ?_⟩
    intro i hi
    simp only [List.length_zipWith] at hi
    rw [List.getElem?_zipWith, List.getElem?_zipWith, h1.2 i (by omega), h2.2 i (by omega)]

theorem pref_clone {a a' : Line β} {s s' : List α} {mp : Int} (hm : 1 ≤ mp) (h : s <+: s') :
    Pref (clone a s mp) (clone a' s' mp) := by
  unfold clone
  rw [if_neg (by omega), if_neg (by omega)]
  exact ⟨hm, rfl, h⟩

theorem pref_stdop {g : List α → List β} (hg : CausalL g) {fill : β} {inc : Int} (hi : 0 ≤ inc) {a a' : Line α}
    (h : Pref a a') : Pref (stdop g fill inc a) (stdop g fill inc a') := by
  have hp := h.pos
  unfold stdop
  have hc := pref_clone (a := a) (a' := a') (mp := a.minperiod) hp
    (setFrom_prefix (fill := fill) h.ser.length_le hp (hg.pre _ _ (pyFrom_prefix h.ser hp))
      (by rw [hg.len, pyFrom_length]))
  simp only [← h.mp]
  exact ⟨by have := hc.pos; simp only; omega, by have := hc.mp; simp only; omega, hc.ser⟩

theorem pref_apply {g : List α → List β} (hg : CausalL g) {fill : β} {a a' : Line α}
    (h : Pref a a') : Pref (apply g fill a) (apply g fill a') := by
  have hp := h.pos
  unfold apply
  simp only [← h.mp]
  exact pref_clone hp (setFrom_prefix h.ser.length_le hp (hg.pre _ _ (pyFrom_prefix h.ser hp))
      (by rw [hg.len, pyFrom_length]))

theorem pref_binopS {f : α → β → γ} {fill : γ} {a a' : Line α} {c : β} (h : Pref a a') :
    Pref (binopS f fill a c) (binopS f fill a' c) := by
  have hp := h.pos
  unfold binopS
  simp only [← h.mp]
  exact pref_clone (by omega) (setFrom_prefix h.ser.length_le (by omega)
    ((CausalL.map _).pre _ _ (pyFrom_prefix h.ser (by omega))) (by rw [List.length_map, pyFrom_length]))

theorem pref_stdop2 {g : List α → List β → List γ} (hg : CausalL2 g) {fill : γ} {a a' : Line α} {b b' : Line β}
    (h : Pref a a') (h2 : Pref b b') (hl : a.series.length = b.series.length)
    (hl' : a'.series.length = b'.series.length) :
    Pref (stdop2 g fill a b) (stdop2 g fill a' b') := by
  have hp := h.pos
  unfold stdop2
  simp only [← h.mp, ← h2.mp]
  have e1 : (pyFrom a.series (max a.minperiod b.minperiod - 1)).length
      = (pyFrom b.series (max a.minperiod b.minperiod - 1)).length := by rw [pyFrom_length, pyFrom_length, hl]
  refine pref_clone (by omega) (setFrom_prefix h.ser.length_le (by omega)
    (hg.pre _ _ _ _ (pyFrom_prefix h.ser (by omega)) (pyFrom_prefix h2.ser (by omega)) e1 ?_) ?_)
  · rw [pyFrom_length, pyFrom_length, hl']
  · rw [hg.len _ _ e1, pyFrom_length]

theorem pref_binop {f : α → β → γ} {fill : γ} {a a' : Line α} {b b' : Line β}
    (h : Pref a a') (h2 : Pref b b') (hl : a.series.length = b.series.length)
    (hl' : a'.series.length = b'.series.length) :
    Pref (binop f fill a b) (binop f fill a' b') :=
  pref_stdop2 (CausalL2.zipWith f) h h2 hl hl'

section
variable [PyFloat V]

theorem rollL_length {α : Type} (w : ℕ) (agg : List α → V) (xs : List α) : (rollL w agg xs).length = xs.length := by
  simp [rollL]

theorem CausalL.roll {α : Type} (w : ℕ) (agg : List α → V) : CausalL (rollL w agg) where
  len := rollL_length w agg
  pre := by
    intro xs ys h
    have h' := h
    rw [prefix_iff_get] at h' ⊢
    refine ⟨by simp only [rollL_length]; omega, ?_⟩
    intro i hi
    rw [rollL_length] at hi
    have hw : window w i xs = window w i ys := by
      unfold window
      congr 1
      rw [List.prefix_iff_eq_take] at h
      rw [h, List.take_take]
      congr 1; omega
    simp only [rollL, List.getElem?_map, List.getElem?_range hi, List.getElem?_range (show i < ys.length by omega),
      Option.map_some, hw]

theorem CausalL.shift (s : ℕ) : CausalL (shiftL (V := V) (s : Int)) where
  len := by intro xs; unfold shiftL; rw [if_pos (by omega)]; simp; omega
  pre := by
    intro xs ys h
    unfold shiftL
    rw [if_pos (by omega), if_pos (by omega)]
    have hl := h.length_le
    rw [prefix_iff_get] at h ⊢
    refine ⟨by simp; omega, ?_⟩
    intro i hi
    simp only [List.length_append, List.length_replicate, List.length_take, Int.toNat_natCast] at hi
    by_cases hs : i < s
    · rw [List.getElem?_append_left (by simp; omega), List.getElem?_append_left (by simp; omega)]
      simp only [List.getElem?_replicate, Int.toNat_natCast]
      rw [if_pos (by omega), if_pos (by omega)]
    · rw [List.getElem?_append_right (by simp; omega), List.getElem?_append_right (by simp; omega)]
      simp only [List.getElem?_take, List.length_replicate, Int.toNat_natCast]
      rw [if_pos (by omega), if_pos (by omega), h.2 _ (by omega)]
      congr 1; omega

theorem CausalL.lag (s : ℕ) (f : V → V → V) :
    CausalL (fun xs : List V => List.replicate (min s xs.length) nan ++ List.zipWith f (xs.drop s) xs) where
  len := by intro xs; simp; omega
  pre := by
    intro xs ys h
    have hl := h.length_le
    rw [prefix_iff_get] at h ⊢
    refine ⟨by simp; omega, ?_⟩
    intro i hi
    simp only [List.length_append, List.length_replicate, List.length_zipWith, List.length_drop] at hi
    by_cases hs : i < s
    · rw [List.getElem?_append_left (by simp; omega), List.getElem?_append_left (by simp; omega)]
      simp only [List.getElem?_replicate]
      rw [if_pos (by omega), if_pos (by omega)]
    · rw [List.getElem?_append_right (by simp; omega), List.getElem?_append_right (by simp; omega)]
      simp only [List.getElem?_zipWith, List.length_replicate, List.getElem?_drop]
      rw [h.2 _ (by omega), h.2 _ (by omega)]
      rw [show min s xs.length = s from by omega, show min s ys.length = s from by omega]

theorem CausalL.diff (s : ℕ) : CausalL (diffL (V := V) s) := CausalL.lag s _

/-- kernels which scan from the left with a state -/
theorem scan_prefix {σ : Type} (go : σ → List α → List β) (step : σ → α → σ × β)
    (h0 : ∀ s, go s [] = []) (h1 : ∀ s x xs, go s (x :: xs) = (step s x).2 :: go (step s x).1 xs) (s : σ) :
    CausalL (go s) where
  len := by
    intro xs
    induction xs generalizing s with
    | nil => rw [h0]; rfl
    | cons x xs ih => rw [h1]; simp [ih]
  pre := by
    intro xs
    induction xs generalizing s with
    | nil => intro ys _; rw [h0]; exact List.nil_prefix
    | cons x xs ih =>
      intro ys h
      obtain ⟨t, rfl⟩ := h
      rw [List.cons_append, h1, h1]
      exact (List.prefix_cons_inj _).mpr (ih _ _ (List.prefix_append _ _))

theorem CausalL.cumsum : CausalL (cumsumL (V := V)) :=
  scan_prefix cumsumGo (fun acc x => if isNaN x then (acc, x) else (acc + x, acc + x))
    (fun _ => rfl) (fun s x xs => by simp only [cumsumGo]; split <;> rfl) _

theorem CausalL.ffill : CausalL (ffillL (V := V)) :=
  scan_prefix ffillGo (fun p x => if isNaN x then (p, p) else (x, x))
    (fun _ => rfl) (fun s x xs => by simp only [ffillGo]; split <;> rfl) _

theorem CausalL.replaceZero : CausalL (replaceZeroL (V := V)) :=
  scan_prefix replaceZeroGo (fun p x => if eqv x (lit 0) then (p, p) else (x, x))
    (fun _ => rfl) (fun s x xs => by simp only [replaceZeroGo]; split <;> rfl) _

theorem CausalL.ewmGo (al avg w : V) : CausalL (ewmGo al avg w) := by
  refine scan_prefix (σ := V × V) (fun s => Bta.ewmGo al s.1 s.2)
    (fun s cur => if isNaN s.1 then ((cur, s.2), cur) else
      if isNaN cur then ((s.1, s.2 * (lit 1 - al)), s.1) else
        let avg' := if eqv s.1 cur then s.1 else
          (s.2 * (lit 1 - al) * s.1 + al * cur) / (s.2 * (lit 1 - al) + al)
        ((avg', lit 1), avg'))
    (fun _ => rfl) (fun s x xs => by simp only [Bta.ewmGo]; split; rfl; split <;> rfl) (avg, w)

theorem CausalL.comp {f : List β → List γ} {g : List α → List β} (hf : CausalL f) (hg : CausalL g) :
    CausalL (fun xs => f (g xs)) where
  len := by intro xs; rw [hf.len, hg.len]
  pre := fun xs ys h => hf.pre _ _ (hg.pre _ _ h)

theorem CausalL.pctChange (s : ℕ) : CausalL (pctChangeL (V := V) s) := by
  have h := CausalL.comp (CausalL.lag (V := V) s (fun a b => a / b - lit 1)) CausalL.ffill
  have e : (fun xs : List V => (fun xs : List V => List.replicate (min s xs.length) nan ++
      List.zipWith (fun a b => a / b - lit 1) (xs.drop s) xs) (ffillL xs)) = pctChangeL s := by
    funext xs
    simp only [pctChangeL, CausalL.ffill.len]
  rw [e] at h
  exact h

theorem CausalL.ewm (al : V) : CausalL (ewmL al) := by
  have : CausalL (fun xs : List V => match xs with | [] => [] | x :: xs => x :: Bta.ewmGo al x (lit 1) xs) := by
    constructor
    · intro xs; cases xs with
      | nil => rfl
      | cons x xs => simp [(CausalL.ewmGo al x (lit 1)).len]
    · intro xs ys h
      cases xs with
      | nil => exact List.nil_prefix
      | cons x xs =>
        obtain ⟨t, rfl⟩ := h
        exact (List.prefix_cons_inj _).mpr ((CausalL.ewmGo al x (lit 1)).pre _ _ (List.prefix_append _ _))
  have h := CausalL.comp this (CausalL.map (fun x : V => if isFin x then x else nan))
  exact h

theorem CausalL.ewmAdjGo (al avg w : V) : CausalL (ewmAdjGo al avg w) := by
  refine scan_prefix (σ := V × V) (fun s => Bta.ewmAdjGo al s.1 s.2)
    (fun s cur => if isNaN s.1 then ((cur, s.2), cur) else
      if isNaN cur then ((s.1, s.2 * (lit 1 - al)), s.1) else
        let avg' := if eqv s.1 cur then s.1 else
          (s.2 * (lit 1 - al) * s.1 + lit 1 * cur) / (s.2 * (lit 1 - al) + lit 1)
        ((avg', s.2 * (lit 1 - al) + lit 1), avg'))
    (fun _ => rfl) (fun s x xs => by simp only [Bta.ewmAdjGo]; split; rfl; split <;> rfl) (avg, w)

theorem CausalL.ewmAdj (al : V) : CausalL (ewmAdjL al) := by
  have : CausalL (fun xs : List V => match xs with | [] => [] | x :: xs => x :: Bta.ewmAdjGo al x (lit 1) xs) := by
    constructor
    · intro xs; cases xs with
      | nil => rfl
      | cons x xs => simp [(CausalL.ewmAdjGo al x (lit 1)).len]
    · intro xs ys h
      cases xs with
      | nil => exact List.nil_prefix
      | cons x xs =>
        obtain ⟨t, rfl⟩ := h
        exact (List.prefix_cons_inj _).mpr ((CausalL.ewmAdjGo al x (lit 1)).pre _ _ (List.prefix_append _ _))
  have h := CausalL.comp this (CausalL.map (fun x : V => if isFin x then x else nan))
  exact h

theorem CausalL.ewmMean (adj : Bool) (al : V) : CausalL (ewmMeanL adj al) := by
  cases adj
  · exact CausalL.ewm al
  · exact CausalL.ewmAdj al

theorem CausalL.smAccGo (al be p : V) : CausalL (Line.smAccGo al be p) :=
  scan_prefix (Line.smAccGo al be) (fun p x => (be * p + al * x, be * p + al * x)) (fun _ => rfl) (fun _ _ _ => rfl) p

theorem CausalL.lfilterGo (al be p : V) : CausalL (Line.lfilterGo al be p) :=
  scan_prefix (Line.lfilterGo al be) (fun p x => (al * x + be * p, al * x + be * p)) (fun _ => rfl) (fun _ _ _ => rfl) p

theorem pref_rolling {w : ℕ} (hw : 1 ≤ w) {agg : List α → V} {a a' : Line α} (h : Pref a a') :
    Pref (rolling w agg a) (rolling w agg a') := by
  have hp := h.pos
  unfold rolling
  simp only [← h.mp]
  exact pref_clone (by omega) (setFrom_prefix h.ser.length_le hp ((CausalL.roll w agg).pre _ _
    (pyFrom_prefix h.ser hp)) (by rw [rollL_length, pyFrom_length]))

theorem pref_rolling2 {w : ℕ} (hw : 1 ≤ w) {agg : List (V × V) → V} {a a' b b' : Line V} (h : Pref a a') (h2 : Pref b b')
    (hl : a.series.length = b.series.length) (hl' : a'.series.length = b'.series.length) :
    Pref (rolling2 w agg a b) (rolling2 w agg a' b') := by
  have hp := h.pos
  unfold rolling2
  simp only [← h.mp]
  have e1 : (pyFrom a.series (a.minperiod - 1)).length
      = (pyFrom b.series (a.minperiod - 1)).length := by rw [pyFrom_length, pyFrom_length, hl]
  refine pref_clone (by omega) (setFrom_prefix h.ser.length_le hp ((CausalL.roll w agg).pre _ _
    ((CausalL2.zipWith Prod.mk).pre _ _ _ _ (pyFrom_prefix h.ser hp) (pyFrom_prefix h2.ser hp) e1 ?_)) ?_)
  · rw [pyFrom_length, pyFrom_length, hl']
  · rw [rollL_length]
    have := (CausalL2.zipWith (Prod.mk (α := V) (β := V))).len _ _ e1
    unfold List.zip
    rw [this, pyFrom_length]

theorem stdop_length {g : List α → List β} (hg : ∀ xs, (g xs).length = xs.length) {fill : β} {inc : Int} {a : Line α} :
    (stdop g fill inc a).series.length = a.series.length := by
  simp only [stdop, clone]
  rw [setFrom_len]
  rw [hg, pyFrom_length]

theorem apply_length {g : List α → List β} (hg : ∀ xs, (g xs).length = xs.length) {fill : β} {a : Line α} :
    (apply g fill a).series.length = a.series.length := by
  simp only [apply, clone]
  rw [setFrom_len]
  rw [hg, pyFrom_length]

theorem binopS_length {f : α → β → γ} {fill : γ} {a : Line α} {c : β} :
    (binopS f fill a c).series.length = a.series.length := by
  simp only [binopS, clone]
  rw [setFrom_len]
  rw [List.length_map, pyFrom_length]

theorem stdop2_length {g : List α → List β → List γ} (hg : CausalL2 g) {fill : γ} {a : Line α} {b : Line β}
    (h : a.series.length = b.series.length) : (stdop2 g fill a b).series.length = a.series.length := by
  simp only [stdop2, clone]
  rw [setFrom_len]
  rw [hg.len _ _ (by rw [pyFrom_length, pyFrom_length, h]), pyFrom_length]

theorem binop_length {f : α → β → γ} {fill : γ} {a : Line α} {b : Line β}
    (h : a.series.length = b.series.length) : (binop f fill a b).series.length = a.series.length :=
  stdop2_length (CausalL2.zipWith f) h

theorem rolling_length {w : ℕ} {agg : List α → V} {a : Line α} :
    (rolling w agg a).series.length = a.series.length := by
  simp only [rolling, clone]
  rw [setFrom_len]
  rw [rollL_length, pyFrom_length]

theorem rolling2_length {w : ℕ} {agg : List (V × V) → V} {a b : Line V} (h : a.series.length = b.series.length) :
    (rolling2 w agg a b).series.length = a.series.length := by
  simp only [rolling2, clone]
  rw [setFrom_len]
  rw [rollL_length, List.length_zip, pyFrom_length, pyFrom_length, h, Nat.min_self]

/-! ### `_ewm` -/

/-- configurations for which the seed is computed inside the data, i.e. `0 ≤ p1`, `1 ≤ p2` -/
structure EwmGood (c : EwmCfg) (mp : Int) : Prop where
  p2 : 1 ≤ c.p2 mp
  p1 : 0 ≤ c.p2 mp - c.pval
  pv : 0 ≤ c.pval
  out : 1 ≤ max (mp + (c.pval - c.pearly - 1)) c.alphaP

theorem ewmNew_of_ok {c : EwmCfg} {a : Line V} {o : EwmObj V} (hg : EwmGood c a.minperiod)
    (h : ewmNew c a = .ok o) (hs : c.seed ≠ .none ∧ c.seed ≠ .zfill) : c.p2 a.minperiod ≤ a.series.length := by
  by_contra hc
  have h1 := hg.p2
  have : ewmNew c a = .error .indexError := by
    refine ewmNew_short (P2 := (c.p2 a.minperiod).toNat) (by omega) (by omega) ?_
    revert hs; cases c.seed <;> simp
  rw [this] at h
  cases h

theorem pySlice_prefix {xs ys : List α} (h : xs <+: ys) {i j : Int} (hi : 0 ≤ i) (hj : 0 ≤ j) (hl : j ≤ xs.length) :
    pySlice xs i j = pySlice ys i j := by
  have hl' := h.length_le
  unfold pySlice pyStart
  rw [if_pos hi, if_pos hi, if_pos hj, if_pos hj]
  apply List.ext_getElem?
  intro k
  rw [prefix_iff_get] at h
  rw [List.getElem?_drop, List.getElem?_drop, List.getElem?_take, List.getElem?_take]
  by_cases hk : min i.toNat xs.length + k < min j.toNat xs.length
  · rw [if_pos hk, if_pos (by omega), h.2 _ (by omega)]
    congr 1; omega
  · rw [if_neg hk]
    by_cases hk' : min i.toNat ys.length + k < min j.toNat ys.length
    · omega
    · rw [if_neg hk']

theorem pref_ewm {c : EwmCfg} {a a' : Line V} (hg : EwmGood c a.minperiod) (h : Pref a a')
    (hs : c.seed ≠ .none ∧ c.seed ≠ .zfill)
    {op : List V → Except Err (List V)} {g : List V → List V}
    (hg1 : CausalL g) (hop : ∀ t, t ≠ [] → op t = .ok (g t)) :
    PrefE (match ewmNew c a with | .error e => .error e | .ok o => ewmCall c a o op)
      (match ewmNew c a' with | .error e => .error e | .ok o => ewmCall c a' o op) := by
  intro r hr
  have hpos := h.pos
  cases hn : ewmNew c a with
  | error e => rw [hn] at hr; cases hr
  | ok o =>
    have hlen := ewmNew_of_ok hg hn hs
    have hle := h.ser.length_le
    have g2 := hg.p2
    have g1 := hg.p1
    have g0 := hg.pv
    have gout := hg.out
    obtain ⟨P2, hP2⟩ : ∃ P2 : ℕ, c.p2 a.minperiod = P2 := ⟨(c.p2 a.minperiod).toNat, by omega⟩
    have e1 := ewmNew_ok (c := c) (a := a) hP2 (by omega) (by omega)
    have e2 := ewmNew_ok (c := c) (a := a') (by rw [← h.mp]; exact hP2) (by omega) (by omega)
    rw [e1] at hr
    rw [e2]
    have hseed : seedVal c.seed a.series ((P2 : Int) - c.pval) ((P2 : Int) - 1) P2
        = seedVal c.seed a'.series ((P2 : Int) - c.pval) ((P2 : Int) - 1) P2 := by
      unfold seedVal
      rw [hP2] at g1
      cases c.seed with
      | avg => simp only; rw [pySlice_prefix h.ser g1 (by omega) (by omega)]
      | sum => simp only; rw [pySlice_prefix h.ser g1 (by omega) (by omega)]
      | last =>
        simp only
        have hh := h.ser
        rw [prefix_iff_get] at hh
        unfold pyGet
        rw [if_pos (by omega), if_pos (by omega), hh.2 _ (by omega)]
      | none => rfl
      | zero => rfl
      | zfill => rfl
    have hdrop : a.series.drop P2 <+: a'.series.drop P2 := by
      have hh := h.ser
      rw [prefix_iff_get] at hh ⊢
      refine ⟨by simp; omega, ?_⟩
      intro i hi
      rw [List.length_drop] at hi
      rw [List.getElem?_drop, List.getElem?_drop, hh.2 _ (by omega)]
    simp only [ewmCall] at hr ⊢
    rw [hop _ (by simp)] at hr ⊢
    simp only at hr ⊢
    have hst : pyStart a.series.length ((P2 : Int) - 1) = P2 - 1 := by
      rw [pyStart_pred _ (by omega)]; omega
    have hst' : pyStart a'.series.length ((P2 : Int) - 1) = P2 - 1 := by
      rw [pyStart_pred _ (by omega)]; omega
    rw [if_pos (by rw [hg1.len, hst]; simp; omega)] at hr
    rw [if_pos (by rw [hg1.len, hst']; simp; omega)]
    refine ⟨_, rfl, ?_⟩
    injection hr with hr
    rw [← hr, ← h.mp]
    refine pref_clone gout (setFrom_prefix h.ser.length_le (by omega) (hg1.pre _ _ ?_) ?_)
    · rw [hseed]
      exact (List.prefix_cons_inj _).mpr hdrop
    · rw [hg1.len, hst]; simp; omega

theorem ewmCall_length {c : EwmCfg} {a r : Line V} {o : EwmObj V} {op : List V → Except Err (List V)}
    (h : ewmCall c a o op = .ok r) : r.series.length = a.series.length := by
  unfold ewmCall at h
  simp only at h
  cases hop : op o.trailer with
  | error e => rw [hop] at h; cases h
  | ok t =>
    rw [hop] at h
    simp only at h
    split at h
    · rename_i hl
      injection h with h
      rw [← h]
      simp only [clone]
      rw [setFrom_len hl]
    · cases h

theorem PrefE.bind {x y : Except Err (Line α)} (h : PrefE x y) {f f' : Line α → Except Err (Line β)}
    (hf : ∀ l l', x = .ok l → y = .ok l' → Pref l l' → PrefE (f l) (f' l')) : PrefE (x >>= f) (y >>= f') := by
  intro r hr
  cases hx : x with
  | error e => rw [hx] at hr; cases hr
  | ok l =>
    rw [hx] at hr
    obtain ⟨l', hy, hp⟩ := h l hx
    rw [hy]
    exact hf l l' hx hy hp r hr

theorem PrefE.ok {l l' : Line α} (h : Pref l l') : PrefE (.ok l) (.ok l') := by
  intro r hr
  injection hr with hr
  exact ⟨l', rfl, hr ▸ h⟩

end

end Bta
