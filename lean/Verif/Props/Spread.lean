import Verif.Props.Signals

/-!
# C112: ranges and spreads in floating point arithmetic

The measures of how far prices move (true range, directional movement, deviations, bands) when each operation rounds: `R` is any rounding
which keeps the order, e.g. IEEE 754 double precision (`binary64`).
-/

set_option linter.unusedSectionVars false
set_option linter.unusedVariables false

namespace Spec
open Bta

/-- `v` is the greatest of three values -/
def Greatest {R : Rounding} (x y z v : Flt R) : Prop :=
  (v = x ∨ v = y ∨ v = z) ∧ Ext.Le x v ∧ Ext.Le y v ∧ Ext.Le z v

/-- bar by bar, `high` is not below `low`, or one of them is missing -/
def HighLow {R : Rounding} (high low : ℕ → Flt R) : Prop := ∀ i, high i = Ext.nan ∨ low i = Ext.nan ∨ Ext.Le (low i) (high i)

/-- bar by bar, the value of `a` is missing or not above that of `b` -/
def NotAbove {R : Rounding} (a b : Line (Flt R)) : Prop :=
  ∀ (i : ℕ) (x y : Flt R), a.series[i]? = some x → b.series[i]? = some y → x = Ext.nan ∨ Ext.Le x y

/-- bar by bar, the value of `b` is missing or not below that of `a` -/
def NotBelow {R : Rounding} (b a : Line (Flt R)) : Prop :=
  ∀ (i : ℕ) (x y : Flt R), a.series[i]? = some x → b.series[i]? = some y → y = Ext.nan ∨ Ext.Le x y

/-- the values of an average are numbers of the arithmetic, if those averaged are -/
def GivesStored {R : Rounding} (ma : MA (Flt R)) (p : ℕ) : Prop := ∀ a r, Stored a → ma p a = .ok r → Stored r

/-- a smoother of values which are not negative gives values which are not negative -/
def SmoothsSign {R : Rounding} (s : Line (Flt R) → Except Err (Line (Flt R))) : Prop :=
  ∀ a r, NoneNegative a → s a = .ok r → NoneNegative r

end Spec

namespace Bta
open Line Ind Spec

variable {R : Rounding}

/-! ## true range -/

theorem Ext.total' {a b : Ext ℚ} (ha : a ≠ .nan) (hb : b ≠ .nan) : Ext.Le a b ∨ Ext.Le b a := by
  cases a <;> cases b <;> first | exact absurd rfl ha | exact absurd rfl hb | exact Or.inl rfl | exact Or.inr rfl | skip
  rename_i x y
  exact (le_total x y).imp Ext.le_fin'.mpr Ext.le_fin'.mpr

theorem sub_nn {a b : Flt R} (h : a = Ext.nan ∨ b = Ext.nan ∨ Ext.Le b a) : NotNegative (a - b : Flt R) := by
  refine R.round_nn (v := Ext.add a (Ext.neg b)) ?_
  rcases h with rfl | rfl | h
  · left; cases b <;> rfl
  · left; cases a <;> rfl
  · cases a with
    | fin x => cases b with
      | fin y => exact Or.inr (Ext.le_fin'.mpr (by have := Ext.le_fin'.mp h; linarith))
      | ninf => exact Or.inr rfl
      | pinf => exact nomatch h
      | nan => exact Or.inl rfl
    | pinf => cases b <;> first | exact Or.inr rfl | exact Or.inl rfl
    | ninf => cases b <;> first | exact Or.inl rfl | exact nomatch h
    | nan => left; cases b <;> rfl

theorem clipLo_flt {x t : Flt R} (hx : x ≠ Ext.nan) (ht : t ≠ Ext.nan) : Ext.Le t (clipLo x t : Flt R) ∧ Ext.Le x (clipLo x t : Flt R) := by
  unfold clipLo
  by_cases h : Ext.Le t x
  · have : (le t x || isNaN x) = true := by rw [show le t x = true from h]; rfl
    rw [if_pos this]; exact ⟨h, Ext.le_refl' hx⟩
  · have h2 : isNaN x = false := by cases x <;> first | rfl | exact absurd rfl hx
    have : ¬ (le t x || isNaN x) = true := by rw [h2, Bool.or_false]; exact h
    rw [if_neg this]
    exact ⟨Ext.le_refl' ht, (Ext.total' ht hx).resolve_left h⟩

theorem clipHi_flt {x t : Flt R} (hx : x ≠ Ext.nan) (ht : t ≠ Ext.nan) : Ext.Le (clipHi x t : Flt R) t ∧ Ext.Le (clipHi x t : Flt R) x := by
  unfold clipHi
  by_cases h : Ext.Le x t
  · have : (le x t || isNaN x) = true := by rw [show le x t = true from h]; rfl
    rw [if_pos this]; exact ⟨h, Ext.le_refl' hx⟩
  · have h2 : isNaN x = false := by cases x <;> first | rfl | exact absurd rfl hx
    have : ¬ (le x t || isNaN x) = true := by rw [h2, Bool.or_false]; exact h
    rw [if_neg this]
    exact ⟨Ext.le_refl' ht, (Ext.total' hx ht).resolve_left h⟩

theorem clipLo_nan (x : Flt R) : (clipLo x Ext.nan : Flt R) = Ext.nan := by cases x <;> rfl
theorem clipHi_nan (x : Flt R) : (clipHi x Ext.nan : Flt R) = Ext.nan := by cases x <;> rfl
theorem nan_clipLo (x : Flt R) : (clipLo (Ext.nan : Flt R) x : Flt R) = Ext.nan := by cases x <;> rfl

theorem tr_value (x y z : ℚ) {a b c : Flt R} (ha : a = Ext.fin x) (hb : b = Ext.fin y) (hc : c = Ext.fin z) :
    (clipLo c a - clipHi c b : Flt R) = R.fl (max z x - min z y) := by
  subst ha hb hc
  show R.round (Ext.add (clipLo (V := Ext ℚ) (.fin z) (.fin x)) (Ext.neg (clipHi (V := Ext ℚ) (.fin z) (.fin y)))) = _
  rw [clipLo_fin, clipHi_fin]
  show R.fl (max z x + -min z y) = _
  rw [sub_eq_add_neg]

section range
variable {h l c : Line (Flt R)} {n mh ml mc q : ℕ}

theorem rep_truerange {H L C : ℕ → Flt R} (hq : 1 ≤ q) (hh : RepW h n mh H) (hl : RepW l n ml L) (hc : RepW c n mc C) :
    Rep (nan : Flt R) (truerange q h l c) n (max (max (mc + q) mh) (max (mc + q) ml)) fun i => clipLo (C (i - q)) (H i) - clipHi (C (i - q)) (L i) := by
  have h1 := (rep_ago hq hc).toRepW
  exact rep_binop (f := fun x y : Flt R => x - y) (rep_clipLoL h1 hh).toRepW (rep_clipHiL h1 hl).toRepW

/-- **C112** the true range is the greatest of high - low, |high - previous close| and |low - previous close|, as rounded, at each bar
from the first with a previous close on. -/
theorem C112_truerange {H L C : ℕ → ℚ} (hq : 1 ≤ q) (hh : RepW h n mh fun i => Ext.fin (H i)) (hl : RepW l n ml fun i => Ext.fin (L i))
    (hc : RepW c n mc fun i => Ext.fin (C i)) (bar : ∀ i, L i ≤ H i) (i : ℕ) (hi : i < n)
    (h1 : mh ≤ i + 1) (h2 : ml ≤ i + 1) (h3 : mc + q ≤ i + 1) :
    ∃ v : Flt R, (truerange q h l c).series[i]? = some v ∧
      Greatest (R.fl (H i - L i)) (absv (R.fl (H i - C (i - q)) : Flt R)) (absv (R.fl (L i - C (i - q)) : Flt R)) v := by
  refine ⟨R.fl (max (C (i - q)) (H i) - min (C (i - q)) (L i)),
    ((rep_truerange hq hh hl hc).val i (by omega) hi).trans (congrArg some (tr_value _ _ _ rfl rfl rfl)), ?_⟩
  have hb := bar i
  generalize H i = x at hb
  generalize L i = y at hb
  generalize C (i - q) = z
  have nonneg : ∀ {a : ℚ}, 0 ≤ a → Ext.abs (R.fl a) = R.fl a := by
    intro a ha
    have := R.le_round (a := .fin a) R.fl_zero (Ext.le_fin'.mpr ha)
    change Ext.Le _ (R.fl a) at this
    show Ext.abs (R.fl a) = _
    rcases Ext.nonneg_cases this with e | ⟨b, e, hb⟩
    · rw [e]; rfl
    · rw [e]; show Ext.fin |b| = _; rw [abs_of_nonneg hb]
  have nonpos : ∀ {a : ℚ}, a ≤ 0 → Ext.abs (R.fl a) = R.fl (-a) := by
    intro a ha
    rw [← nonneg (by linarith : 0 ≤ -a)]
    show Ext.abs (R.fl a) = Ext.abs (R.fl (-a))
    rw [R.neg]
    cases R.fl a with
    | fin b => show Ext.fin |b| = Ext.fin |-b|; rw [abs_neg]
    | _ => rfl
  have hle : ∀ {a b : ℚ}, a ≤ b → Ext.Le (R.fl a) (R.fl b) := fun h => R.mono _ _ h
  have key : ∀ u v w t : Ext ℚ, (t = u ∨ t = v ∨ t = w) ∧ Ext.Le u t ∧ Ext.Le v t ∧ Ext.Le w t → Greatest (R := R) u v w t := fun _ _ _ _ h => h
  refine key (R.fl (x - y)) (Ext.abs (R.fl (x - z))) (Ext.abs (R.fl (y - z))) (R.fl (max z x - min z y)) ?_
  rcases le_total x z with hz | hz
  · rw [nonpos (by linarith : x - z ≤ 0), nonpos (by linarith : y - z ≤ 0), max_eq_left hz, min_eq_right (hb.trans hz)]
    refine ⟨Or.inr (Or.inr ?_), hle (by linarith), hle (by linarith), hle (by linarith)⟩
    congr 1; ring
  · rw [max_eq_right hz]
    rcases le_total y z with hy | hy
    · rw [min_eq_right hy, nonneg (by linarith : 0 ≤ x - z), nonpos (by linarith : y - z ≤ 0)]
      exact ⟨Or.inl rfl, hle (by linarith), hle (by linarith), hle (by linarith)⟩
    · rw [min_eq_left hy, nonneg (by linarith : 0 ≤ x - z), nonneg (by linarith : 0 ≤ y - z)]
      exact ⟨Or.inr (Or.inl rfl), hle (by linarith), hle (by linarith), hle (by linarith)⟩

/-- **C112** the true range is never negative, also with missing or infinite prices. -/
theorem C112_truerange_sign {H L C : ℕ → Flt R} (hq : 1 ≤ q) (hh : RepW h n mh H) (hl : RepW l n ml L) (hc : RepW c n mc C)
    (bar : HighLow H L) : NoneNegative (truerange q h l c) := by
  refine each_of_rep (rep_truerange hq hh hl hc) nn_nan fun i _ _ => sub_nn ?_
  have hb := bar i
  generalize H i = x at hb
  generalize L i = y at hb
  generalize C (i - q) = z
  rcases hb with rfl | rfl | hb
  · left; exact clipLo_nan z
  · right; left; exact clipHi_nan z
  · obtain ⟨ny, nx⟩ := Ext.not_nan_of_le hb
    by_cases hz : z = Ext.nan
    · left; rw [hz]; exact nan_clipLo x
    · exact Or.inr (Or.inr (((clipHi_flt hz ny).1.trans hb).trans (clipLo_flt hz nx).1))

/-- **C112** the average true range is never negative. -/
theorem C112_atr {H L C : ℕ → Flt R} {ma : MA (Flt R)} {p : ℕ} (hm : KeepsSign ma p) (hq : 1 ≤ q) (hh : RepW h n mh H) (hl : RepW l n ml L)
    (hc : RepW c n mc C) (bar : HighLow H L) {r : Line (Flt R)} (hr : atr ma q p h l c = .ok r) : NoneNegative r :=
  hm _ _ (C112_truerange_sign hq hh hl hc bar) hr

/-- **C112** nor is the normalised average true range, if closes are not negative. -/
theorem C112_natr {H L C : ℕ → Flt R} {ma : MA (Flt R)} {p : ℕ} (hm : KeepsSign ma p) (hq : 1 ≤ q) (hh : RepW h n mh H) (hl : RepW l n ml L)
    (hc : RepW c n mc C) (bar : HighLow H L) (hpos : NoneNegative c) {r : Line (Flt R)} (hr : natr ma q p h l c = .ok r) : NoneNegative r := by
  simp only [natr, bind, Except.bind, pure, Except.pure] at hr
  split at hr
  · exact nomatch hr
  · rename_i a ha
    injection hr with hr
    subst hr
    have h1 := C112_atr hm hq hh hl hc bar ha
    have h2 : NoneNegative (rmulS (lit 100) a) := each_binopS (γ := Flt R) nn_nan (fun x hx => nn_mul (nn_lit (by norm_num)) hx) h1
    exact each_binop (γ := Flt R) nn_nan (fun x y hx hy => nn_div hx hy) h2 hpos

end range


/-! ## directional movement -/

theorem nn_ewmCall {c : EwmCfg} {a r : Line (Flt R)} {o : EwmObj (Flt R)} {op : List (Flt R) → Except Err (List (Flt R))}
    (hop : ∀ t r, (∀ x ∈ t, NotNegative x) → op t = .ok r → ∀ v ∈ r, NotNegative v)
    (ha : EachBar NotNegative a) (hn : ewmNew c a = .ok o) (h : ewmCall c a o op = .ok r) : EachBar NotNegative r := by
  have ht : ∀ x ∈ o.trailer, NotNegative x := by
    unfold ewmNew at hn
    simp only at hn
    cases hp : ewmPrefix a c.seed (c.p2 a.minperiod - c.pval) (c.p2 a.minperiod - 1) (c.p2 a.minperiod) with
    | error e => rw [hp] at hn; exact nomatch hn
    | ok q =>
      rw [hp] at hn
      injection hn with hn
      intro x hx
      rw [← hn] at hx
      rcases List.mem_append.mp hx with hx | hx
      · exact nn_ewmPrefix ha hp x hx
      · exact ha x (mem_pyFrom hx)
  unfold ewmCall at h
  simp only at h
  cases ho : op o.trailer with
  | error e => rw [ho] at h; exact nomatch h
  | ok t =>
    rw [ho] at h
    simp only at h
    split at h
    · injection h with h
      intro v hv
      rw [← h] at hv
      rcases mem_setFrom (show v ∈ setFrom _ _ _ _ from hv) with rfl | hv
      · exact nn_nan
      · exact hop _ _ ht ho v hv
    · exact nomatch h

theorem nn_smAccGo {al be : Flt R} (h1 : NotNegative al) (h2 : NotNegative be) (xs : List (Flt R)) :
    ∀ prev : Flt R, NotNegative prev → (∀ x ∈ xs, NotNegative x) → ∀ v ∈ smAccGo al be prev xs, NotNegative v := by
  induction xs with
  | nil => intro _ _ _ v hv; exact nomatch hv
  | cons x xs ih =>
    intro prev hp hx v hv
    have hn : NotNegative (be * prev + al * x : Flt R) := nn_add (nn_mul h2 hp) (nn_mul h1 (hx x List.mem_cons_self))
    rcases List.mem_cons.mp hv with rfl | hv
    · exact hn
    · exact ih _ hn (fun y hy => hx y (List.mem_cons_of_mem _ hy)) v hv

theorem nn_lfilterGo {al be : Flt R} (h1 : NotNegative al) (h2 : NotNegative be) (xs : List (Flt R)) :
    ∀ prev : Flt R, NotNegative prev → (∀ x ∈ xs, NotNegative x) → ∀ v ∈ lfilterGo al be prev xs, NotNegative v := by
  induction xs with
  | nil => intro _ _ _ v hv; exact nomatch hv
  | cons x xs ih =>
    intro prev hp hx v hv
    have hn : NotNegative (al * x + be * prev : Flt R) := nn_add (nn_mul h1 (hx x List.mem_cons_self)) (nn_mul h2 hp)
    rcases List.mem_cons.mp hv with rfl | hv
    · exact hn
    · exact ih _ hn (fun y hy => hx y (List.mem_cons_of_mem _ hy)) v hv

theorem nn_lfilter {sc : Bool} {al : Flt R} {be : Option (Flt R)} (h1 : NotNegative al) (h2 : NotNegative (betaOf (V := Flt R) al be)) {t r : List (Flt R)}
    (ht : ∀ x ∈ t, NotNegative x) (h : lfilter sc al be t = .ok r) : ∀ v ∈ r, NotNegative v := by
  unfold lfilter at h
  split at h
  · cases t with
    | nil => exact nomatch h
    | cons x xs =>
      injection h with h
      subst h
      refine nn_lfilterGo h1 h2 _ _ (nn_lit le_rfl) fun y hy => ?_
      rcases List.mem_cons.mp hy with rfl | hy
      · exact nn_div (ht x List.mem_cons_self) h1
      · exact ht y (List.mem_cons_of_mem _ hy)
  · cases t with
    | nil => exact nomatch h
    | cons x xs =>
      injection h with h
      subst h
      intro v hv
      rcases List.mem_cons.mp hv with rfl | hv
      · exact ht v List.mem_cons_self
      · exact nn_smAccGo h1 h2 _ _ (ht x List.mem_cons_self) (fun y hy => ht y (List.mem_cons_of_mem _ hy)) v hv

theorem nn_beta {b : Flt R} (hb : NotNegative b) : NotNegative (betaOf (V := Flt R) (lit 1) (some b)) := by
  show NotNegative (if eqv b (lit 0 : Flt R) = true then (lit 1 - lit 1 : Flt R) else b : Flt R)
  by_cases h : eqv b (lit 0 : Flt R) = true
  · rw [if_pos h]
    refine sub_nn (Or.inr (Or.inr ?_))
    have e1 : (lit 1 : Flt R) = Ext.fin 1 := R.fl_one
    rw [e1]; exact Ext.le_fin'.mpr le_rfl
  · rw [if_neg h]; exact hb

theorem mem_shift {V : Type} [PyFloat V] {k : ℤ} {a : Line V} {v : V} (hv : v ∈ (shift k a).series) : v = nan ∨ v ∈ a.series := by
  rcases mem_setFrom (show v ∈ setFrom _ _ _ _ from hv) with rfl | hv
  · exact Or.inl rfl
  · unfold shiftL at hv
    split at hv
    · rcases List.mem_append.mp hv with hv | hv
      · exact Or.inl (List.eq_of_mem_replicate hv)
      · exact Or.inr (mem_pyFrom (List.mem_of_mem_take hv))
    · rcases List.mem_append.mp hv with hv | hv
      · exact Or.inr (mem_pyFrom (List.mem_of_mem_drop hv))
      · exact Or.inl (List.eq_of_mem_replicate hv)

/-- Wilder's accumulation (`smacc`), with and without scipy, is such a smoother, and so are the averages. -/
theorem smoothsSign {p : ℕ} (hp : 1 ≤ p) (scipy early : Bool) (s : Seed) :
    SmoothsSign (smacc scipy early s p : Line (Flt R) → _) ∧ SmoothsSign (smmaG s p : Line (Flt R) → _) := by
  refine ⟨?_, fun a r ha h => (keepsSign hp s 0).1 a r ha h⟩
  intro a r ha h
  have h1 : (1 : ℚ) ≤ p := by exact_mod_cast hp
  simp only [smacc, ewmLfilter] at h
  split at h
  · exact nomatch h
  · rename_i o ho
    refine nn_ewmCall (fun t r ht hr => nn_lfilter (nn_lit (by norm_num)) (nn_beta ?_) (nn_prepL ht) hr) ha ho h
    exact nn_div (nn_lit (by linarith)) (nn_lit (by linarith))

theorem nn_mulB {a : Line (Flt R)} {b : Line Bool} (ha : NoneNegative a) : NoneNegative (mulB a b) := by
  refine each_binop (γ := Flt R) (Q := fun _ => True) nn_nan (fun x y hx _ => nn_mul hx ?_) ha each_true
  cases y
  · exact nn_lit le_rfl
  · exact nn_lit (by norm_num)

theorem nn_dm1 (q : ℕ) (h l : Line (Flt R)) : NoneNegative (pdm1 q h l) ∧ NoneNegative (mdm1 q h l) :=
  ⟨nn_mulB (each_mapOp (V := Flt R) nn_nan (fun x _ => nn_clipLo x) each_true), nn_mulB (each_mapOp (V := Flt R) nn_nan (fun x _ => nn_clipLo x) each_true)⟩

section dm
variable {sm : Line (Flt R) → Except Err (Line (Flt R))} {h l c : Line (Flt R)} {n mh ml mc q : ℕ} {H L C : ℕ → Flt R}

/-- **C112** directional movement is never negative, for any prices. -/
theorem C112_dm (hs : SmoothsSign sm) (q : ℕ) (h l : Line (Flt R)) {u d : Line (Flt R)} (hr : dm sm q h l = .ok (u, d)) :
    NoneNegative u ∧ NoneNegative d := by
  simp only [dm, plusDm, minusDm, bind, Except.bind, pure, Except.pure] at hr
  split at hr
  · exact nomatch hr
  · rename_i a ha
    split at hr
    · exact nomatch hr
    · rename_i b hb
      injection hr with hr
      injection hr with h1 h2
      subst h1 h2
      exact ⟨hs _ _ (nn_dm1 q h l).1 ha, hs _ _ (nn_dm1 q h l).2 hb⟩

theorem nn_diStep (hs : SmoothsSign sm) (hq : 1 ≤ q) (hh : RepW h n mh H) (hl : RepW l n ml L) (hc : RepW c n mc C) (bar : HighLow H L)
    (talib : Bool) {z : Line (Flt R)} (hz : NoneNegative z) {r : Line (Flt R)}
    (hr : (do let m ← sm z; let trp ← diTrp sm q talib h l c; return (rmulS (lit 100) m).op (· / ·) nan (.holder trp)) = Except.ok r) :
    NoneNegative r := by
  simp only [diTrp, bind, Except.bind, pure, Except.pure] at hr
  split at hr
  · exact nomatch hr
  · rename_i m hm
    have h1 := hs _ _ hz hm
    have h2 : NoneNegative (rmulS (lit 100) m) := each_binopS (γ := Flt R) nn_nan (fun x hx => nn_mul (nn_lit (by norm_num)) hx) h1
    cases ht : sm (truerange q h l c) with
    | error e => rw [ht] at hr; exact nomatch hr
    | ok t =>
      rw [ht] at hr
      injection hr with hr
      subst hr
      have h3 := hs _ _ (C112_truerange_sign hq hh hl hc bar) ht
      refine each_binop (γ := Flt R) (Q := NotNegative) nn_nan (fun x y hx hy => nn_div hx hy) h2 ?_
      intro v hv
      exact h3 v hv

/-- **C112** the directional indicators are never negative. -/
theorem C112_di (hs : SmoothsSign sm) (hq : 1 ≤ q) (hh : RepW h n mh H) (hl : RepW l n ml L) (hc : RepW c n mc C) (bar : HighLow H L)
    (talib : Bool) {u d : Line (Flt R)} (hr : di sm q talib h l c = .ok (u, d)) : NoneNegative u ∧ NoneNegative d := by
  simp only [di, bind, Except.bind, pure, Except.pure] at hr
  split at hr
  · exact nomatch hr
  · rename_i a ha
    split at hr
    · exact nomatch hr
    · rename_i b hb
      injection hr with hr
      injection hr with h1 h2
      subst h1 h2
      exact ⟨nn_diStep hs hq hh hl hc bar talib (nn_dm1 q h l).1 ha, nn_diStep hs hq hh hl hc bar talib (nn_dm1 q h l).2 hb⟩

/-- **C112** the directional index is never negative. -/
theorem C112_dx (hs : SmoothsSign sm) (hq : 1 ≤ q) (hh : RepW h n mh H) (hl : RepW l n ml L) (hc : RepW c n mc C) (bar : HighLow H L)
    (talib : Bool) {r : Line (Flt R)} (hr : dx sm q talib h l c = .ok r) : NoneNegative r := by
  simp only [dx, bind, Except.bind, pure, Except.pure] at hr
  split at hr
  · exact nomatch hr
  · rename_i a ha
    split at hr
    · exact nomatch hr
    · rename_i b hb
      injection hr with hr
      subst hr
      have h1 := nn_diStep hs hq hh hl hc bar talib (nn_dm1 q h l).1 ha
      have h2 := nn_diStep hs hq hh hl hc bar talib (nn_dm1 q h l).2 hb
      have h3 : NoneNegative (a - b).abs := each_mapOp (V := Flt R) nn_nan (fun x _ => nn_absv x) each_true
      have h4 : NoneNegative (rmulS (lit 100) (a - b).abs) := each_binopS (γ := Flt R) nn_nan (fun x hx => nn_mul (nn_lit (by norm_num)) hx) h3
      have h5 : NoneNegative (a + b) := each_binop (γ := Flt R) nn_nan (fun x y hx hy => nn_add hx hy) h1 h2
      exact each_binop (γ := Flt R) nn_nan (fun x y hx hy => nn_div hx hy) h4 h5

/-- **C112** nor is the average directional index. -/
theorem C112_adx {ma : MA (Flt R)} {p : ℕ} (hm : KeepsSign ma p) (hs : SmoothsSign sm) (hq : 1 ≤ q) (hh : RepW h n mh H) (hl : RepW l n ml L)
    (hc : RepW c n mc C) (bar : HighLow H L) (talib : Bool) {r : Line (Flt R)} (hr : adx sm ma q talib p h l c = .ok r) : NoneNegative r := by
  unfold adx at hr
  cases hd : dx sm q talib h l c with
  | error e => rw [hd] at hr; exact nomatch hr
  | ok d =>
    rw [hd] at hr
    exact hm _ _ (C112_dx hs hq hh hl hc bar talib hd) hr

theorem nn_rating {d : Line (Flt R)} (h2 : NoneNegative d) (k : ℤ) : NoneNegative ((d + ago k d).divS (lit 2)) := by
  have h3 : NoneNegative (ago k d) := by
    intro v hv
    unfold ago at hv
    split at hv
    · rw [List.eq_of_mem_replicate (show v ∈ List.replicate _ _ from hv)]; exact nn_nan
    · rcases mem_shift hv with rfl | hv
      · exact nn_nan
      · exact h2 v hv
  have h4 : NoneNegative (d + ago k d) := each_binop (γ := Flt R) nn_nan (fun x y hx hy => nn_add hx hy) h2 h3
  exact each_binopS (γ := Flt R) nn_nan (fun x hx => nn_div hx (nn_lit (by norm_num))) h4

/-- **C112** nor is its rating. -/
theorem C112_adxr {ma : MA (Flt R)} {p : ℕ} (hm : KeepsSign ma p) (hs : SmoothsSign sm) (hq : 1 ≤ q) (hh : RepW h n mh H) (hl : RepW l n ml L)
    (hc : RepW c n mc C) (bar : HighLow H L) (talib : Bool) (prating : Option ℕ) {r : Line (Flt R)}
    (hr : adxr sm ma q talib p prating h l c = .ok r) : NoneNegative r := by
  unfold adxr at hr
  cases hd : adx sm ma q talib p h l c with
  | error e => rw [hd] at hr; exact nomatch hr
  | ok d =>
    rw [hd] at hr
    injection hr with hr
    rw [← hr]
    exact nn_rating (C112_adx hm hs hq hh hl hc bar talib hd) _

end dm


/-! ## deviations and bands -/

/-- **C112** the mean absolute deviation is never negative, for any data. -/
theorem C112_mad {p : ℕ} (hp : 1 ≤ p) (a : Line (Flt R)) : NoneNegative (mad p a) := by
  refine each_rolling (V := Flt R) hp nn_nan fun win _ _ => ?_
  unfold aggApply whenAllFin
  split
  · unfold madV
    simp only
    refine nn_div (nn_sumV fun x hx => ?_) (nn_lit (by positivity))
    obtain ⟨y, _, rfl⟩ := List.mem_map.mp hx
    exact nn_absv _
  · exact nn_nan

theorem stored_round (v : Ext ℚ) {q : ℚ} (h : R.round v = Ext.fin q) : R.fl q = Ext.fin q := by
  cases v with
  | fin x => exact R.idem x q h
  | _ => exact nomatch h

/-- values which are numbers of the arithmetic -/
def St (R : Rounding) (v : Flt R) : Prop := ∀ q : ℚ, v = Ext.fin q → R.fl q = Ext.fin q

theorem st_nan : St R (nan : Flt R) := fun q h => nomatch h
theorem st_lit (x : ℚ) : St R (lit x : Flt R) := fun q h => R.idem x q h
theorem st_add (a b : Flt R) : St R (a + b) := fun q h => stored_round (Ext.add a b) h
theorem st_div (a b : Flt R) : St R (a / b) := fun q h => stored_round (Ext.div a b) h

theorem st_sumV (xs : List (Flt R)) : St R (sumV xs) := by
  unfold sumV
  have : ∀ (xs : List (Flt R)) (acc : Flt R), St R acc → St R (xs.foldl (· + ·) acc) := by
    intro xs
    induction xs with
    | nil => intro acc h; exact h
    | cons x xs ih => intro acc _; exact ih _ (st_add acc x)
  exact this xs _ (st_lit 0)

theorem st_meanSkipNa (xs : List (Flt R)) : St R (meanSkipNa xs) := by
  unfold meanSkipNa
  simp only
  split
  · exact st_nan
  · exact st_div _ _

theorem st_ewmGo (alpha : Flt R) (xs : List (Flt R)) :
    ∀ avg wt : Flt R, St R avg → (∀ x ∈ xs, St R x) → ∀ v ∈ ewmGo alpha avg wt xs, St R v := by
  induction xs with
  | nil => intro avg wt _ _ v hv; exact nomatch hv
  | cons x xs ih =>
    intro avg wt ha hx v hv
    have hx0 := hx x List.mem_cons_self
    have hx1 : ∀ y ∈ xs, St R y := fun y hy => hx y (List.mem_cons_of_mem _ hy)
    unfold ewmGo at hv
    split at hv
    · rcases List.mem_cons.mp hv with rfl | hv
      · exact hx0
      · exact ih _ _ hx0 hx1 v hv
    · simp only at hv
      split at hv
      · rcases List.mem_cons.mp hv with rfl | hv
        · exact ha
        · exact ih _ _ ha hx1 v hv
      · have hn : St R (if eqv avg x then avg else (wt * (lit 1 - alpha) * avg + alpha * x) / (wt * (lit 1 - alpha) + alpha) : Flt R) := by
          split
          · exact ha
          · exact st_div _ _
        rcases List.mem_cons.mp hv with rfl | hv
        · exact hn
        · exact ih _ _ hn hx1 v hv

theorem st_ewmL (alpha : Flt R) {xs : List (Flt R)} (h : ∀ x ∈ xs, St R x) : ∀ v ∈ ewmL alpha xs, St R v := by
  have h3 : ∀ x ∈ prepL xs, St R x := by
    intro v hv
    obtain ⟨x, hx, rfl⟩ := List.mem_map.mp hv
    split
    · exact h x hx
    · exact st_nan
  unfold ewmL
  cases hp : prepL xs with
  | nil => intro v hv; exact nomatch hv
  | cons x ys =>
    rw [hp] at h3
    intro v hv
    rcases List.mem_cons.mp hv with rfl | hv
    · exact h3 v List.mem_cons_self
    · exact st_ewmGo alpha ys _ _ (h3 x List.mem_cons_self) (fun y hy => h3 y (List.mem_cons_of_mem _ hy)) v hv

theorem st_ewmPrefix {a : Line (Flt R)} {seed : Seed} {p1 pidx p2 : ℤ} {r : List (Flt R)} (ha : Stored a)
    (h : ewmPrefix a seed p1 pidx p2 = .ok r) : ∀ v ∈ r, St R v := by
  have rep : ∀ {n : ℕ} {c v : Flt R}, St R c → v ∈ List.replicate n c → St R v := by
    intro n c v hc hv; rw [List.eq_of_mem_replicate hv]; exact hc
  have last : ∀ {n : ℕ} {c : Flt R} {r : List (Flt R)}, St R c →
      (if (List.replicate n (nan : Flt R)).isEmpty then Except.error Err.indexError
        else .ok ((List.replicate n (nan : Flt R)).dropLast ++ [c])) = .ok r → ∀ v ∈ r, St R v := by
    intro n c r hc h v hv
    split at h
    · exact nomatch h
    · injection h with h
      rw [← h] at hv
      rcases List.mem_append.mp hv with hv | hv
      · exact rep st_nan (List.mem_of_mem_dropLast hv)
      · rw [List.mem_singleton.mp hv]; exact hc
  unfold ewmPrefix at h
  cases seed with
  | avg => exact last (st_meanSkipNa _) h
  | last =>
    simp only at h
    cases hg : pyGet a.series pidx with
    | none => rw [hg] at h; exact nomatch h
    | some v =>
      rw [hg] at h
      refine last (ha v ?_) h
      unfold pyGet at hg
      split at hg
      · exact List.mem_of_getElem? hg
      · split at hg
        · exact List.mem_of_getElem? hg
        · exact nomatch hg
  | sum => exact last (by unfold sumSkipNa; exact st_sumV _) h
  | none =>
    injection h with h
    intro v hv; rw [← h] at hv; exact rep st_nan hv
  | zero => exact last (st_lit 0) h
  | zfill =>
    injection h with h
    intro v hv; rw [← h] at hv; exact rep (st_lit 0) hv

theorem st_ewmMean {c : EwmCfg} {alpha : Flt R} {a r : Line (Flt R)} (ha : Stored a) (h : ewmMean c alpha a = .ok r) : Stored r := by
  unfold ewmMean at h
  cases hn : ewmNew c a with
  | error e => rw [hn] at h; exact nomatch h
  | ok o =>
    rw [hn] at h
    have ht : ∀ x ∈ o.trailer, St R x := by
      unfold ewmNew at hn
      simp only at hn
      cases hp : ewmPrefix a c.seed (c.p2 a.minperiod - c.pval) (c.p2 a.minperiod - 1) (c.p2 a.minperiod) with
      | error e => rw [hp] at hn; exact nomatch hn
      | ok q =>
        rw [hp] at hn
        injection hn with hn
        intro x hx
        rw [← hn] at hx
        rcases List.mem_append.mp hx with hx | hx
        · exact st_ewmPrefix ha hp x hx
        · exact ha x (mem_pyFrom hx)
    unfold ewmCall at h
    simp only at h
    split at h
    · injection h with h
      intro v hv
      rw [← h] at hv
      rcases mem_setFrom (show v ∈ setFrom _ _ _ _ from hv) with rfl | hv
      · exact st_nan
      · exact st_ewmL alpha ht v hv
    · exact nomatch h

/-- the simple, exponential and Wilder averages are such averages -/
theorem givesStored {p : ℕ} (hp : 1 ≤ p) (s : Seed) (off : ℕ) : GivesStored (sma : MA (Flt R)) p ∧ GivesStored (emaG s off : MA (Flt R)) p ∧
    GivesStored (smmaG s : MA (Flt R)) p := by
  refine ⟨?_, fun a r ha h => st_ewmMean ha h, fun a r ha h => st_ewmMean ha h⟩
  intro a r ha h
  injection h with h
  subst h
  refine each_rolling (V := Flt R) (S := St R) hp st_nan fun win _ _ => ?_
  unfold aggMean whenAllFin
  split
  · exact st_div _ _
  · exact st_nan

theorem add_not_below {m d : Flt R} (hm : St R m) (hd : NotNegative d) : (m + d : Flt R) = Ext.nan ∨ Ext.Le m (m + d : Flt R) := by
  have key : Ext.add m d = .nan ∨ Ext.Le m (Ext.add m d) := by
    rcases hd with rfl | hd
    · left; cases m <;> rfl
    · rcases Ext.nonneg_cases hd with rfl | ⟨y, rfl, hy⟩
      · cases m <;> first | exact Or.inl rfl | exact Or.inr rfl
      · cases m with
        | fin x => exact Or.inr (Ext.le_fin'.mpr (by linarith))
        | nan => exact Or.inl rfl
        | _ => exact Or.inr rfl
  rcases key with h | h
  · left; exact congrArg R.round h
  · right
    have h2 := R.round_mono h
    have e : R.round m = m := by
      cases m with
      | fin x => exact hm x rfl
      | _ => rfl
    rw [e] at h2
    exact h2

theorem sub_not_above {m d : Flt R} (hm : St R m) (hd : NotNegative d) : (m - d : Flt R) = Ext.nan ∨ Ext.Le (m - d : Flt R) m := by
  have key : Ext.add m (Ext.neg d) = .nan ∨ Ext.Le (Ext.add m (Ext.neg d)) m := by
    rcases hd with rfl | hd
    · left; cases m <;> rfl
    · rcases Ext.nonneg_cases hd with rfl | ⟨y, rfl, hy⟩
      · cases m <;> first | exact Or.inl rfl | exact Or.inr rfl
      · cases m with
        | fin x => exact Or.inr (Ext.le_fin'.mpr (by linarith))
        | nan => exact Or.inl rfl
        | _ => exact Or.inr rfl
  rcases key with h | h
  · left; exact congrArg R.round h
  · right
    have h2 := R.round_mono h
    have e : R.round m = m := by
      cases m with
      | fin x => exact hm x rfl
      | _ => rfl
    rw [e] at h2
    exact h2

/-- bar `i` of an operation on two lines of the same length -/
theorem binop_bar {f : Flt R → Flt R → Flt R} {a b : Line (Flt R)} {i : ℕ} {x v : Flt R} (hl : a.series.length = b.series.length)
    (ha : a.series[i]? = some x) (hv : (binop f (nan : Flt R) a b).series[i]? = some v) : v = nan ∨ ∃ y ∈ b.series, v = f x y := by
  have hi : i < a.series.length := (List.getElem?_eq_some_iff.mp ha).1
  change (setFrom a.series.length (nan : Flt R) (max a.minperiod b.minperiod - 1)
    (List.zipWith f (pyFrom a.series (max a.minperiod b.minperiod - 1)) (pyFrom b.series (max a.minperiod b.minperiod - 1))))[i]? = some v at hv
  unfold setFrom pyFrom at hv
  rw [← hl] at hv
  by_cases h : i < pyStart a.series.length (max a.minperiod b.minperiod - 1)
  · rw [List.getElem?_append_left (by simpa using h), List.getElem?_replicate, if_pos h] at hv
    injection hv with hv
    exact Or.inl hv.symm
  · right
    rw [List.getElem?_append_right (by simpa using h), List.length_replicate, List.getElem?_zipWith, List.getElem?_drop, List.getElem?_drop,
      show pyStart a.series.length (max a.minperiod b.minperiod - 1) + (i - pyStart a.series.length (max a.minperiod b.minperiod - 1)) = i from by omega, ha] at hv
    cases hb : b.series[i]? with
    | none => rw [hb] at hv; exact nomatch hv
    | some y =>
      rw [hb] at hv
      injection hv with hv
      exact ⟨y, List.mem_of_getElem? hb, hv.symm⟩

/-- **C112** the bands keep their order: at each bar where they have values the lower is not above the average and the upper not below.
`sq` stands for the square root as computed; all that is used of it is that it has no negative results. -/
theorem C112_bbands {sq : Flt R → Flt R} (hsq : ∀ v, NotNegative (sq v)) {ma : MA (Flt R)} {p : ℕ} (hp : 1 ≤ p) (hst : GivesStored ma p)
    {devs : ℚ} (hd : 0 ≤ devs) {a : Line (Flt R)} (ha : Stored a) (hlen : ∀ r, ma p a = .ok r → r.series.length = a.series.length)
    {mid top bot : Line (Flt R)} (hr : bbands sq ma (lit devs) p a = .ok (mid, top, bot)) : NotAbove bot mid ∧ NotBelow top mid := by
  simp only [bbands, bind, Except.bind, pure, Except.pure] at hr
  split at hr
  · exact nomatch hr
  · rename_i m hm
    injection hr with hr
    injection hr with h1 h2
    injection h2 with h2 h3
    subst h1 h2 h3
    have s1 := hst _ _ ha hm
    have s2 : NoneNegative (rmulS (lit devs) (stddev sq 0 p a)) := by
      refine each_binopS (γ := Flt R) (P := NotNegative) nn_nan (fun x hx => nn_mul (nn_lit hd) hx) ?_
      exact each_rolling (V := Flt R) hp nn_nan fun win _ _ => hsq _
    have hl : m.series.length = (rmulS (lit devs) (stddev sq 0 p a)).series.length := by
      rw [hlen m hm]
      have e1 : (stddev sq 0 p a).series.length = a.series.length := rolling_length
      exact (e1.symm.trans binopS_length.symm)
    constructor
    · intro i x y hx hy
      rcases binop_bar (f := fun x y : Flt R => x - y) hl hy hx with h | ⟨d, hd', h⟩
      · exact Or.inl h
      · rw [h]; exact sub_not_above (s1 y (List.mem_of_getElem? hy)) (s2 d hd')
    · intro i x y hx hy
      rcases binop_bar (f := fun x y : Flt R => x + y) hl hx hy with h | ⟨d, hd', h⟩
      · exact Or.inl h
      · rw [h]; exact add_not_below (s1 x (List.mem_of_getElem? hx)) (s2 d hd')


/-! ## the directional index in double precision -/

theorem setFrom_at {xs : List (Flt R)} {n i : ℕ} {k : ℤ} {v : Flt R} (hv : (setFrom n (nan : Flt R) k xs)[i]? = some v) :
    v = nan ∨ (pyStart n k ≤ i ∧ xs[i - pyStart n k]? = some v) := by
  unfold setFrom at hv
  by_cases h : i < pyStart n k
  · rw [List.getElem?_append_left (by simpa using h), List.getElem?_replicate, if_pos h] at hv
    injection hv with hv
    exact Or.inl hv.symm
  · rw [List.getElem?_append_right (by simpa using h), List.length_replicate] at hv
    exact Or.inr ⟨by omega, hv⟩

theorem binopS_at {f : Flt R → Flt R → Flt R} {c : Flt R} {a : Line (Flt R)} {i : ℕ} {x v : Flt R} (ha : a.series[i]? = some x)
    (hv : (binopS f (nan : Flt R) a c).series[i]? = some v) : v = nan ∨ v = f x c := by
  rcases setFrom_at hv with h | ⟨h, hv⟩
  · exact Or.inl h
  · right
    rw [List.getElem?_map] at hv
    unfold pyFrom at hv
    rw [List.getElem?_drop, Nat.add_sub_cancel' h, ha] at hv
    injection hv with hv
    exact hv.symm

theorem mapOp_at {f : Flt R → Flt R} {a : Line (Flt R)} {i : ℕ} {x v : Flt R} (ha : a.series[i]? = some x)
    (hv : (mapOp f a).series[i]? = some v) : v = nan ∨ v = f x := by
  rcases setFrom_at hv with h | ⟨h, hv⟩
  · exact Or.inl h
  · right
    rw [List.getElem?_map] at hv
    unfold pyFrom at hv
    rw [List.getElem?_drop, Nat.add_sub_cancel' h, ha] at hv
    injection hv with hv
    exact hv.symm

theorem binop_at {f : Flt R → Flt R → Flt R} {a b : Line (Flt R)} {i : ℕ} {x y v : Flt R} (hl : a.series.length = b.series.length)
    (ha : a.series[i]? = some x) (hb : b.series[i]? = some y) (hv : (binop f (nan : Flt R) a b).series[i]? = some v) : v = nan ∨ v = f x y := by
  rcases setFrom_at hv with h | ⟨h, hv⟩
  · exact Or.inl h
  · right
    unfold pyFrom at hv
    rw [List.getElem?_zipWith, List.getElem?_drop, List.getElem?_drop, Nat.add_sub_cancel' h, ← hl, Nat.add_sub_cancel' h, ha, hb] at hv
    injection hv with hv
    exact hv.symm

/-- 100 * |a - b| / (a + b) of values which are not negative -/
theorem dx_value {a b : Flt binary64} (ha : NotNegative a) (hb : NotNegative b) {v : ℚ}
    (hv : ((lit 100 * absv (a - b)) / (a + b) : Flt binary64) = Ext.fin v) : 0 ≤ v ∧ v ≤ 100 + 1 / 2 ^ 46 := by
  have e2 : (lit 100 : Flt binary64) = Ext.fin 100 := binary64.fl_hundred
  have h0 : 0 ≤ v := by
    have : NotNegative ((lit 100 * absv (a - b)) / (a + b) : Flt binary64) :=
      nn_div (nn_mul (nn_lit (by norm_num)) (nn_absv _)) (nn_add ha hb)
    rw [hv] at this
    rcases this with h | h
    · exact nomatch h
    · exact Ext.le_fin'.mp h
  refine ⟨h0, ?_⟩
  rcases ha with rfl | ha
  · exfalso
    change binary64.round (Ext.div (binary64.round (Ext.mul (lit 100 : Flt binary64) Ext.nan)) _) = _ at hv
    rw [e2] at hv
    exact nomatch hv
  rcases hb with hb | hb
  · exfalso
    have : ∀ a : Ext ℚ, Ext.add a (Ext.neg .nan) = .nan := by intro a; cases a <;> rfl
    have e3 : (a - b : Flt binary64) = (nan : Flt binary64) := by subst hb; exact congrArg binary64.round (this a)
    rw [e2, e3] at hv
    exact nomatch hv
  have hinf : Ext.infSign (100 : ℚ) = .pinf := by decide +kernel
  rcases Ext.nonneg_cases ha with rfl | ⟨x, rfl, hx⟩ <;> rcases Ext.nonneg_cases hb with rfl | ⟨y, rfl, hy⟩
  · exfalso
    change binary64.round (Ext.div (binary64.round (Ext.mul (lit 100 : Flt binary64) Ext.nan)) _) = _ at hv
    rw [e2] at hv
    exact nomatch hv
  · exfalso
    change binary64.round (Ext.div (binary64.round (Ext.mul (lit 100 : Flt binary64) Ext.pinf)) Ext.pinf) = _ at hv
    rw [e2] at hv
    change binary64.round (Ext.div (binary64.round (Ext.infSign 100)) Ext.pinf) = _ at hv
    rw [hinf] at hv
    exact nomatch hv
  · exfalso
    change binary64.round (Ext.div (binary64.round (Ext.mul (lit 100 : Flt binary64) Ext.pinf)) Ext.pinf) = _ at hv
    rw [e2] at hv
    change binary64.round (Ext.div (binary64.round (Ext.infSign 100)) Ext.pinf) = _ at hv
    rw [hinf] at hv
    exact nomatch hv
  · have hle : Ext.Le (Ext.abs (fl64 (x + -y))) (fl64 (x + y)) := by
      have h1 : Ext.Le (fl64 (x + -y)) (fl64 (x + y)) := fl64_mono _ _ (by linarith)
      have h2 : Ext.Le (Ext.neg (fl64 (x + -y))) (fl64 (x + y)) := by rw [← fl64_neg]; exact fl64_mono _ _ (by linarith)
      cases hz : fl64 (x + -y) with
      | fin z =>
        rw [hz] at h1 h2
        show Ext.Le (.fin |z|) _
        rcases le_total 0 z with h | h
        · rw [abs_of_nonneg h]; exact h1
        · rw [abs_of_nonpos h]; exact h2
      | pinf => rw [hz] at h1; exact h1
      | ninf => rw [hz] at h2; exact h2
      | nan => rw [hz] at h1; exact absurd rfl (Ext.not_nan_of_le h1).1
    have hnn : Ext.Le (.fin 0) (Ext.abs (fl64 (x + -y))) := by
      rcases nn_absv (R := binary64) (fl64 (x + -y)) with h | h
      · change Ext.abs _ = _ at h; rw [h] at hle; exact absurd rfl (Ext.not_nan_of_le hle).1
      · exact h
    have h9 := (hnn.trans hle).neg
    rw [show Ext.neg (.fin (0 : ℚ)) = .fin 0 from by simp [Ext.neg]] at h9
    have := percent ⟨x + y, rfl⟩ (a := Ext.abs (fl64 (x + -y))) (b := fl64 (x + y)) (h9.trans hnn) hle hv
    exact this.2.1

/-- **C107** (what holds) the directional index: in double precision each finite value is from 0 to the number after 100. -/
theorem C107_dx_partial {sm : Line (Flt binary64) → Except Err (Line (Flt binary64))} (hs : SmoothsSign sm)
    (hlen : ∀ a r, sm a = .ok r → r.series.length = a.series.length)
    {h l c : Line (Flt binary64)} {n mh ml mc q : ℕ} {H L C : ℕ → Flt binary64} (hq : 1 ≤ q)
    (hh : RepW h n mh H) (hl : RepW l n ml L) (hc : RepW c n mc C) (bar : HighLow H L) (talib : Bool) {r : Line (Flt binary64)}
    (hr : dx sm q talib h l c = .ok r) : Between (fun _ => 0) (fun _ => 100 + 1 / 2 ^ 46) r := by
  simp only [dx, bind, Except.bind, pure, Except.pure] at hr
  split at hr
  · exact nomatch hr
  · rename_i a ha
    split at hr
    · exact nomatch hr
    · rename_i b hb
      injection hr with hr
      subst hr
      have h1 := nn_diStep hs hq hh hl hc bar talib (nn_dm1 q h l).1 ha
      have h2 := nn_diStep hs hq hh hl hc bar talib (nn_dm1 q h l).2 hb
      have lenStep : ∀ {z r : Line (Flt binary64)}, z.series.length = n →
          (do let m ← sm z; let trp ← diTrp sm q talib h l c; return (rmulS (lit 100) m).op (· / ·) nan (.holder trp)) = Except.ok r →
          r.series.length = n := by
        intro z r hz hr
        simp only [diTrp, bind, Except.bind, pure, Except.pure] at hr
        split at hr
        · exact nomatch hr
        · rename_i m hm
          cases ht : sm (truerange q h l c) with
          | error e => rw [ht] at hr; exact nomatch hr
          | ok t =>
            rw [ht] at hr
            injection hr with hr
            subst hr
            have k1 : (rmulS (lit 100) m).series.length = n := binopS_length.trans ((hlen _ _ hm).trans hz)
            have k2 : t.series.length = n := (hlen _ _ ht).trans (rep_truerange hq hh hl hc).len
            exact (binop_length (a := rmulS (lit 100) m) (b := ⟨t.series, t.minperiod + 1⟩) (k1.trans k2.symm)).trans k1
      have lh := hh.len
      have ll := hl.len
      have up := (rep_diff (s := q) hh).toRepW
      have dn := rep_binop (fill := (nan : Flt binary64)) (f := fun x y : Flt binary64 => x - y) (rep_ago hq hl).toRepW hl
      have lp : (pdm1 q h l).series.length = n := by
        have e1 : ((diff q h).clipLoS (lit 0)).series.length = n := (rep_clipLoS up (lit 0)).len
        have e2 : (gtL (diff q h) (ago (-(q : Int)) l - l)).series.length = n := by
          have : (diff q h).series.length = (ago (-(q : Int)) l - l).series.length := up.len.trans dn.len.symm
          exact (binop_length this).trans up.len
        exact (binop_length (e1.trans e2.symm)).trans e1
      have lm : (mdm1 q h l).series.length = n := by
        have e1 : ((ago (-(q : Int)) l - l).clipLoS (lit 0)).series.length = n := (rep_clipLoS dn.toRepW (lit 0)).len
        have e2 : (gtL (ago (-(q : Int)) l - l) (diff q h)).series.length = n := by
          have : (ago (-(q : Int)) l - l).series.length = (diff q h).series.length := dn.len.trans up.len.symm
          exact (binop_length this).trans dn.len
        exact (binop_length (e1.trans e2.symm)).trans e1
      have la : a.series.length = n := lenStep lp ha
      have lb : b.series.length = n := lenStep lm hb
      have l1 : (a - b).series.length = n := (binop_length (la.trans lb.symm)).trans la
      have l2 : (a - b).abs.series.length = n := (stdop_length fun xs => List.length_map _).trans l1
      have l3 : (rmulS (lit 100) (a - b).abs).series.length = n := binopS_length.trans l2
      have l4 : (a + b).series.length = n := (binop_length (la.trans lb.symm)).trans la
      have l5 : ((rmulS (lit 100) (a - b).abs) / (a + b)).series.length = n := (binop_length (l3.trans l4.symm)).trans l3
      intro i v x hv e
      subst e
      have hi : i < n := by rw [← l5]; exact (List.getElem?_eq_some_iff.mp hv).1
      have get : ∀ (s : Line (Flt binary64)), s.series.length = n → ∃ x, s.series[i]? = some x := fun s hs =>
        ⟨_, List.getElem?_eq_getElem (by rw [hs]; exact hi)⟩
      obtain ⟨xa, ga⟩ := get a la
      obtain ⟨xb, gb⟩ := get b lb
      obtain ⟨x1, g1⟩ := get _ l1
      obtain ⟨x2, g2⟩ := get _ l2
      obtain ⟨x3, g3⟩ := get _ l3
      obtain ⟨x4, g4⟩ := get _ l4
      have e5 := binop_at (f := fun x y : Flt binary64 => x / y) (l3.trans l4.symm) g3 g4 hv
      have e4 := binop_at (f := fun x y : Flt binary64 => x + y) (la.trans lb.symm) ga gb g4
      have e3 := binopS_at (f := fun x c : Flt binary64 => c * x) g2 g3
      have e2 := mapOp_at (f := absv) g1 g2
      have e1 := binop_at (f := fun x y : Flt binary64 => x - y) (la.trans lb.symm) ga gb g1
      have n100 : (lit 100 : Flt binary64) = Ext.fin 100 := binary64.fl_hundred
      have nd : ∀ y : Flt binary64, ((nan : Flt binary64) / y : Flt binary64) = nan := fun y => by cases y <;> rfl
      have dn' : ∀ y : Flt binary64, (y / (nan : Flt binary64) : Flt binary64) = nan := fun y => by cases y <;> rfl
      have nm : (lit 100 * (nan : Flt binary64) : Flt binary64) = nan := by rw [n100]; rfl
      rcases e5 with e5 | e5
      · exact nomatch e5
      rcases e4 with e4 | e4
      · rw [e4] at e5; exact nomatch e5.trans (dn' _)
      rcases e3 with e3 | e3
      · rw [e3] at e5; exact nomatch e5.trans (nd _)
      rcases e2 with e2 | e2
      · rw [e3, e2] at e5; exact nomatch (e5.trans (congrArg (fun w : Flt binary64 => w / x4) nm)).trans (nd _)
      rcases e1 with e1 | e1
      · rw [e3, e2, e1] at e5
        exact nomatch (e5.trans (congrArg (fun w : Flt binary64 => w / x4) nm)).trans (nd _)
      rw [e3, e2, e1, e4] at e5
      exact dx_value (h1 xa (List.mem_of_getElem? ga)) (h2 xb (List.mem_of_getElem? gb)) e5.symm


/-! ## cases which meet the hypotheses -/

/-- prices with two decimals, as read to double precision: highs, lows, closes -/
def spH : ℕ → Flt binary64 := fun i => fl64 ([101/10, 1031/100, 1042/100, 1037/100, 1066/100, 1071/100].getD i 10)
def spL : ℕ → Flt binary64 := fun i => fl64 ([99/10, 1003/100, 1011/100, 1009/100, 1021/100, 1044/100].getD i 10)
def spC : ℕ → Flt binary64 := fun i => fl64 ([1003/100, 1027/100, 1013/100, 1033/100, 1055/100, 1049/100].getD i 10)
def spLine (f : ℕ → Flt binary64) : Line (Flt binary64) := ⟨(List.range 6).map f, 1⟩

example : HighLow spH spL := by
  intro i
  refine Or.inr (Or.inr (fl64_mono _ _ ?_))
  by_cases h : i < 6
  · interval_cases i <;> decide +kernel
  · have e : ∀ xs : List ℚ, xs.length = 6 → xs.getD i 10 = 10 := fun xs hx => by
      rw [List.getD_eq_getElem?_getD, List.getElem?_eq_none (by omega)]; rfl
    rw [e _ rfl, e _ rfl]
example : SmoothsSign (smacc true false .sum 3 : Line (Flt binary64) → _) := (smoothsSign (by norm_num) true false .sum).1
example : GivesStored (sma : MA (Flt binary64)) 3 := (givesStored (by norm_num) .avg 0).1
/-- the directional index of these prices has values -/
example : ∃ r, dx (smacc true false .sum 3) 1 false (spLine spH) (spLine spL) (spLine spC) = .ok r ∧
    ((r.series.map fun v => ((v : Ext ℚ) != Ext.nan))) = [false, false, false, false, true, true] := ⟨_, rfl, by decide +kernel⟩

/-- the true range of the second bar is the distance to the previous close, 10.31 - 10.03, as rounded -/
example : (truerange 1 (spLine spH) (spLine spL) (spLine spC)).series[1]? = some (spH 1 - spC 0 : Flt binary64) := by decide +kernel
/-- bands with a square root which is not negative -/
example : ∃ m t b, bbands (fun v : Flt binary64 => clipLo v (lit 0)) sma (lit 2) 3 (spLine spC) = .ok (m, t, b) ∧
    (t.series.map fun v => ((v : Ext ℚ) != Ext.nan)) = [false, false, true, true, true, true] := ⟨_, _, _, rfl, by decide +kernel⟩
example : (∀ v : Flt binary64, NotNegative (clipLo v (lit 0) : Flt binary64)) ∧ Stored (spLine spC) :=
  ⟨nn_clipLo, by
    intro x hx q e
    obtain ⟨i, _, rfl⟩ := List.mem_map.mp (show x ∈ (List.range 6).map spC from hx)
    exact binary64.idem _ _ e⟩

end Bta
