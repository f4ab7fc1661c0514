import Verif.Lemmas.Mirror4

/-!
# The parabolic stop, Williams' %R, %K and the relative strength index upside down
-/

set_option linter.unusedSectionVars false
set_option linter.unusedVariables false

namespace Bta
open Line
open _root_.Spec (neg)

variable {K : Type} [Field K] [LinearOrder K] [IsStrictOrderedRing K]

namespace Mi
open Un (map_ok)

/-- the loop variables upside down -/
def sarSt (s : Ind.SarSt (Ext K)) : Ind.SarSt (Ext K) := ⟨!s.trend, -s.sar, -s.ep, s.af, -s.lo, -s.hi⟩

theorem max3 (x y z : Ext K) : Ind.max3 (-x) (-y) (-z) = -Ind.min3 x y z := by
  simp only [Ind.max3, Ind.min3, Sg.ng_maxV]

theorem min3 (x y z : Ext K) : Ind.min3 (-x) (-y) (-z) = -Ind.max3 x y z := by
  simp only [Ind.max3, Ind.min3, Sg.ng_minV]

theorem sarStep (AF AM : Ext K) (s : Ind.SarSt (Ext K)) (h l : Ext K) :
    Ind.sarStep AF AM (sarSt s) (-l) (-h) = (-(Ind.sarStep AF AM s h l).1, sarSt (Ind.sarStep AF AM s h l).2) := by
  simp only [Ind.sarStep, sarSt, Ext.ng_le, Ext.ng_lt]
  cases s.trend
  · simp only [Bool.not_false, if_true, Bool.false_eq_true, if_false]
    cases le s.sar h
    · cases lt l s.ep <;>
        simp only [Bool.false_eq_true, if_false, if_true, Ext.ng_sub, Ext.ng_cmul, Ext.ng_add, min3, Bool.not_false]
    · simp only [if_true, Ext.ng_sub, Ext.ng_cmul, Ext.ng_add, max3, Bool.not_true]
  · simp only [if_true, Bool.not_true, Bool.false_eq_true, if_false]
    cases le l s.sar
    · cases lt s.ep h <;>
        simp only [Bool.false_eq_true, if_false, if_true, Ext.ng_sub, Ext.ng_cmul, Ext.ng_add, max3, Bool.not_true]
    · simp only [if_true, Ext.ng_sub, Ext.ng_cmul, Ext.ng_add, min3, Bool.not_false]

/-- a bar upside down -/
def ngP (q : Ext K × Ext K) : Ext K × Ext K := (-q.2, -q.1)

theorem sarGo (AF AM : Ext K) : ∀ (xs : List (Ext K × Ext K)) (s : Ind.SarSt (Ext K)),
    Ind.sarGo AF AM (sarSt s) (xs.map ngP) = (Ind.sarGo AF AM s xs).map (fun x => -x)
  | [], _ => rfl
  | (h, l) :: xs, s => by
    simp only [List.map_cons, ngP, Ind.sarGo, sarStep]
    rw [← sarGo AF AM xs]

theorem sarInit (AF : Ext K) {hi1 lo1 hi lo : K} (hd : 0 < hi - hi1 ∧ lo1 - lo < hi - hi1 ∨ 0 < lo1 - lo ∧ hi - hi1 < lo1 - lo) :
    Ind.sarInit AF (-(Ext.fin lo1)) (-(Ext.fin hi1)) (-(Ext.fin lo)) (-(Ext.fin hi)) =
      sarSt (Ind.sarInit AF (.fin hi1) (.fin lo1) (.fin hi) (.fin lo)) := by
  have key : ∀ u d : K, lt (lit 0) (maxV (Ext.fin d) (lit 0) * ofBool (lt (Ext.fin u) (Ext.fin d)) : Ext K) = decide (0 < d ∧ u < d) := by
    intro u d
    simp only [Ext.lit_def, maxV, Ext.lt_fin, ofBool]
    by_cases h1 : d < 0
    · simp [h1, not_lt.mpr h1.le]
    · by_cases h2 : u < d
      · simp [h1, h2]
      · simp [h1, h2]
  have e1 : (-(Ext.fin lo) - -(Ext.fin lo1) : Ext K) = Ext.fin (lo1 - lo) := by rw [Ext.ng_sub']; simp
  have e2 : (-(Ext.fin hi1) - -(Ext.fin hi) : Ext K) = Ext.fin (hi - hi1) := by rw [Ext.ng_sub']; simp
  have e3 : ((Ext.fin lo1) - (Ext.fin lo) : Ext K) = Ext.fin (lo1 - lo) := by simp
  have e4 : ((Ext.fin hi) - (Ext.fin hi1) : Ext K) = Ext.fin (hi - hi1) := by simp
  simp only [Ind.sarInit, e1, e2, e3, e4, key]
  rcases hd with ⟨h1, h2⟩ | ⟨h1, h2⟩
  · have n : ¬ (0 < lo1 - lo ∧ hi - hi1 < lo1 - lo) := fun h => absurd h.2 (not_lt.mpr h2.le)
    simp only [decide_eq_true (And.intro h1 h2), decide_eq_false n]
    rfl
  · have n : ¬ (0 < hi - hi1 ∧ lo1 - lo < hi - hi1) := fun h => absurd h.2 (not_lt.mpr h2.le)
    simp only [decide_eq_true (And.intro h1 h2), decide_eq_false n]
    rfl

theorem sarize (AF AM : Ext K) {hi1 lo1 hi lo : K} (hd : 0 < hi - hi1 ∧ lo1 - lo < hi - hi1 ∨ 0 < lo1 - lo ∧ hi - hi1 < lo1 - lo)
    (xs : List (Ext K × Ext K)) :
    Ind.sarize AF AM (((.fin hi1, .fin lo1) :: (.fin hi, .fin lo) :: xs).map ngP) =
      (Ind.sarize AF AM ((.fin hi1, .fin lo1) :: (.fin hi, .fin lo) :: xs)).map (List.map (fun x => -x)) := by
  simp only [List.map_cons, ngP, Ind.sarize, sarInit AF hd, map_ok]
  have := sarGo AF AM ((.fin hi, .fin lo) :: xs) (Ind.sarInit AF (.fin hi1) (.fin lo1) (.fin hi) (.fin lo))
  simp only [List.map_cons, ngP] at this
  rw [this]; rfl

theorem zip_swap {α β : Type} (f : α → β) : ∀ (xs ys : List α), List.zip (ys.map f) (xs.map f) = (List.zip xs ys).map fun q => (f q.2, f q.1)
  | [], ys => by cases ys <;> rfl
  | x :: xs, [] => rfl
  | x :: xs, y :: ys => by simp [zip_swap f xs ys]

theorem sar (AF AM : Ext K) {n : ℕ} {h l : Line (Ext K)} (hh : B n h) (hl : B n l) (hd : Spec.directed h l) :
    Ind.sar AF AM (neg l) (neg h) = (Ind.sar AF AM h l).map neg := by
  obtain ⟨_, ⟨hp, _, _⟩, hln, _⟩ := hh
  obtain ⟨_, ⟨lp, _, _⟩, lln, _⟩ := hl
  obtain ⟨hi1, lo1, hi, lo, h1, h2, h3, h4, hd⟩ := hd
  unfold Ind.sar Ind.applySar
  generalize hM : max h.minperiod l.minperiod = M at h1 h2 h3 h4 ⊢
  have hM1 : 1 ≤ M := by omega
  have hM' : max (neg l).minperiod (neg h).minperiod = M := by rw [← hM]; exact max_comm _ _
  have hz : List.zip (pyFrom (neg l).series (M - 1)) (pyFrom (neg h).series (M - 1)) =
      (List.zip (pyFrom h.series (M - 1)) (pyFrom l.series (M - 1))).map ngP := by
    simp only [Spec.neg, pyFrom_map]; exact zip_swap _ _ _
  have two : ∀ {s : List (Ext K)} {x y : Ext K}, s.length = n → s[(M - 1).toNat]? = some x → s[(M - 1).toNat + 1]? = some y →
      ∃ t, pyFrom s (M - 1) = x :: y :: t := by
    intro s x y hs hx hy
    obtain ⟨b1, e1⟩ := List.getElem?_eq_some_iff.mp hx
    obtain ⟨b2, e2⟩ := List.getElem?_eq_some_iff.mp hy
    have : pyStart s.length (M - 1) = (M - 1).toNat := by unfold pyStart; split <;> omega
    refine ⟨s.drop ((M - 1).toNat + 2), ?_⟩
    unfold pyFrom
    rw [this, List.drop_eq_getElem_cons b1, e1, List.drop_eq_getElem_cons b2, e2]
  obtain ⟨t1, e1⟩ := two hln h1 h3
  obtain ⟨t2, e2⟩ := two lln h2 h4
  simp only [hM', hz]
  rw [e1, e2, List.zip_cons_cons, List.zip_cons_cons, sarize AF AM hd]
  cases Ind.sarize AF AM ((.fin hi1, .fin lo1) :: (.fin hi, .fin lo) :: List.zip t1 t2) with
  | error e => rfl
  | ok r =>
    simp only [Except.map]
    congr 1
    rw [← period]
    congr 1
    simp only [Spec.neg, clone, List.length_map, hln, lln]
    rw [← setFrom_map, if_neg (by omega), if_neg (by omega)]; rfl

variable {n : ℕ} {h l c : Line (Ext K)}

theorem neg100 (x : Ext K) : (lit (-100) : Ext K) * x = -(lit 100 * x) := by
  rw [← Ext.ng_mulc]; simp

theorem rmulS_neg100 (a : Line (Ext K)) : Line.rmulS (lit (-100)) a = neg (Line.rmulS (lit 100) a) := by
  have := lmap_binopS (σ := fun x : Ext K => x) (ρ := fun x : Ext K => -x) (c := (lit 100 : Ext K)) (c' := (lit (-100) : Ext K))
    (f := fun x c => c * x) (f' := fun x c => c * x) (fill := PyFloat.nan) (fill' := PyFloat.nan) rfl neg100 a
  rw [lmap_id] at this; exact this

theorem hiB (hh : B n h) {p : ℕ} (hp : 1 ≤ p) : B n (Ind.highest p h) := (barsRel (Ext K) n).rolling hp hh
theorem loB (hl : B n l) {p : ℕ} (hp : 1 ≤ p) : B n (Ind.lowest p l) := (barsRel (Ext K) n).rolling hp hl

theorem williamsr (hh : B n h) (hl : B n l) (hc : B n c) {p : ℕ} (hp : 1 ≤ p) :
    Ind.williamsr p (neg l) (neg h) (neg c) = neg (Line.rmulS (lit 100) (c - Ind.lowest p l) / (Ind.highest p h - Ind.lowest p l)) := by
  simp only [Ind.williamsr, highest, lowest, sub, rmulS_neg100]
  rw [subSwap (loB hl hp) hc, subSwap (loB hl hp) (hiB hh hp), divL]

theorem fastK (hh : B n h) (hl : B n l) (hc : B n c) {p : ℕ} (hp : 1 ≤ p) :
    Line.rmulS (lit 100) (neg c - Ind.lowest p (neg h)) / (Ind.highest p (neg l) - Ind.lowest p (neg h)) = neg (Ind.williamsr p h l c) := by
  simp only [Ind.williamsr, highest, lowest, sub, rmulS_neg100]
  rw [subSwap hc (hiB hh hp), subSwap (loB hl hp) (hiB hh hp), divL, neg_neg]

/-- the relative strength from the two averages -/
def rsiOf (u d : Ext K) : Ext K := lit 100 - lit 100 / (lit 1 + u / d)

theorem rsiOf_inf {u d : Ext K} (h : u / d = .pinf ∨ u / d = .ninf) : rsiOf u d = .fin 100 := by
  rcases h with h | h
  · rw [rsiOf, h]; show Ext.fin _ - Ext.fin 0 = _; simp
  · rw [rsiOf, h]; show Ext.fin _ - Ext.fin 0 = _; simp

theorem rsiOf_zero {u d : Ext K} (h : u / d = .fin 0) : rsiOf u d = .fin 0 := by
  have : (lit 100 : Ext K) / (lit 1 + .fin 0) = .fin 100 := by
    simp only [Ext.lit_def, Ext.fin_add]
    rw [Ext.fin_div _ (by simp)]; simp
  rw [rsiOf, h, this]; simp

theorem rsiOf_nan {u d : Ext K} (h : u / d = .nan) : rsiOf u d = .nan := by rw [rsiOf, h]; rfl

theorem rsiOf_fin {a b : K} (hb : b ≠ 0) (hab : a + b ≠ 0) : rsiOf (.fin a) (.fin b) = .fin (100 * (a / (a + b))) := by
  have h1 : (1 + a / b) ≠ 0 := by intro h; apply hab; field_simp at h; linarith
  simp only [rsiOf, Ext.lit_def, Ext.fin_div _ hb, Ext.fin_add]
  rw [Ext.fin_div _ (by push_cast; exact h1)]
  simp only [Ext.fin_sub]
  push_cast
  congr 1
  have h2 : b + a ≠ 0 := by rwa [add_comm]
  rw [show 1 + a / b = (a + b) / b from by field_simp; ring]
  field_simp
  ring

/-- exchanging the averages gives the complement to 100 of what is finite, and what is not finite it leaves -/
theorem rsiOf_swap (u d : Ext K) :
    (∃ v, rsiOf u d = .fin v ∧ rsiOf d u = .fin (100 - v)) ∨ (¬ isFin (rsiOf u d) = true ∧ rsiOf d u = rsiOf u d) := by
  have nn : ∀ {u d : Ext K}, u / d = .nan → d / u = .nan → (¬ isFin (rsiOf u d) = true ∧ rsiOf d u = rsiOf u d) := by
    intro u d h1 h2
    rw [rsiOf_nan h1, rsiOf_nan h2]; exact ⟨by simp [isFin], rfl⟩
  have iz : ∀ {u d : Ext K}, (u / d = .pinf ∨ u / d = .ninf) → d / u = .fin 0 → (∃ v, rsiOf u d = .fin v ∧ rsiOf d u = .fin (100 - v)) := by
    intro u d h1 h2
    exact ⟨100, rsiOf_inf h1, by rw [rsiOf_zero h2, sub_self]⟩
  have zi : ∀ {u d : Ext K}, u / d = .fin 0 → (d / u = .pinf ∨ d / u = .ninf) → (∃ v, rsiOf u d = .fin v ∧ rsiOf d u = .fin (100 - v)) := by
    intro u d h1 h2
    exact ⟨0, rsiOf_zero h1, by rw [rsiOf_inf h2, sub_zero]⟩
  have pf : ∀ x : K, (Ext.pinf / Ext.fin x : Ext K) = .pinf ∨ (Ext.pinf / Ext.fin x : Ext K) = .ninf := by
    intro x; rw [Ext.pinf_div_fin]; split <;> simp
  have nf : ∀ x : K, (Ext.ninf / Ext.fin x : Ext K) = .pinf ∨ (Ext.ninf / Ext.fin x : Ext K) = .ninf := by
    intro x; rw [Ext.ninf_div_fin]; split <;> simp
  have f0 : ∀ x : K, x ≠ 0 → (Ext.fin x / Ext.fin 0 : Ext K) = .pinf ∨ (Ext.fin x / Ext.fin 0 : Ext K) = .ninf := by
    intro x hx
    rw [Ext.fin_div_zero, Ext.infSign]
    rcases lt_trichotomy x 0 with h | h | h
    · right; simp [h, h.not_gt]
    · exact absurd h hx
    · left; simp [h]
  cases u with
  | nan => right; exact nn (by simp) (by simp)
  | pinf =>
    cases d with
    | fin d => left; exact iz (pf d) rfl
    | _ => right; exact nn rfl rfl
  | ninf =>
    cases d with
    | fin d => left; exact iz (nf d) rfl
    | _ => right; exact nn rfl rfl
  | fin u =>
    cases d with
    | nan => right; exact nn (by simp) (by simp)
    | pinf => left; exact zi rfl (pf u)
    | ninf => left; exact zi rfl (nf u)
    | fin d =>
      by_cases hu : u = 0
      · subst hu
        by_cases hd : d = 0
        · subst hd; right; exact nn (by simp [Ext.infSign]) (by simp [Ext.infSign])
        · left; exact zi (by rw [Ext.fin_div _ hd, zero_div]) (f0 d hd)
      · by_cases hd : d = 0
        · subst hd; left; exact iz (f0 u hu) (by rw [Ext.fin_div _ hu, zero_div])
        · by_cases h : u + d = 0
          · right
            have e : ∀ a b : K, b ≠ 0 → a + b = 0 → rsiOf (.fin a) (.fin b) = .ninf := by
              intro a b hb hab
              have : a / b = -1 := by rw [div_eq_iff hb]; linarith
              simp only [rsiOf, Ext.lit_def, Ext.fin_div _ hb, Ext.fin_add, this]
              simp [Ext.infSign]
              rfl
            rw [e u d hd h, e d u hu (by linarith)]
            exact ⟨by simp [isFin], rfl⟩
          · left
            refine ⟨_, rsiOf_fin hd h, ?_⟩
            rw [rsiOf_fin hu (by rwa [add_comm])]
            congr 1
            rw [add_comm d u]
            field_simp
            ring

theorem rsi {ma : MA (Ext K)} {q p : ℕ} {a : Line (Ext K)} (ha : B n a)
    (hm : ∀ b, B n b → RE (barsRel (Ext K) n).rv (ma p b) (ma p b)) {r : Line (Ext K)} (hr : Ind.rsi ma q p a = .ok r) :
    ∃ r', Ind.rsi ma q p (neg a) = .ok r' ∧ r'.minperiod = r.minperiod ∧ r'.series.length = r.series.length ∧
      ∀ i, i < n → ((∃ v, r.series[i]? = some (.fin v) ∧ r'.series[i]? = some (.fin (100 - v))) ∨
        ((∀ v, r.series[i]? ≠ some (.fin v)) ∧ r'.series[i]? = r.series[i]?)) := by
  have bd : B n (Line.diff q a) := (barsRel (Ext K) n).diff ha
  obtain ⟨u, hu, hr⟩ := bind_ok hr
  obtain ⟨d, hd, hr⟩ := bind_ok hr
  injection hr with hr
  have bu := bOf (hm _ (LRel.clipLoS (R := barsRel (Ext K) n) bd)) hu
  have bd' := bOf (hm _ (LRel.abs (R := barsRel (Ext K) n) (LRel.clipHiS bd))) hd
  obtain ⟨m, g, ru⟩ := bu.rep
  obtain ⟨m', g', rd⟩ := bd'.rep
  have R : ∀ {u d : Line (Ext K)} {m m' : ℕ} {g g' : ℕ → Ext K}, RepW u n m g → RepW d n m' g' →
      Rep nan (rsubS (lit 100) (rdivS (lit 100) (raddS (lit 1) (u / d)))) n (max m m') (fun i => rsiOf (g i) (g' i)) :=
    fun ru rd => rep_rsubS (rep_rdivS (rep_raddS (rep_div ru rd).toRepW _).toRepW _).toRepW _
  have r1 := R ru rd
  have r2 := R rd ru
  rw [hr] at r1
  refine ⟨rsubS (lit 100) (rdivS (lit 100) (raddS (lit 1) (d / u))), ?_, ?_, ?_, ?_⟩
  · unfold Ind.rsi
    simp only [diff, clipLo' bd, absClip' bd, hu, hd]
    rfl
  · rw [r1.mp, r2.mp, max_comm]
  · rw [r1.len, r2.len]
  · intro i hi
    by_cases h : max m m' ≤ i + 1
    · rw [r1.val i h hi, r2.val i (by omega) hi]
      rcases rsiOf_swap (g i) (g' i) with ⟨v, h1, h2⟩ | ⟨h1, h2⟩
      · exact Or.inl ⟨v, by rw [h1], by rw [h2]⟩
      · refine Or.inr ⟨fun v hv => h1 ?_, by rw [h2]⟩
        rw [Option.some.inj hv]; rfl
    · rw [r1.pre i (by omega) hi, r2.pre i (by omega) hi]
      exact Or.inr ⟨fun v hv => (by simp at hv), rfl⟩

end Mi
end Bta
