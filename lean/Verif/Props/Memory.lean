import Verif.Lemmas.Fading
import Verif.Props.Kama

/-!
# C101, C102: averages follow their input, and forget how it began

`Spec.Follows` and `Spec.Forgets` (Spec/Memory.lean) are statements about two inputs of the same indicator.
-/

set_option linter.unusedSectionVars false
set_option linter.unusedVariables false

namespace Bta
open Line Ext

variable {K : Type} [Field K] [LinearOrder K] [IsStrictOrderedRing K]

/-! ## C101 -/

theorem follows_of {f : Line (Ext K) → Except Err (Line (Ext K))} {Φ : (ℕ → K) → ℕ → ℕ → K} {e : ℕ}
    (hf : ∀ (a : Line (Ext K)) (n m : ℕ) (x : ℕ → K), Holds a n m x → m + e ≤ n →
      Gives (f a) fun r => Shows r n (m + e) (Φ x (m - 1)))
    (h : ∀ (x y : ℕ → K) (b i : ℕ), b + e ≤ i → (∀ j, b ≤ j → j ≤ i → x j ≤ y j) → Φ x b i ≤ Φ y b i) :
    Spec.Follows f e := by
  intro a a' n m x x' ha ha' hn
  have := ha.pos
  obtain ⟨r, h1, h2⟩ := hf a n m x ha hn
  obtain ⟨r', h1', h2'⟩ := hf a' n m x' ha' hn
  exact ⟨r, r', h1, h1', fun i hi hin hx => ⟨_, _, h2.val i hi hin, h2'.val i hi hin,
    h x x' (m - 1) i (by omega) fun j h3 h4 => hx j (by omega) h4⟩⟩

/-- **C101** sma -/
theorem C101_sma {p : ℕ} (hp : 1 ≤ p) : Spec.Follows (Ind.sma p : Line (Ext K) → _) (p - 1) :=
  follows_of (fun a n m x ha hn => sma_isMA p hp a n m x ha hn) (smaF_mono p hp)
/-- **C101** wma -/
theorem C101_wma {p : ℕ} (hp : 1 ≤ p) : Spec.Follows (Ind.wma p : Line (Ext K) → _) (p - 1) :=
  follows_of (fun a n m x ha hn => wma_isMA p hp a n m x ha hn) (wmaF_mono p hp)
/-- **C101** trima -/
theorem C101_trima {p : ℕ} (hp : 1 ≤ p) : Spec.Follows (Ind.trima p : Line (Ext K) → _) (p - 1) :=
  follows_of (fun a n m x ha hn => trima_isMA p hp a n m x ha hn) (trimaF_mono p hp)
/-- **C101** ema -/
theorem C101_ema {p : ℕ} (hp : 1 ≤ p) : Spec.Follows (Ind.ema p : Line (Ext K) → _) (p - 1) :=
  follows_of (fun a n m x ha hn => ema_isMA p hp a n m x ha hn) (emaF_mono p hp)
/-- **C101** smma -/
theorem C101_smma {p : ℕ} (hp : 1 ≤ p) : Spec.Follows (Ind.smma p : Line (Ext K) → _) (p - 1) :=
  follows_of (fun a n m x ha hn => smma_isMA p hp a n m x ha hn) (smmaF_mono p hp)
/-- **C101** rolling sum -/
theorem C101_sum {p : ℕ} (hp : 1 ≤ p) : Spec.Follows (fun a : Line (Ext K) => .ok (Ind.sumN p a)) (p - 1) :=
  follows_of (Φ := sumF p) (fun a n m x ha hn => Gives.ok (shows_congr (ha.rollSum hp) (by omega) fun _ _ _ => rfl))
    (sumF_mono p hp)
/-- **C101** rolling maximum -/
theorem C101_max {p : ℕ} (hp : 1 ≤ p) : Spec.Follows (fun a : Line (Ext K) => .ok (Ind.highest p a)) (p - 1) := by
  refine follows_of (Φ := fun x _ i => Spec.winMax x p i)
    (fun a n m x ha hn => Gives.ok (shows_congr (ha.rollMax hp) (by omega) fun _ _ _ => rfl)) fun x y b i hi h => ?_
  obtain ⟨j, hj, e⟩ := (Spec.winMax_isGreatest x hp i).1
  exact le_trans (le_of_eq e) (le_trans (h _ (by omega) (by omega)) ((Spec.winMax_isGreatest y hp i).2 ⟨j, hj, rfl⟩))
/-- **C101** rolling minimum -/
theorem C101_min {p : ℕ} (hp : 1 ≤ p) : Spec.Follows (fun a : Line (Ext K) => .ok (Ind.lowest p a)) (p - 1) := by
  refine follows_of (Φ := fun x _ i => Spec.winMin x p i)
    (fun a n m x ha hn => Gives.ok (shows_congr (ha.rollMin hp) (by omega) fun _ _ _ => rfl)) fun x y b i hi h => ?_
  obtain ⟨j, hj, e⟩ := (Spec.winMin_isLeast y hp i).1
  exact le_trans ((Spec.winMin_isLeast x hp i).2 ⟨j, hj, rfl⟩) (le_trans (h _ (by omega) (by omega)) (le_of_eq e.symm))

/-- two series of prices which differ in the first bar only -/
def raised (n : ℕ) (v : ℚ) : Line (Ext ℚ) := bars n fun i => if i = 0 then v else 0

theorem not_follows {f : Line (Ext ℚ) → Except Err (Line (Ext ℚ))} {e n : ℕ} {x x' : ℕ → ℚ} {i : ℕ}
    {v v' : ℚ} (hx : ∀ j, x j ≤ x' j) (hn : 1 + e ≤ n) (hi : e ≤ i) (hin : i < n)
    (h1 : (f (bars n x)).map (·.series[i]?) = .ok (some (.fin v))) (h2 : (f (bars n x')).map (·.series[i]?) = .ok (some (.fin v')))
    (hv : v' < v) : ¬ Spec.Follows f e := by
  intro h
  obtain ⟨r, r', e1, e2, h⟩ := h _ _ n 1 x x' (bars_holds n x) (bars_holds n x') hn
  obtain ⟨w, w', g1, g2, g3⟩ := h i (by omega) hin fun j _ _ => hx j
  rw [e1] at h1
  rw [e2] at h2
  simp only [Except.map, Except.ok.injEq] at h1 h2
  rw [g1, Option.some.injEq, Ext.fin.injEq] at h1
  rw [g2, Option.some.injEq, Ext.fin.injEq] at h2
  rw [h1, h2] at g3
  exact absurd g3 (not_le.mpr hv)

theorem raised_le (j : ℕ) : (if j = 0 then (0 : ℚ) else 0) ≤ if j = 0 then 1 else 0 := by
  split <;> norm_num

/-- **C101** (counterpart): the averages which compensate for their lag do not follow - a higher first price gives a
lower dema(2) three bars later. -/
theorem C101_not_dema : ¬ Spec.Follows (Ind.dema Ind.ema 2 : Line (Ext ℚ) → _) 2 :=
  not_follows (n := 4) (i := 3) (v := 0) (v' := -1/27) raised_le (by omega) (by omega) (by omega) (by decide +kernel)
    (by decide +kernel) (by norm_num)
/-- **C101** (counterpart): tema -/
theorem C101_not_tema : ¬ Spec.Follows (Ind.tema Ind.ema 2 : Line (Ext ℚ) → _) 3 :=
  not_follows (n := 4) (i := 3) (v := 0) (v' := -1/27) raised_le (by omega) (by omega) (by omega) (by decide +kernel)
    (by decide +kernel) (by norm_num)
/-- **C101** (counterpart): t3 with its default volume factor 0.7 -/
theorem C101_not_t3 : ¬ Spec.Follows (Ind.t3 (.fin (7/10)) 2 : Line (Ext ℚ) → _) 6 :=
  not_follows (n := 7) (i := 6) (v := 0) (v' := -151147/9841500) raised_le (by omega) (by omega) (by omega)
    (by decide +kernel) (by decide +kernel) (by norm_num)
/-- **C101** (counterpart): kama with its default fast and slow - a higher price makes the market look noisy -/
theorem C101_not_kama : ¬ Spec.Follows (Ind.kama (.fin 2) (.fin 30) 1 .avg 2 : Line (Ext ℚ) → _) 2 :=
  not_follows (x := fun i => if i = 3 then 100 else if i = 1 then 0 else 1)
    (x' := fun i => if i = 3 then 100 else if i = 1 then 50 else 1) (n := 4) (i := 3)
    (v := 257875/5766) (v' := 233294124785/7585801494) (fun j => by split <;> [norm_num; (split <;> norm_num)]) (by omega) (by omega) (by omega)
    (by decide +kernel) (by decide +kernel) (by norm_num)

/-- C101, a case: 1, 2, 4 and 1, 3, 4 -/
example : Ind.ema 2 (ofSeries [.fin 1, .fin 2, (.fin 4 : Ext ℚ)]) = .ok ⟨[.nan, .fin (3/2), .fin (19/6)], 2⟩ ∧
    Ind.ema 2 (ofSeries [.fin 1, .fin 3, (.fin 4 : Ext ℚ)]) = .ok ⟨[.nan, .fin 2, .fin (10/3)], 2⟩ := by decide +kernel

/-! ## C102 -/

theorem geometric_of {f : MA (Ext K)} {p : ℕ} {al : K} (hp : 1 ≤ p)
    (hf : ∀ (a : Line (Ext K)) (n m : ℕ) (x : ℕ → K), Holds a n m x → m + (p - 1) ≤ n →
      Gives (f p a) fun r => Shows r n (m + (p - 1)) fun i => _root_.Spec.expAvg al x (m - 1) p i) :
    _root_.Spec.Geometric (f p) (p - 1) al := by
  intro a a' n n' m m' x x' s d ha ha' hn hn' hs hs' hx
  have := ha.pos
  have := ha'.pos
  obtain ⟨r, h1, h2⟩ := hf a n m x ha hn
  obtain ⟨r', h1', h2'⟩ := hf a' n' m' x' ha' hn'
  refine ⟨r, r', h1, h1', fun k hk hk' => ⟨_, _, _, _, h2.val _ (by omega) (by omega), h2'.val _ (by omega) (by omega),
    h2.val _ (by omega) hk, h2'.val _ (by omega) hk', ?_⟩⟩
  exact expAvg_diff al (by omega) (by omega) k fun j h3 h4 => hx j h3 (by omega) (by omega)

/-- **C102** ema: the influence of everything before shrinks by `1 - 2/(p+1)` with each bar -/
theorem C102_ema_rate {p : ℕ} (hp : 1 ≤ p) : _root_.Spec.Geometric (Ind.ema p : Line (Ext K) → _) (p - 1) (2 / ((p : K) + 1)) :=
  geometric_of hp fun a n m x ha hn => ema_isMA p hp a n m x ha hn
/-- **C102** smma: by `1 - 1/p` -/
theorem C102_smma_rate {p : ℕ} (hp : 1 ≤ p) : _root_.Spec.Geometric (Ind.smma p : Line (Ext K) → _) (p - 1) (1 / (p : K)) :=
  geometric_of hp fun a n m x ha hn => smma_isMA p hp a n m x ha hn

section archimedean
variable [Archimedean K]

/-- **C102** sma -/
theorem C102_sma {p : ℕ} (hp : 1 ≤ p) : _root_.Spec.Forgets (Ind.sma p : Line (Ext K) → _) (p - 1) :=
  (fading_sma hp).forgets fun a n m x ha hn => sma_isMA p hp a n m x ha hn
/-- **C102** wma -/
theorem C102_wma {p : ℕ} (hp : 1 ≤ p) : _root_.Spec.Forgets (Ind.wma p : Line (Ext K) → _) (p - 1) :=
  (fading_wma hp).forgets fun a n m x ha hn => wma_isMA p hp a n m x ha hn
/-- **C102** trima -/
theorem C102_trima {p : ℕ} (hp : 1 ≤ p) : _root_.Spec.Forgets (Ind.trima p : Line (Ext K) → _) (p - 1) :=
  (fading_trima hp).forgets fun a n m x ha hn => trima_isMA p hp a n m x ha hn
/-- **C102** ema -/
theorem C102_ema {p : ℕ} (hp : 1 ≤ p) : _root_.Spec.Forgets (Ind.ema p : Line (Ext K) → _) (p - 1) :=
  (fading_ema hp).forgets fun a n m x ha hn => ema_isMA p hp a n m x ha hn
/-- **C102** smma -/
theorem C102_smma {p : ℕ} (hp : 1 ≤ p) : _root_.Spec.Forgets (Ind.smma p : Line (Ext K) → _) (p - 1) :=
  (fading_smma hp).forgets fun a n m x ha hn => smma_isMA p hp a n m x ha hn

theorem fading_iter {p : ℕ} (hp : 1 ≤ p) (k : ℕ) :
    Fading (fun (x : ℕ → K) b i => _root_.Spec.iter emaF ext1 p x b k i) (k * (p - 1)) :=
  Fading.iter (F := emaF) (e := ext1) (p := p) (fading_ema hp) k

/-- **C102** dema -/
theorem C102_dema {p : ℕ} (hp : 1 ≤ p) : _root_.Spec.Forgets (Ind.dema Ind.ema p : Line (Ext K) → _) (2 * (p - 1)) :=
  Fading.forgets (Φ := _root_.Spec.dema emaF ext1 p) (fun a n m x ha hn => dema_isMA ema_isMA p hp a n m x ha hn)
    (((fading_iter hp 1).lin (fading_iter hp 2) (by omega) (le_refl _) 2 (-1)).congr rfl fun x b i => by
      unfold _root_.Spec.dema; ring)
/-- **C102** tema -/
theorem C102_tema {p : ℕ} (hp : 1 ≤ p) : _root_.Spec.Forgets (Ind.tema Ind.ema p : Line (Ext K) → _) (3 * (p - 1)) :=
  Fading.forgets (Φ := _root_.Spec.tema emaF ext1 p) (fun a n m x ha hn => tema_isMA ema_isMA p hp a n m x ha hn)
    ((((fading_iter hp 1).lin (fading_iter hp 2) (by omega) (le_refl _) 3 (-3)).lin (fading_iter hp 3) (by omega)
      (le_refl _) 1 1).congr rfl fun x b i => by unfold _root_.Spec.tema; ring)
/-- **C102** t3 -/
theorem C102_t3 (v : K) {p : ℕ} (hp : 1 ≤ p) : _root_.Spec.Forgets (Ind.t3 (fin v) p : Line (Ext K) → _) (6 * (p - 1)) :=
  Fading.forgets (Φ := _root_.Spec.t3 v emaF ext1 p) (fun a n m x ha hn => t3_isMA v p hp a n m x ha hn)
    ((((fading_iter hp 6).lin (fading_iter hp 5) (le_refl _) (by omega) (-v ^ 3) (3 * v ^ 2 + 3 * v ^ 3)).lin
      ((fading_iter hp 4).lin (fading_iter hp 3) (E := 6 * (p - 1)) (by omega) (by omega) (-6 * v ^ 2 - 3 * v - 3 * v ^ 3)
        (1 + 3 * v + v ^ 3 + 3 * v ^ 2)) (le_refl _) (le_refl _) 1 1).congr rfl fun x b i => by
      unfold _root_.Spec.t3; ring)

variable {pfast pslow psig : ℕ}

/-- difference of a fast and a slow ema -/
theorem fading_apo (h1 : 1 ≤ pfast) (h2 : pfast ≤ pslow) :
    Fading (fun (x : ℕ → K) b i => emaF pfast x b i - emaF pslow x b i) (pslow - 1) :=
  ((fading_ema h1).lin (fading_ema (le_trans h1 h2)) (by omega) (le_refl _) 1 (-1)).congr rfl fun x b i => by ring

/-- **C102** apo with ema -/
theorem C102_apo (h1 : 1 ≤ pfast) (h2 : pfast ≤ pslow) :
    _root_.Spec.Forgets (Ind.apo Ind.ema pfast pslow : Line (Ext K) → _) (pslow - 1) :=
  (fading_apo h1 h2).forgets fun a n m x ha hn => C48_apo ema_isMA ha h1 h2 hn

/-- its average -/
theorem fading_signal (h1 : 1 ≤ pfast) (h2 : pfast ≤ pslow) (h3 : 1 ≤ psig) :
    Fading (fun (x : ℕ → K) b i => emaF psig (fun j => emaF pfast x b j - emaF pslow x b j) (b + (pslow - 1)) i)
      (pslow - 1 + (psig - 1)) :=
  (fading_apo h1 h2).comp (fading_ema h3)

theorem macd_gives (h1 : 1 ≤ pfast) (h2 : pfast ≤ pslow) (h3 : 1 ≤ psig) {a : Line (Ext K)} {n m : ℕ} {x : ℕ → K}
    (ha : Holds a n m x) (hn : m + (pslow - 1 + (psig - 1)) ≤ n) :
    Gives (Ind.macd Ind.ema Ind.ema Ind.ema pfast pslow psig a)
      (MacdLike emaF psig n (m + (pslow - 1)) fun i => emaF pfast x (m - 1) i - emaF pslow x (m - 1) i) :=
  C20_macd ema_isMA ema_isMA ha h1 h2 h3 (by omega)

theorem Gives.map {ε β γ : Type} {c : Except ε β} {P : β → Prop} {Q : γ → Prop} {g : β → γ} (h : Gives c P)
    (hg : ∀ r, P r → Q (g r)) : Gives (c.map g) Q := by
  obtain ⟨r, e, hr⟩ := h
  exact ⟨g r, by rw [e]; rfl, hg r hr⟩

/-- **C102** macd: the signal (the average of `macd`) and the histogram; `macd` itself is `apo` -/
theorem C102_macd (h1 : 1 ≤ pfast) (h2 : pfast ≤ pslow) (h3 : 1 ≤ psig) :
    _root_.Spec.Forgets (fun a : Line (Ext K) => (Ind.macd Ind.ema Ind.ema Ind.ema pfast pslow psig a).map (·.2.1))
        (pslow - 1 + (psig - 1)) ∧
      _root_.Spec.Forgets (fun a : Line (Ext K) => (Ind.macd Ind.ema Ind.ema Ind.ema pfast pslow psig a).map (·.2.2))
        (pslow - 1 + (psig - 1)) := by
  constructor
  · refine (fading_signal h1 h2 h3).forgets fun a n m x ha hn => ?_
    have := ha.pos
    refine (macd_gives h1 h2 h3 ha hn).map fun r hr => shows_congr hr.signal (by omega) fun i _ _ => ?_
    rw [show m + (pslow - 1) - 1 = m - 1 + (pslow - 1) from by omega]
  · refine Fading.forgets (Φ := fun x b i => (emaF pfast x b i - emaF pslow x b i) -
      emaF psig (fun j => emaF pfast x b j - emaF pslow x b j) (b + (pslow - 1)) i) (fun a n m x ha hn => ?_)
      (((fading_apo h1 h2).lin (fading_signal h1 h2 h3) (by omega) (le_refl _) 1 (-1)).congr rfl fun x b i => by ring)
    have := ha.pos
    refine (macd_gives h1 h2 h3 ha hn).map fun r hr => shows_congr hr.histogram (by omega) fun i _ _ => ?_
    rw [show m + (pslow - 1) - 1 = m - 1 + (pslow - 1) from by omega]

end archimedean

/-- C102, a case: the data 1, 2, 4, 7, 11, 16 and their last four.  At bar 3 (bar 1 of the shorter) ema(2) is 103/18
resp. 11/2, and the difference is a third of it one bar later, a ninth two bars later. -/
example : (Ind.ema 2 exData).map (fun r => (r.series[3]?, r.series[4]?, r.series[5]?)) =
      .ok (some (.fin (103/18)), some (.fin (499/54)), some (.fin (2227/162))) ∧
    (Ind.ema 2 (ofSeries [.fin 4, .fin 7, .fin 11, (.fin 16 : Ext ℚ)])).map (fun r => (r.series[1]?, r.series[2]?, r.series[3]?))
      = .ok (some (.fin (11/2)), some (.fin (55/6)), some (.fin (247/18))) := by decide +kernel

end Bta
