import Verif.Props.Dm
import Verif.Props.Osc
import Verif.Props.Stat
import Verif.Props.More
import Verif.Props.Kama

/-!
# C113: a market which does not move

All prices of all bars are the same number `c` (a halted or padded series).  Averages show this number, differences and measures of movement
show 0, and ratios of movements, which would be `0/0`, show nothing (NaN): no bar is an infinity and no call raises.
-/

set_option linter.unusedSectionVars false
set_option linter.unusedVariables false

namespace Spec
open Bta

variable {K : Type} [Field K] [LinearOrder K] [IsStrictOrderedRing K]

/-- the average of a constant line is this constant, from its minimum period `m + e p` on -/
def FlatAvg (ma : MA (Ext K)) (e : ℕ → ℕ) : Prop :=
  ∀ p, 1 ≤ p → ∀ (a : Line (Ext K)) (n m : ℕ) (c : K), Holds a n m (fun _ => c) → m + e p ≤ n →
    Gives (ma p a) fun r => Shows r n (m + e p) fun _ => c

/-- the result delivers the number `c` at each bar from its minimum period `m` on -/
abbrev Stays (r : Line (Ext K)) (n m : ℕ) (c : K) : Prop := Shows r n m fun _ => c

/-- the result has no value at any bar -/
abbrev NoValue (r : Line (Ext K)) (n m : ℕ) : Prop := Delivers r n m fun _ => Ext.nan

end Spec

namespace Bta
open Line Ext Spec

variable {K : Type} [Field K] [LinearOrder K] [IsStrictOrderedRing K]
variable {a b o h l cl : Line (Ext K)} {n m m' p q : ℕ} {c d : K}

theorem flat_of_affine {ma : MA (Ext K)} {F : ℕ → (ℕ → K) → ℕ → ℕ → K} {e : ℕ → ℕ} (hf : IsMA ma F e) (hA : Affine F e) :
    FlatAvg ma e := by
  intro p hp a n m c ha hn
  have hpos := ha.pos
  refine (hf p hp a n m _ ha hn).imp fun r hr => shows_congr hr rfl fun i h1 _ => ?_
  have := hA p hp (fun _ => 0) (m - 1) i 0 c (by omega)
  simpa using this

theorem flatF {F : ℕ → (ℕ → K) → ℕ → ℕ → K} {e : ℕ → ℕ} (hA : Affine F e) (hp : 1 ≤ p) {i s : ℕ} (hi : s + e p ≤ i) (c : K) :
    F p (fun _ => c) s i = c := by
  have := hA p hp (fun _ => 0) s i 0 c hi
  simpa using this

/-- **C113** (averages): the average of an unchanged price is this price. -/
theorem C113_averages (v : K) :
    FlatAvg (Ind.sma : MA (Ext K)) (fun p => p - 1) ∧ FlatAvg (Ind.ema : MA (Ext K)) (fun p => p - 1) ∧
    FlatAvg (Ind.smma : MA (Ext K)) (fun p => p - 1) ∧ FlatAvg (Ind.wma : MA (Ext K)) (fun p => p - 1) ∧
    FlatAvg (Ind.trima : MA (Ext K)) (fun p => p - 1) ∧ FlatAvg (Ind.dema Ind.ema : MA (Ext K)) (fun p => 2 * (p - 1)) ∧
    FlatAvg (Ind.tema Ind.ema : MA (Ext K)) (fun p => 3 * (p - 1)) ∧
    FlatAvg (Ind.t3 (fin v) : MA (Ext K)) (fun p => 6 * (p - 1)) := by
  refine ⟨flat_of_affine sma_isMA smaF_affine, flat_of_affine ema_isMA emaF_affine, flat_of_affine smma_isMA smmaF_affine,
    flat_of_affine wma_isMA wmaF_affine, flat_of_affine trima_isMA trimaF_affine,
    flat_of_affine (dema_isMA ema_isMA) (dema_affine emaF_affine emaF_mono),
    flat_of_affine (tema_isMA ema_isMA) (tema_affine emaF_affine emaF_mono), ?_⟩
  intro p hp a n m c ha hn
  have hpos := ha.pos
  obtain ⟨w3, w4, w5, w6, hs, h6, h5, h4, hg⟩ := C18_t3 v ha hp hn
  refine hg.imp fun r hr => shows_congr hr rfl fun i h1 _ => ?_
  have hi : ∀ k, k ≤ 6 → Spec.iter emaF ext1 p (fun _ => c) (m - 1) k i = c := by
    intro k hk
    have hext : ext1 p = p - 1 := rfl
    have := iter_affine (K := K) emaF_affine emaF_mono hp (fun _ => (0 : K)) (m - 1) 0 c k i (by
      rw [hext]
      simp only [] at h1
      have : k * (p - 1) ≤ 6 * (p - 1) := Nat.mul_le_mul_right _ hk
      omega)
    simpa using this
  rw [hi 6 (by omega), hi 5 (by omega), hi 4 (by omega), hi 3 (by omega)]
  linear_combination c * hs

/-- **C113** (differences): momentum, rates of change, and the differences of averages are zero (ratios: one). -/
theorem C113_differences (ha : Holds a n m (fun _ => c)) (hp : 1 ≤ p) :
    Stays (Ind.mom p a) n (m + p) 0 ∧
    (c ≠ 0 → Stays (Ind.rocr p a) n (m + p) 1 ∧ Stays (Ind.rocr100 p a) n (m + p) 100 ∧ Stays (Ind.rocp p a) n (m + p) 0 ∧
      Stays (Ind.roc p a) n (m + p) 0) ∧
    (c = 0 → NoValue (Ind.rocr p a) n (m + p) ∧ NoValue (Ind.rocr100 p a) n (m + p) ∧ NoValue (Ind.rocp p a) n (m + p) ∧
      NoValue (Ind.roc p a) n (m + p)) := by
  refine ⟨shows_congr (C44_mom ha p) rfl fun i _ _ => by simp, fun h0 => ?_, fun h0 => ?_⟩
  · obtain ⟨h1, h2, h3, h4⟩ := C44_consistent ha hp fun _ _ _ => h0
    refine ⟨shows_congr h1 rfl fun i _ _ => by simp [h0], shows_congr h2 rfl fun i _ _ => by simp [h0],
      shows_congr h3 rfl fun i _ _ => by simp, shows_congr h4 rfl fun i _ _ => by simp⟩
  · subst h0
    obtain ⟨h2, h3, h4⟩ := C44_roc ha hp
    exact ⟨(C44_rocr ha hp).congr rfl fun i _ _ => by simp, h2.congr rfl fun i _ _ => by simp, h3.congr rfl fun i _ _ => by simp,
      h4.congr rfl fun i _ _ => by simp⟩

/-- **C113** (differences of averages): apo is zero, with any average which keeps constants; so is macd with its signal and histogram, and
ppo where the price is not 0. -/
theorem C113_oscillators {ma masig : MA (Ext K)} {F G : ℕ → (ℕ → K) → ℕ → ℕ → K} (hma : IsMA ma F ext1) (hA : Affine F ext1)
    (hsig : IsMA masig G ext1) (hB : Affine G ext1) (hG : Mono G ext1) (ha : Holds a n m (fun _ => c)) {pfast pslow psig : ℕ} (h1 : 1 ≤ pfast)
    (h2 : pfast ≤ pslow) (h3 : 1 ≤ psig) (hn : m + (pslow - 1) + (psig - 1) ≤ n) :
    (Gives (Ind.apo ma pfast pslow a) fun r => Stays r n (m + (pslow - 1)) 0) ∧
    (Gives (Ind.macd ma ma masig pfast pslow psig a) fun (macd, signal, histogram) =>
      Stays macd n (m + (pslow - 1)) 0 ∧ Stays signal n (m + (pslow - 1) + (psig - 1)) 0 ∧
      Stays histogram n (m + (pslow - 1) + (psig - 1)) 0) ∧
    (c ≠ 0 → Gives (Ind.ppo false ma masig pfast pslow psig a) fun (ppo, signal, histogram) =>
      Stays ppo n (m + (pslow - 1)) 0 ∧ Stays signal n (m + (pslow - 1) + (psig - 1)) 0 ∧
      Stays histogram n (m + (pslow - 1) + (psig - 1)) 0) := by
  have hpos := ha.pos
  have hext : ∀ p, ext1 p = p - 1 := fun _ => rfl
  have hl : ∀ i, m + (pslow - 1) ≤ i + 1 → F pfast (fun _ => c) (m - 1) i = c ∧ F pslow (fun _ => c) (m - 1) i = c := fun i hi =>
    ⟨flatF hA h1 (by rw [hext]; omega) c, flatF hA (by omega) (by rw [hext]; omega) c⟩
  have fin3 : ∀ (r : Line (Ext K) × Line (Ext K) × Line (Ext K)) (d : ℕ → K), MacdLike G psig n (m + (pslow - 1)) d r →
      (∀ i, m + (pslow - 1) ≤ i + 1 → d i = 0) → Stays r.1 n (m + (pslow - 1)) 0 ∧
      Stays r.2.1 n (m + (pslow - 1) + (psig - 1)) 0 ∧ Stays r.2.2 n (m + (pslow - 1) + (psig - 1)) 0 := by
    intro r d hr hd
    have hg : ∀ i, m + (pslow - 1) + (psig - 1) ≤ i + 1 → G psig d (m + (pslow - 1) - 1) i = 0 := fun i hi => by
      rw [hG.local (y := fun _ => (0 : K)) h3 (by rw [hext]; omega) fun j hj _ => hd j (by omega)]
      exact flatF hB h3 (by rw [hext]; omega) 0
    exact ⟨shows_congr hr.main rfl fun i hi _ => hd i hi, shows_congr hr.signal rfl fun i hi _ => hg i hi,
      shows_congr hr.histogram rfl fun i hi _ => by rw [hg i hi, hd i (by omega), sub_zero]⟩
  refine ⟨(C48_apo hma ha h1 h2 (by omega)).imp fun r hr => shows_congr hr rfl fun i hi _ => by rw [(hl i hi).1, (hl i hi).2, sub_self],
    (C20_macd hma hsig ha h1 h2 h3 hn).imp fun r hr => fin3 r _ hr fun i hi => by rw [(hl i hi).1, (hl i hi).2, sub_self], fun h0 =>
    (C48_ppo hma hsig ha h1 h2 h3 hn fun i hi _ => by rw [(hl i hi).2]; exact h0).imp fun r hr => fin3 r _ hr fun i hi => by
      rw [(hl i hi).1, (hl i hi).2, div_self h0, sub_self, mul_zero]⟩

/-- **C113** (dispersion): variance, standard deviation and mean absolute deviation of unchanged prices are zero, and the Bollinger bands are
all at the price. -/
theorem C113_dispersion (ha : Holds a n m (fun _ => c)) {ddof : ℕ} (hd : ddof < p) {sq : Ext K → Ext K} {s : K → K}
    (hsq : ∀ v, 0 ≤ v → sq (fin v) = fin (s v)) (hs : s 0 = 0) :
    Stays (Ind.var ddof p a) n (m + p - 1) 0 ∧ Stays (Ind.stddev sq ddof p a) n (m + p - 1) 0 ∧
    Stays (Ind.mad p a) n (m + (p - 1)) 0 ∧
    ∀ {ma : MA (Ext K)} {F : ℕ → (ℕ → K) → ℕ → ℕ → K}, IsMA ma F ext1 → Affine F ext1 → m + (p - 1) ≤ n → ∀ devs : K,
      Gives (Ind.bbands sq ma (fin devs) p a) fun (mid, top, bot) =>
        Stays mid n (m + (p - 1)) c ∧ Stays top n (m + (p - 1)) c ∧ Stays bot n (m + (p - 1)) c := by
  have hpos := ha.pos
  have hp0 : (p : K) ≠ 0 := by exact_mod_cast (by omega : p ≠ 0)
  have hw : ∀ d i, Spec.winVar d (fun _ => c) p i = 0 := fun d i => by
    simp [Spec.winVar, Spec.winMean, Spec.winSum, hp0]
  refine ⟨?_, ?_, ?_, fun hma hA hn devs => ?_⟩
  · obtain ⟨v, h1, h2⟩ := C31_var ha hd
    exact shows_congr h1 rfl fun i i1 i2 => (h2 i i1 i2).2.2.mpr fun _ _ _ _ => rfl
  · refine (C31_stddev ha sq hd).congr rfl fun i _ _ => ?_
    have := hw ddof i
    simp only [Spec.winVar, Spec.winMean, Spec.winSum] at this
    rw [this, hsq 0 (le_refl 0), hs]
  · obtain ⟨v, h1, h2⟩ := C75_mad ha (show 1 ≤ p by omega)
    exact shows_congr h1 rfl fun i i1 i2 => (h2 i).2.2.mpr fun _ _ => rfl
  · have hext : ext1 p = p - 1 := rfl
    refine (C30_bbands hma ha (show 1 ≤ p by omega) (by rw [hext]; omega) hsq devs).imp fun r hr => ?_
    obtain ⟨h1, h2, h3⟩ := hr
    refine ⟨shows_congr h1 rfl fun i i1 _ => flatF hA (by omega) (by rw [hext]; omega) c,
      shows_congr h2 (by rw [hext]; omega) fun i i1 _ => ?_, shows_congr h3 (by rw [hext]; omega) fun i i1 _ => ?_⟩
    all_goals rw [hw, hs, flatF hA (by omega) (by rw [hext]; omega) c]; ring

/-- **C113** (regression, extremes): the fitted line of unchanged prices is level, at the price; so are the midpoint, and Aroon sees the
present bar as both the latest high and the latest low. -/
theorem C113_levels (ha : Holds a n m (fun _ => c)) (hb : Holds b n m (fun _ => c)) (hp : 2 ≤ p) :
    Stays (Ind.linregSlope p a) n (m + p - 1) 0 ∧ Stays (Ind.linreg p a) n (m + p - 1) c ∧ Stays (Ind.tsf p a) n (m + p - 1) c ∧
    Stays (Ind.midpoint p a) n (m + p - 1) c ∧ Stays (Ind.midprice p a b) n (m + p - 1) c ∧
    Stays (Ind.aroonUp p a) n (m + p) 100 ∧ Stays (Ind.aroonDn p a) n (m + p) 100 ∧ Stays (Ind.aroonosc p a b) n (m + p) 0 := by
  have hpos := ha.pos
  have hl : Holds a n m fun i => c + 0 * (i : K) := by simpa using ha
  obtain ⟨h1, h2, h3⟩ := C32_on_line hp c 0 hl
  have hg : ∀ {T : K}, IsGreatest {y | ∃ j, j < p ∧ y = c} T → T = c := by
    rintro T ⟨⟨j, _, hj⟩, _⟩
    exact hj
  have hlst : ∀ {T : K}, IsLeast {y | ∃ j, j < p ∧ y = c} T → T = c := by
    rintro T ⟨⟨j, _, hj⟩, _⟩
    exact hj
  have h2' : (2 : K) ≠ 0 := by norm_num
  obtain ⟨u, u1, u2⟩ := C25_up_extremes ha (show 1 ≤ p by omega)
  obtain ⟨w, w1, w2⟩ := C25_down_extremes ha (show 1 ≤ p by omega)
  refine ⟨h1, shows_congr h2 rfl fun i _ _ => by simp, shows_congr h3 rfl fun i _ _ => by simp, ?_, ?_,
    shows_congr u1 rfl fun i _ _ => (u2 i).2.2.1.mpr fun _ _ => le_refl _,
    shows_congr w1 rfl fun i _ _ => (w2 i).2.2.1.mpr fun _ _ => le_refl _, ?_⟩
  · obtain ⟨T, B, s1, s2⟩ := C46_midpoint ha (show 1 ≤ p by omega)
    refine shows_congr s1 rfl fun i _ _ => ?_
    rw [hg (s2 i).1, hlst (s2 i).2]
    field_simp; ring
  · obtain ⟨T, B, s1, s2⟩ := C46_midprice ha hb (show 1 ≤ p by omega)
    refine shows_congr s1 (by omega) fun i _ _ => ?_
    rw [hg (s2 i).1, hlst (s2 i).2]
    field_simp; ring
  · obtain ⟨w', w1', w2'⟩ := C25_down_extremes hb (show 1 ≤ p by omega)
    have hu : ∀ i, u i = 100 := fun i => (u2 i).2.2.1.mpr fun _ _ => le_refl _
    have hw : ∀ i, w' i = 100 := fun i => (w2' i).2.2.1.mpr fun _ _ => le_refl _
    exact shows_congr (Holds.sub u1.toRepW w1'.toRepW) (by omega) fun i _ _ => by rw [hu, hw, sub_self]

/-- **C113** (movement): the true range, its averages and the directional movements are zero. -/
theorem C113_movement {ma : MA (Ext K)} {F : ℕ → (ℕ → K) → ℕ → ℕ → K} {e : ℕ → ℕ} (hma : IsMA ma F e) (hA : Affine F e) (hN : NonNeg F e)
    (hM : Mono F e)
    (hh : Holds h n m (fun _ => c)) (hl : Holds l n m (fun _ => c)) (hc : Holds cl n m (fun _ => c)) (hq : 1 ≤ q) (hp : 1 ≤ p)
    (hn : m + q + e p ≤ n) :
    Stays (Ind.truerange q h l cl) n (m + q) 0 ∧ (Gives (Ind.atr ma q p h l cl) fun r => Stays r n (m + q + e p) 0) ∧
    (0 < c → Gives (Ind.natr ma q p h l cl) fun r => Stays r n (m + q + e p) 0) := by
  have hpos := hh.pos
  have ht : ∀ i, Spec.trueRange (fun _ => c) (fun _ => c) (fun _ => c) q i = 0 := fun i => by simp [Spec.trueRange]
  have ht' : (Spec.trueRange (fun _ => c) (fun _ => c) (fun _ => c) q : ℕ → K) = fun _ => 0 := funext ht
  refine ⟨shows_congr (C27_truerange hh hl hc hq fun _ _ _ => le_refl _).1 (by omega) fun i _ _ => by simp,
    (C27_atr hma hN hh hl hc hq hp (fun _ _ _ => le_refl _) hn).imp fun r hr => shows_congr hr.1 rfl fun i hi _ => ?_, fun h0 => ?_⟩
  · rw [ht']
    exact flatF hA hp (by omega) 0
  · obtain ⟨y, hy, h2⟩ := C27_natr hma hN hh hl hc hq hp (fun _ _ _ => ⟨le_refl _, h0⟩) hn
    refine hy.imp fun r hr => shows_congr hr rfl fun i hi hin => ?_
    rw [(h2 i hi hin).1, ht', flatF hA hp (by omega) 0]
    simp

/-- **C113** (nothing to compare): ratios of movements have no value: rsi, cmo, the fast stochastic and Williams %R, cci, bop, the directional
indicators with dx, beta and correlation are NaN at each bar; no bar is an infinity. -/
theorem C113_no_value {ma : MA (Ext K)} {F : ℕ → (ℕ → K) → ℕ → ℕ → K} {e : ℕ → ℕ} (hma : IsMA ma F e) (hA : Affine F e) (hN : NonNeg F e)
    (hM : Mono F e) (ho : Holds o n m (fun _ => c))
    (hh : Holds h n m (fun _ => c)) (hl : Holds l n m (fun _ => c)) (hc : Holds cl n m (fun _ => c)) (hq : 1 ≤ q) (hp : 1 ≤ p)
    (hn : m + q + e p ≤ n) :
    (Gives (Ind.rsi ma q p cl) fun r => NoValue r n (m + q + e p)) ∧
    (Gives (Ind.cmo ma p cl) fun r => NoValue r n (m + 1 + e p)) ∧
    (∀ pf, 1 ≤ pf → Gives (Ind.stochf Ind.sma p pf h l cl) fun r => NoValue r.1 n (m + (p - 1))) ∧
    NoValue (Ind.williamsr p h l cl) n (m + (p - 1)) ∧
    (∀ factor, Gives (Ind.cci ma (fin factor) p h l cl) fun r => NoValue r n (max (m + e p) (m + (p - 1)))) ∧
    NoValue (Ind.bop o h l cl) n m := by
  have hpos := hh.pos
  have hk : ∀ pf, 1 ≤ pf → Gives (Ind.stochf Ind.sma p pf h l cl) fun r => NoValue r.1 n (m + (p - 1)) := fun pf hpf => by
    refine (C22_stochf hh hl hc hp hpf fun _ _ _ => ⟨le_refl _, le_refl _⟩).imp fun r hr => hr.1.congr (by omega) fun i _ _ => ?_
    have h1 := Spec.winMax_isGreatest (fun _ => c) hp i
    have h2 := Spec.winMin_isLeast (fun _ => c) hp i
    obtain ⟨⟨_, _, h1⟩, _⟩ := h1
    obtain ⟨⟨_, _, h2⟩, _⟩ := h2
    rw [Spec.fastK, h1, h2, if_pos rfl]; rfl
  refine ⟨?_, ?_, ?_, ?_, ?_, ?_⟩
  · refine (C21_formula hma hM hN hc hp hn).imp fun r hr => hr.congr rfl fun i hi _ => if_pos ?_
    rw [upAvg, downAvg]
    simp only [sub_self, max_self]
    rw [flatF hA hp (by omega), add_zero]
  · refine (C24_formula hma hM hN hc hp (by omega)).imp fun r hr => hr.congr rfl fun i hi _ => if_pos ?_
    rw [upAvg, downAvg]
    simp only [sub_self, max_self]
    rw [flatF hA hp (by omega), add_zero]
  · exact fun pf hpf => hk pf hpf
  · obtain ⟨k, d, k1, k2⟩ := C23_complement hh hl hc hp 1
    obtain ⟨r, r1, r2⟩ := hk 1 (le_refl 1)
    rw [k1, Except.ok.injEq] at r1
    subst r1
    rw [k2]
    exact (rep_subS r2.toRepW _).congr rfl fun _ _ _ => by simp
  · intro factor
    refine (C75_cci hma hh hl hc hp (by omega) factor).imp fun r hr => hr.congr rfl fun i hi _ => ?_
    have h1 : (Spec.typical (fun _ => c) (fun _ => c) (fun _ => c) : ℕ → K) = fun _ => c := funext fun i => by
      simp only [Spec.typical]; field_simp; ring
    have h2 : Spec.winMad (fun _ => c) p i = 0 := (winMad_zero _ hp i).mpr fun _ _ => rfl
    rw [h1, flatF hA hp (by omega), h2]
    simp
  · obtain ⟨z, z1, z2⟩ := C76_bop ho hh hl hc fun _ _ _ => ⟨le_refl _, le_refl _, le_refl _, le_refl _⟩
    exact z1.congr rfl fun i i1 i2 => (z2 i i1 i2).1 rfl

/-- **C113** (directional indicators): both are `0/0`, so neither they nor dx have a value -/
theorem C113_directional {S : Line (Ext K) → Except Err (Line (Ext K))} {G : (ℕ → K) → ℕ → ℕ → K} {e : ℕ} (hS : IsSmoother S G e)
    (hG : Sums G e) (hh : Holds h n m (fun _ => c)) (hl : Holds l n m (fun _ => c)) (hc : Holds cl n m (fun _ => c)) (hq : 1 ≤ q)
    (hn : m + q + e ≤ n) (talib : Bool) :
    (Gives (Ind.plusDi S q talib h l cl) fun r => NoValue r n (m + q + e + 1)) ∧
    (Gives (Ind.minusDi S q talib h l cl) fun r => NoValue r n (m + q + e + 1)) ∧
    (Gives (Ind.dx S q talib h l cl) fun r => NoValue r n (m + q + e + 1)) := by
  have hpos := hh.pos
  have ht : (Spec.trueRange (fun _ => c) (fun _ => c) (fun _ => c) q : ℕ → K) = fun _ => 0 := funext fun i => by simp [Spec.trueRange]
  have h1 : (Spec.plusDM (fun _ => c) (fun _ => c) q : ℕ → K) = fun _ => 0 := funext fun i => by simp [Spec.plusDM]
  have h2 : (Spec.minusDM (fun _ => c) (fun _ => c) q : ℕ → K) = fun _ => 0 := funext fun i => by simp [Spec.minusDM]
  obtain ⟨d1, d2⟩ := di_core hS hh hl hc hq (fun _ _ _ => le_refl _) hn talib
  have e1 : Gives (Ind.plusDi S q talib h l cl) fun r => NoValue r n (m + q + e + 1) := d1.imp fun r hr => hr.congr rfl fun i hi _ => by
    rw [ht, h1, hG.zero _ _ (by omega)]; simp
  have e2 : Gives (Ind.minusDi S q talib h l cl) fun r => NoValue r n (m + q + e + 1) := d2.imp fun r hr => hr.congr rfl fun i hi _ => by
    rw [ht, h2, hG.zero _ _ (by omega)]; simp
  refine ⟨e1, e2, ?_⟩
  unfold Ind.dx
  refine Gives.bind e1 fun r hr => Gives.bind e2 fun s hs => Gives.pure ?_
  exact (rep_div (rep_rmulS (rep_abs (rep_sub hr.toRepW hs.toRepW).toRepW).toRepW _).toRepW
      (rep_add hr.toRepW hs.toRepW).toRepW).congr (by omega) fun _ _ _ => by simp

/-- **C113** (values come back): rsi has a value at each bar which is preceded by a move within its period, whatever happened before, with
averages which see each bar of their period (`PosWin`: sma, ema, smma, wma, trima). -/
theorem C113_rsi_returns {ma : MA (Ext K)} {F : ℕ → (ℕ → K) → ℕ → ℕ → K} {e : ℕ → ℕ} (hma : IsMA ma F e) (hM : Mono F e) (hN : NonNeg F e)
    (hP : PosWin F e) {x : ℕ → K} (hx : Holds a n m x) (hp : 1 ≤ p) (hn : m + q + e p ≤ n) :
    Gives (Ind.rsi ma q p a) fun r => ∀ i j, m + q + e p ≤ i + 1 → i < n → i + 1 ≤ j + p → m + q ≤ j + 1 → j ≤ i → x j ≠ x (j - q) →
      ∃ v : K, r.series[i]? = some (fin v) ∧ 0 ≤ v ∧ v ≤ 100 := by
  obtain ⟨r, r1, r2⟩ := C21_nan hma hM hN hP hx hp hn
  obtain ⟨r', s1, g, s2, s3⟩ := C21_range hma hM hN hx hp hn
  rw [r1, Except.ok.injEq] at s1
  subst s1
  refine ⟨r, r1, fun i j h1 h2 h3 h4 h5 hne => ?_⟩
  have hv := s2.val i h1 h2
  rcases s3 i h1 h2 with hg | ⟨v, hg, v1, v2⟩
  · rw [hg] at hv
    exact absurd (r2 i h1 h2 hv j h3 h4 h5) hne
  · exact ⟨v, by rw [hv, hg], v1, v2⟩

/-- **C113** (violated by kama): after one stretch of `p + q` bars with an unchanged price, kama has no value any more, however prices move
later: its smoothing factor is `0/0` once, and the recursion keeps this NaN. -/
theorem C113_kama_lost {fast slow : K} {x : ℕ → K} (hf : fast + 1 ≠ 0) (hs : slow + 1 ≠ 0) (ha : Holds a n 1 x) (hp : 1 ≤ p)
    (hq : 1 ≤ q) (hn : p + q - 1 ≤ n) (last : Bool) {i : ℕ} (hi : p + q ≤ i + 1) (hin : i < n) (hflat : ∀ j, j < p + q → x (i - j) = x i) :
    Gives (Ind.kama (fin fast) (fin slow) q (if last then .last else .avg) p a) fun r =>
      ∀ j, i ≤ j → j < n → r.series[j]? = some nan := C19_flat_window hf hs ha hp hq hn last hi hin hflat

/-! ### concrete cases -/

/-- eight bars at 7 -/
def stillData : Line (Ext ℚ) := bars 8 fun _ => 7

theorem stillData_holds : Holds stillData 8 1 (fun _ => (7 : ℚ)) := bars_holds _ _

example : Ind.ema 3 stillData = .ok ⟨[.nan, .nan, .fin 7, .fin 7, .fin 7, .fin 7, .fin 7, .fin 7], 3⟩ := by decide +kernel
example : Gives (Ind.t3 (fin (7/10)) 2 stillData) fun r => Stays r 8 7 7 :=
  (C113_averages (7/10)).2.2.2.2.2.2.2 2 (by omega) stillData 8 1 7 stillData_holds (by norm_num)
example : Gives (Ind.macd Ind.ema Ind.ema Ind.ema 2 3 2 stillData) fun (macd, signal, histogram) =>
    Stays macd 8 3 0 ∧ Stays signal 8 4 0 ∧ Stays histogram 8 4 0 :=
  (C113_oscillators ema_isMA emaF_affine ema_isMA emaF_affine emaF_mono stillData_holds (by omega) (by omega) (by omega) (by omega)).2.1
example : Gives (Ind.rsi Ind.smma 1 3 stillData) fun r => NoValue r 8 4 :=
  (C113_no_value smma_isMA smmaF_affine smmaF_nonneg smmaF_mono stillData_holds stillData_holds stillData_holds stillData_holds
    (le_refl 1) (by omega) (by unfold ext1; omega)).1

/-- five bars at 7, then rising prices: rsi (period 2) delivers again with the first move, kama (1, 1) never again -/
def haltData : Line (Ext ℚ) := bars 8 fun i => if i < 5 then 7 else i + 10

example : Ind.rsi Ind.smma 1 2 haltData =
    .ok ⟨[.nan, .nan, .nan, .nan, .nan, .fin 100, .fin 100, .fin 100], 3⟩ := by decide +kernel
example : (Ind.kama (.fin 2) (.fin 30) 1 .avg 1 haltData).map (fun r => r.series) =
    .ok [.nan, .nan, .nan, .nan, .nan, .nan, .nan, .nan] := by decide +kernel

end Bta
