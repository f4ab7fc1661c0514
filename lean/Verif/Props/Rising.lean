import Verif.Props.Pairs
import Verif.Props.Reach
import Verif.Props.Osc
import Verif.Props.Cross
import Verif.Props.Dm

/-!
# A market which only rises (C141)
-/

set_option linter.unusedSectionVars false

namespace Spec
variable {K : Type} [Field K] [LinearOrder K] [IsStrictOrderedRing K]

/-- the data of bars `m - 1, ..., n - 1` never fall -/
def Rises (x : ℕ → K) (m n : ℕ) : Prop := ∀ i, m ≤ i + 1 → i + 1 < n → x i ≤ x (i + 1)

/-- they rise from each bar to the next -/
def RisesStrictly (x : ℕ → K) (m n : ℕ) : Prop := ∀ i, m ≤ i + 1 → i + 1 < n → x i < x (i + 1)

/-- of data which never fall, the calculation `f` (with `e` bars of warm-up) shows a line which never falls and is never above the data -/
def Trails (f : Bta.Line (Bta.Ext K) → Except Bta.Err (Bta.Line (Bta.Ext K))) (e : ℕ) : Prop :=
  ∀ a n m x, Bta.Holds a n m x → Rises x m n → m + e ≤ n → ∃ r g, f a = .ok r ∧ Bta.Shows r n (m + e) g ∧ Rises g (m + e) n ∧
    ∀ i, m + e ≤ i + 1 → i < n → g i ≤ x i

/-- the data never rise; they fall from each bar to the next -/
def Falls (x : ℕ → K) (m n : ℕ) : Prop := ∀ i, m ≤ i + 1 → i + 1 < n → x (i + 1) ≤ x i
@[inherit_doc Falls] def FallsStrictly (x : ℕ → K) (m n : ℕ) : Prop := ∀ i, m ≤ i + 1 → i + 1 < n → x (i + 1) < x i

/-- of data which never rise, the calculation shows a line which never rises and is never below the data -/
def TrailsDown (f : Bta.Line (Bta.Ext K) → Except Bta.Err (Bta.Line (Bta.Ext K))) (e : ℕ) : Prop :=
  ∀ a n m x, Bta.Holds a n m x → Falls x m n → m + e ≤ n → ∃ r g, f a = .ok r ∧ Bta.Shows r n (m + e) g ∧ Falls g (m + e) n ∧
    ∀ i, m + e ≤ i + 1 → i < n → x i ≤ g i

end Spec

namespace Bta
open Line Ext Ind Spec Finset

variable {K : Type} [Field K] [LinearOrder K] [IsStrictOrderedRing K]
variable {a b h l c v : Line (Ext K)} {n m p i j : ℕ} {x y H L C W : ℕ → K}

theorem _root_.Spec.RisesStrictly.rises (h : RisesStrictly x m n) : Rises x m n := fun i h1 h2 => (h i h1 h2).le

theorem _root_.Spec.Rises.le (hx : Rises x m n) (hi : m ≤ i + 1) (hij : i ≤ j) (hj : j < n) : x i ≤ x j := by
  obtain ⟨d, rfl⟩ := Nat.exists_eq_add_of_le hij
  induction d with
  | zero => exact le_refl _
  | succ d ih => exact (ih (by omega) (by omega)).trans (hx (i + d) (by omega) (by omega))

theorem _root_.Spec.RisesStrictly.lt (hx : RisesStrictly x m n) (hi : m ≤ i + 1) (hij : i < j) (hj : j < n) : x i < x j :=
  (hx i hi (by omega)).trans_le (hx.rises.le (by omega) (show i + 1 ≤ j by omega) hj)

/-- without loss of generality the data never fall anywhere -/
theorem rises_everywhere (ha : Holds a n m x) (hx : Rises x m n) :
    ∃ y, Holds a n m y ∧ Monotone y ∧ ∀ i, m ≤ i + 1 → i < n → y i = x i := by
  have hm := ha.pos
  rcases Nat.lt_or_ge n m with hn | hn
  · exact ⟨fun _ => 0, ⟨ha.len, ha.mp, ha.pos, fun i h1 h2 => by omega⟩, fun _ _ _ => le_refl _, fun i h1 h2 => by omega⟩
  · have e : ∀ i, m ≤ i + 1 → i < n → max (m - 1) (min i (n - 1)) = i := fun i h1 h2 => by omega
    refine ⟨fun i => x (max (m - 1) (min i (n - 1))), ⟨ha.len, ha.mp, ha.pos, fun i h1 h2 => ?_⟩, fun i j hij => ?_, fun i h1 h2 => ?_⟩
    · beta_reduce; rw [ha.val i h1 h2, e i h1 h2]
    · exact hx.le (by omega) (by omega) (by omega)
    · beta_reduce; rw [e i h1 h2]

theorem trails_of {f : MA (Ext K)} {F : ℕ → (ℕ → K) → ℕ → ℕ → K} (hf : IsMA f F ext1) (hA : Averages F ext1)
    (hr : ∀ p, 1 ≤ p → ∀ (x : ℕ → K) b i, Monotone x → b + (p - 1) ≤ i → F p x b i ≤ F p x b (i + 1)) (hp : 1 ≤ p) :
    Trails (f p) (p - 1) := by
  intro a n m x ha hx hn
  obtain ⟨y, hy, hmono, e⟩ := rises_everywhere ha hx
  have hm := ha.pos
  obtain ⟨r, r1, r2⟩ := hf p hp a n m y hy hn
  refine ⟨r, _, r1, r2, fun i h1 h2 => hr p hp y (m - 1) i hmono (by omega), fun i h1 h2 => ?_⟩
  rw [← e i (by omega) h2]
  exact (hA p hp y (m - 1) i (y 0) (y i) (by unfold ext1; omega) fun j _ h4 => ⟨hmono (Nat.zero_le j), hmono h4⟩).2

theorem wmean_rises {w : ℕ → K} (hw : ∀ j < p, 0 ≤ w j) (hx : Monotone x) (i : ℕ) : wmean w p x i ≤ wmean w p x (i + 1) := by
  unfold wmean
  refine div_le_div_of_nonneg_right (sum_le_sum fun j hj => ?_) (sum_nonneg fun j hj => hw j (mem_range.1 hj))
  exact mul_le_mul_of_nonneg_left (hx (by omega)) (hw j (mem_range.1 hj))

theorem expAvg_rises {α : K} (h0 : 0 ≤ α) (h1 : α ≤ 1) (hp : 1 ≤ p) {b : ℕ} (hx : Monotone x) (hi : b + (p - 1) ≤ i) :
    expAvg α x b p i ≤ expAvg α x b p (i + 1) := by
  rw [expAvg_succ α x b p i (by omega)]
  have := (expAvg_bounds h0 h1 hp hi fun j _ h4 => (⟨hx (Nat.zero_le j), hx h4⟩ : x 0 ≤ x j ∧ x j ≤ x i)).2
  have := hx (Nat.le_succ i)
  nlinarith [mul_nonneg h0 (show 0 ≤ x (i + 1) - expAvg α x b p i by linarith)]

/-- **C141** Moving averages of prices which never fall never fall, and are never above the price. -/
theorem C141_averages (hp : 1 ≤ p) :
    Trails (Ind.sma p : Line (Ext K) → _) (p - 1) ∧ Trails (Ind.ema p : Line (Ext K) → _) (p - 1) ∧
    Trails (Ind.smma p : Line (Ext K) → _) (p - 1) ∧ Trails (Ind.wma p : Line (Ext K) → _) (p - 1) ∧
    Trails (Ind.trima p : Line (Ext K) → _) (p - 1) := by
  refine ⟨trails_of sma_isMA smaF_averages (fun p hp x b i hx _ => ?_) hp, trails_of ema_isMA emaF_averages (fun p hp x b i hx hi => ?_) hp,
    trails_of smma_isMA smmaF_averages (fun p hp x b i hx hi => ?_) hp, trails_of wma_isMA wmaF_averages (fun p hp x b i hx _ => ?_) hp,
    trails_of trima_isMA trimaF_averages (fun p hp x b i hx _ => ?_) hp⟩
  · unfold smaF; rw [winMean_eq x hp, winMean_eq x hp]; exact wmean_rises (fun _ _ => zero_le_one) hx i
  · exact expAvg_rises (ema_alpha hp).1 (ema_alpha hp).2 hp hx hi
  · exact expAvg_rises (smma_alpha hp).1 (smma_alpha hp).2 hp hx hi
  · exact wmean_rises (fun _ _ => Nat.cast_nonneg _) hx i
  · exact wmean_rises (fun _ _ => Nat.cast_nonneg _) hx i

/-- **C141** The same for averages of averages. -/
theorem C141_chain {f g : Line (Ext K) → Except Err (Line (Ext K))} {d e : ℕ} (hf : Trails f d) (hg : Trails g e) :
    Trails (fun a => f a >>= g) (d + e) := by
  intro a n m x ha hx hn
  obtain ⟨r, u, r1, r2, r3, r4⟩ := hf a n m x ha hx (by omega)
  obtain ⟨s, w, s1, s2, s3, s4⟩ := hg r n (m + d) u r2.toRepW r3 (by omega)
  refine ⟨s, w, by show (f a).bind g = _; rw [r1]; exact s1, by rw [← Nat.add_assoc]; exact s2, by rw [← Nat.add_assoc]; exact s3,
    fun i h1 h2 => (s4 i (by omega) h2).trans (r4 i (by omega) h2)⟩

/-! ### the faster average is above the slower one -/

theorem winMean_le_last (hx : Monotone x) (hp : 1 ≤ p) (i : ℕ) : winMean x p i ≤ x i := by
  have h0 : (0 : K) < p := by exact_mod_cast hp
  unfold winMean winSum
  rw [div_le_iff₀ h0]
  calc ∑ j ∈ range p, x (i - j) ≤ ∑ _j ∈ range p, x i := sum_le_sum fun j _ => hx (by omega)
    _ = x i * p := by simp [mul_comm]

theorem winMean_succ (x : ℕ → K) (hp : 1 ≤ p) (i : ℕ) :
    winMean x (p + 1) (i + 1) = winMean x p i + 1 / ((p : K) + 1) * (x (i + 1) - winMean x p i) := by
  have h0 : (p : K) ≠ 0 := by exact_mod_cast (by omega : p ≠ 0)
  have h1 : (p : K) + 1 ≠ 0 := by positivity
  unfold winMean
  rw [winSum_succ]
  push_cast
  field_simp
  ring

theorem ema_ge_mean {b : ℕ} (hx : Monotone x) (hp : 1 ≤ p) (d : ℕ) :
    winMean x (p + d) (b + p - 1 + d) ≤ emaF p x b (b + p - 1 + d) := by
  induction d with
  | zero =>
    unfold emaF Spec.ema expAvg
    rw [show b + p - 1 + 0 - (b + p - 1) = 0 by omega]
    exact le_refl _
  | succ d ih =>
    have e := expAvg_succ (2 / ((p : K) + 1)) x b p (b + p - 1 + d) (by omega)
    rw [← Nat.add_assoc p d 1, ← Nat.add_assoc (b + p - 1) d 1, winMean_succ x (by omega)]
    unfold emaF Spec.ema at ih ⊢
    rw [e]
    have q0 := ema_alpha (K := K) hp
    have hl := (winMean_le_last hx (show 1 ≤ p + d by omega) (b + p - 1 + d)).trans (hx (Nat.le_succ _))
    have hb : 1 / (((p + d : ℕ) : K) + 1) ≤ 2 / ((p : K) + 1) := by
      have : (0 : K) ≤ d := Nat.cast_nonneg d
      have : (1 : K) ≤ p := by exact_mod_cast hp
      push_cast
      rw [div_le_div_iff₀ (by linarith) (by linarith)]
      linarith
    set M := winMean x (p + d) (b + p - 1 + d)
    set E := expAvg (2 / ((p : K) + 1)) x b p (b + p - 1 + d)
    set X := x (b + p - 1 + d + 1)
    nlinarith [mul_nonneg (sub_nonneg.2 hb) (sub_nonneg.2 hl), mul_nonneg (sub_nonneg.2 q0.2) (sub_nonneg.2 ih)]

theorem ema_fast_slow {pf ps b : ℕ} (hx : Monotone x) (h1 : 1 ≤ pf) (h2 : pf ≤ ps) (hi : b + (ps - 1) ≤ i) : emaF ps x b i ≤ emaF pf x b i := by
  obtain ⟨d, rfl⟩ := Nat.exists_eq_add_of_le hi
  rw [show b + (ps - 1) + d = b + ps - 1 + d by omega]
  induction d with
  | zero =>
    have := ema_ge_mean (b := b) hx h1 (ps - pf)
    rw [show b + pf - 1 + (ps - pf) = b + ps - 1 + 0 by omega, show pf + (ps - pf) = ps by omega] at this
    refine le_trans (le_of_eq ?_) this
    unfold emaF Spec.ema expAvg
    rw [show b + ps - 1 + 0 - (b + ps - 1) = 0 by omega]
    rfl
  | succ d ih =>
    have ih := ih (by omega)
    have ef := expAvg_succ (2 / ((pf : K) + 1)) x b pf (b + ps - 1 + d) (by omega)
    have es := expAvg_succ (2 / ((ps : K) + 1)) x b ps (b + ps - 1 + d) (by omega)
    have hl : expAvg (2 / ((ps : K) + 1)) x b ps (b + ps - 1 + d) ≤ x (b + ps - 1 + d + 1) :=
      (expAvg_bounds (ema_alpha (show 1 ≤ ps by omega)).1 (ema_alpha (show 1 ≤ ps by omega)).2 (show 1 ≤ ps by omega)
        (show b + (ps - 1) ≤ b + ps - 1 + d by omega) fun j _ h4 =>
          (⟨hx (Nat.zero_le j), hx (by omega)⟩ : x 0 ≤ x j ∧ x j ≤ x (b + ps - 1 + d + 1))).2
    rw [← Nat.add_assoc (b + ps - 1) d 1]
    unfold emaF Spec.ema at ih ⊢
    rw [ef, es]
    have q0 := ema_alpha (K := K) h1
    have hb : 2 / ((ps : K) + 1) ≤ 2 / ((pf : K) + 1) := by
      have s0 : (pf : K) ≤ ps := by exact_mod_cast h2
      have : (1 : K) ≤ pf := by exact_mod_cast h1
      rw [div_le_div_iff₀ (by linarith) (by linarith)]
      linarith
    nlinarith [mul_nonneg (sub_nonneg.2 hb) (sub_nonneg.2 hl), mul_nonneg (sub_nonneg.2 q0.2) (sub_nonneg.2 ih)]

theorem sma_fast_slow {pf ps b : ℕ} (hx : Monotone x) (h1 : 1 ≤ pf) (h2 : pf ≤ ps) (i : ℕ) : smaF ps x b i ≤ smaF pf x b i := by
  unfold smaF
  obtain ⟨d, rfl⟩ := Nat.exists_eq_add_of_le h2
  induction d with
  | zero => exact le_refl _
  | succ d ih =>
    refine le_trans ?_ (ih (by omega))
    have h0 : (0 : K) < ((pf + d : ℕ) : K) := by exact_mod_cast (by omega : 0 < pf + d)
    unfold winMean winSum
    rw [← Nat.add_assoc, sum_range_succ, div_le_div_iff₀ (by positivity) h0]
    have : ((pf + d : ℕ) : K) * x (i - (pf + d)) ≤ ∑ j ∈ range (pf + d), x (i - j) := by
      calc ((pf + d : ℕ) : K) * x (i - (pf + d)) = ∑ _j ∈ range (pf + d), x (i - (pf + d)) := by simp
        _ ≤ _ := sum_le_sum fun j hj => hx (by have := mem_range.1 hj; omega)
    push_cast at this ⊢
    nlinarith

/-- **C141** macd and apo of prices which never fall are never negative, with exponential (the default) and with simple averages. -/
theorem C141_macd (ha : Holds a n m x) (hx : Rises x m n) {pf ps psig : ℕ} (h1 : 1 ≤ pf) (h2 : pf ≤ ps) (h3 : 1 ≤ psig)
    (hn : m + (ps - 1) + (psig - 1) ≤ n) :
    (Gives (Ind.macd Ind.ema Ind.ema Ind.ema pf ps psig a) fun r => ∃ g, Shows r.1 n (m + (ps - 1)) g ∧ ∀ i, m + (ps - 1) ≤ i + 1 → 0 ≤ g i) ∧
    (Gives (Ind.macd Ind.sma Ind.sma Ind.sma pf ps psig a) fun r => ∃ g, Shows r.1 n (m + (ps - 1)) g ∧ ∀ i, m + (ps - 1) ≤ i + 1 → 0 ≤ g i) ∧
    (Gives (Ind.apo Ind.ema pf ps a) fun r => ∃ g, Shows r n (m + (ps - 1)) g ∧ ∀ i, m + (ps - 1) ≤ i + 1 → 0 ≤ g i) ∧
    (Gives (Ind.apo Ind.sma pf ps a) fun r => ∃ g, Shows r n (m + (ps - 1)) g ∧ ∀ i, m + (ps - 1) ≤ i + 1 → 0 ≤ g i) := by
  obtain ⟨y, hy, hmono, e⟩ := rises_everywhere ha hx
  have hm := ha.pos
  refine ⟨(C20_macd ema_isMA ema_isMA hy h1 h2 h3 hn).imp fun r hr => ⟨_, hr.main, fun i hi => sub_nonneg.2 (ema_fast_slow hmono h1 h2 (by omega))⟩,
    (C20_macd sma_isMA sma_isMA hy h1 h2 h3 hn).imp fun r hr => ⟨_, hr.main, fun i hi => sub_nonneg.2 (sma_fast_slow hmono h1 h2 i)⟩,
    (C48_apo ema_isMA hy h1 h2 (by omega)).imp fun r hr => ⟨_, hr, fun i hi => sub_nonneg.2 (ema_fast_slow hmono h1 h2 (by omega))⟩,
    (C48_apo sma_isMA hy h1 h2 (by omega)).imp fun r hr => ⟨_, hr, fun i hi => sub_nonneg.2 (sma_fast_slow hmono h1 h2 i)⟩⟩

/-- **C141** The price never crosses below an average of it. -/
theorem C141_never_below {f : Line (Ext K) → Except Err (Line (Ext K))} {e : ℕ} (hf : Trails f e) (strict : Bool) (ha : Holds a n m x)
    (hx : Rises x m n) (hn : m + e ≤ n) :
    ∃ r, f a = .ok r ∧ Shows (Ind.crossdown strict a r) n (m + e + 1) fun _ => 0 := by
  obtain ⟨r, g, r1, r2, r3, r4⟩ := hf a n m x ha hx hn
  refine ⟨r, r1, ?_⟩
  obtain ⟨u, d, d1, d2, d3⟩ := C36_cross strict ha r2.toRepW
  refine shows_congr d2 (by omega) fun i h1 h2 => ?_
  refine (d3 i (by omega) h2).2.2.2 fun hc => ?_
  exact absurd hc.1 (not_lt.2 (r4 i (by omega) h2))

/-- **C141** The slope of the regression line of prices which never fall is never negative, and neither is their momentum. -/
theorem C141_slope (ha : Holds a n m x) (hx : Rises x m n) :
    (2 ≤ p → ∃ g, Shows (Ind.linregSlope p a) n (m + p - 1) g ∧ ∀ i, m + p - 1 ≤ i + 1 → i < n → 0 ≤ g i) ∧
    ∃ g, Shows (Ind.mom p a) n (m + p) g ∧ ∀ i, m + p ≤ i + 1 → i < n → 0 ≤ g i := by
  have hm := ha.pos
  constructor
  · intro hp
    rw [C139_slope ha (bars_holds n fun i => (i : K)) hm hp]
    refine ⟨fun i => xyDet (fun i : ℕ => (i : K)) x p i / lsDet (fun k => ((i - k : ℕ) : K)) p,
      (beta_value (bars_holds n fun i => (i : K)) ha (by omega)).congr (by omega) fun i h1 h2 => ?_, fun i h1 h2 => ?_⟩
    · refine if_neg fun h => ?_
      have hf : Flat (fun i : ℕ => (i : K)) p i := (lsDet_flat (by omega)).1 h
      have h' : ((i - 0 : ℕ) : K) = ((i - 1 : ℕ) : K) := hf 0 1 (by omega) (by omega)
      have : (i - 0 : ℕ) = i - 1 := by exact_mod_cast h'
      omega
    · refine div_nonneg (sub_nonneg.2 ?_) ?_
      · have : MonovaryOn (fun k => ((i - k : ℕ) : K)) (fun k => x (i - k)) (range p : Finset ℕ) := by
          intro j hj k hk hjk
          have hj := mem_range.1 (mem_coe.1 hj)
          have hk := mem_range.1 (mem_coe.1 hk)
          by_contra hc
          have : i - k < i - j := by
            have : ((i - k : ℕ) : K) < ((i - j : ℕ) : K) := not_le.1 hc
            exact_mod_cast this
          exact absurd hjk (not_lt.2 (hx.le (by omega) this.le (by omega)))
        have := this.sum_mul_sum_le_card_mul_sum
        rwa [card_range] at this
      · rw [lsDet_split _ (show 1 ≤ p by omega)]
        exact mul_nonneg (Nat.cast_nonneg _) (sum_nonneg fun k _ => sq_nonneg _)
  · exact ⟨_, C44_mom ha p, fun i h1 h2 => sub_nonneg.2 (hx.le (by omega) (by omega) h2)⟩

/-- **C141** Prices which rise from bar to bar: rsi (with Wilder's average, the default) is 100, aroon up 100 and aroon down 0. -/
theorem C141_rsi (ha : Holds a n m x) (hx : RisesStrictly x m n) (hp : 1 ≤ p) :
    (m + p ≤ n → Gives (Ind.rsi Ind.smma 1 p a) fun r => Shows r n (m + p) fun _ => 100) ∧
    Shows (Ind.aroonUp p a) n (m + p) (fun _ => 100) ∧ Shows (Ind.aroonDn p a) n (m + p) fun _ => 0 := by
  have hm := ha.pos
  refine ⟨fun hn => ?_, ?_, ?_⟩
  · obtain ⟨r, r1, r2⟩ := C21_formula smma_isMA smmaF_mono smmaF_nonneg ha (q := 1) hp (show m + 1 + ext1 p ≤ n by unfold ext1; omega)
    obtain ⟨s, s1, s2⟩ := C21_no_down smma_isMA smmaF_mono smmaF_nonneg smmaF_posWin smmaF_affine.zero ha (q := 1) hp
      (show m + 1 + ext1 p ≤ n by unfold ext1; omega)
    obtain rfl : r = s := by rw [r1] at s1; exact Except.ok.inj s1
    have e : m + 1 + ext1 p = m + p := by unfold ext1; omega
    refine ⟨r, r1, r2.congr e fun i h1 h2 => ?_⟩
    have := s2 i (by omega) h2 (fun j h3 h4 => hx.rises.le (by omega) (by omega) (by omega))
      ⟨i, by omega, by omega, le_refl _, hx.lt (by omega) (by omega) h2⟩
    rw [r2.val i (by omega) h2] at this
    exact Option.some.inj this
  · obtain ⟨u, u1, u2⟩ := C25_up_extremes ha hp
    exact shows_congr u1 rfl fun i h1 h2 => (u2 i).2.2.1.2 fun j hj => hx.rises.le (by omega) (by omega) h2
  · obtain ⟨u, u1, u2⟩ := C25_down_extremes ha hp
    exact shows_congr u1 rfl fun i h1 h2 => (u2 i).2.2.2.2 fun j hj => hx.lt (by omega) (by omega) (by omega)

/-- **C141** obv grows by the whole volume of each bar. -/
theorem C141_obv (hc : Holds c n m C) (hw : Holds v n m W) (hx : RisesStrictly C m n) :
    ∃ y, Shows (Ind.obv false 1 c v) n (m + 1) y ∧ ∀ i, m + 1 ≤ i → i < n → y i = y (i - 1) + W i := by
  obtain ⟨y, y1, -, y3⟩ := C34_obv hc hw
  have hm := hc.pos
  refine ⟨y, shows_congr y1 (by omega) fun _ _ _ => rfl, fun i h1 h2 => ?_⟩
  rw [y3 i (by omega), if_pos (hx.lt (by omega) (by omega) h2)]

/-- **C141** mfi is 100, for positive prices and volumes. -/
theorem C141_mfi (hh : Holds h n m H) (hl : Holds l n m L) (hc : Holds c n m C) (hv : Holds v n m W) (hp : 1 ≤ p)
    (hpos : ∀ i, m ≤ i + 1 → i < n → 0 < H i ∧ 0 < L i ∧ 0 < C i ∧ 0 < W i) (h1 : RisesStrictly H m n) (h2 : RisesStrictly L m n)
    (h3 : RisesStrictly C m n) : Shows (Ind.mfi p h l c v) n (m + p) fun _ => 100 := by
  have hm := hh.pos
  refine (C26_formula hh hl hc hv hp fun i i1 i2 => ?_).congr rfl fun i i1 i2 => ?_
  · obtain ⟨q1, q2, q3, q4⟩ := hpos i i1 i2; exact ⟨q1.le, q2.le, q3.le, q4.le⟩
  · have up : ∀ k, k < p → tp H L C (i - k - 1) < tp H L C (i - k) := fun k hk => by
      have a1 := h1.lt (i := i - k - 1) (j := i - k) (by omega) (by omega) (by omega)
      have a2 := h2.lt (i := i - k - 1) (j := i - k) (by omega) (by omega) (by omega)
      have a3 := h3.lt (i := i - k - 1) (j := i - k) (by omega) (by omega) (by omega)
      unfold tp
      exact div_lt_div_of_pos_right (by linarith) (by norm_num)
    have e1 : winSum (flowDown H L C W) p i = 0 := sum_eq_zero fun k hk => by
      unfold flowDown; rw [if_neg (up k (mem_range.1 hk)).le.not_gt]
    have e2 : 0 < winSum (flowUp H L C W) p i := sum_pos (fun k hk => by
      have hk := mem_range.1 hk
      unfold flowUp; rw [if_pos (up k hk)]
      obtain ⟨q1, q2, q3, q4⟩ := hpos (i - k) (by omega) (by omega)
      unfold tp
      exact mul_pos (div_pos (by linarith) (by norm_num)) q4) ⟨0, mem_range.2 (by omega)⟩
    rw [e1]
    unfold pct
    rw [add_zero, if_neg e2.ne', mul_div_assoc, div_self e2.ne', mul_one]

/-- **C141** If neither highs nor lows ever fall, the negative directional movement is 0, and minus_di is 0 (or NaN, if the true range is 0). -/
theorem C141_directional {S : Line (Ext K) → Except Err (Line (Ext K))} {G : (ℕ → K) → ℕ → ℕ → K} {d : ℕ} (hS : IsSmoother S G d) (hG : Sums G d)
    (hh : Holds h n m H) (hl : Holds l n m L) (hc : Holds c n m C) (h1 : Rises H m n) (h2 : Rises L m n) {q : ℕ} (hq : 1 ≤ q)
    (hv : ∀ i, m ≤ i + 1 → i < n → L i ≤ H i) (hn : m + q + d ≤ n) (talib : Bool) :
    Shows (Ind.mdm1 q h l) n (m + q) (fun _ => 0) ∧
    Gives (Ind.minusDi S q talib h l c) fun r => ∃ g, Delivers r n (m + q + d + 1) g ∧
      ∀ i, m + q + d + 1 ≤ i + 1 → i < n → g i = nan ∨ g i = fin 0 := by
  have hm := hh.pos
  have z : ∀ i, m + q ≤ i + 1 → i < n → minusDM H L q i = 0 := fun i i1 i2 => by
    have a1 := h1.le (i := i - q) (j := i) (by omega) (by omega) i2
    have a2 := h2.le (i := i - q) (j := i) (by omega) (by omega) i2
    unfold minusDM
    split
    · linarith
    · rfl
  refine ⟨shows_congr (dm1_shows hh hl hq).2 rfl z, (di_core hS hh hl hc hq hv hn talib).2.imp fun r hr => ⟨_, hr, fun i i1 i2 => ?_⟩⟩
  have e : G (minusDM H L q) (m + q - 1) i = 0 := by
    rw [← hG.zero (m + q - 1) i (by omega)]
    exact le_antisymm (hG.mono _ _ _ _ (by omega) fun j j1 j2 => (z j (by omega) (by omega)).le)
      (hG.mono _ _ _ _ (by omega) fun j j1 j2 => (z j (by omega) (by omega)).ge)
  rw [e, mul_zero]
  by_cases h0 : G (trueRange H L C q) (m + q - 1) i = 0
  · left; rw [h0]; simp
  · right; rw [Ext.fin_div _ h0, zero_div]

/-! ### a market which only falls -/

theorem falls_everywhere (ha : Holds a n m x) (hx : Falls x m n) :
    ∃ y, Holds a n m (fun i => -y i) ∧ Monotone y ∧ ∀ i, m ≤ i + 1 → i < n → -y i = x i := by
  obtain ⟨y, h1, h2, h3⟩ := rises_everywhere (x := fun i => -1 * x i) (Holds.rmulS ha (-1)).toRepW fun i i1 i2 => by
    have := hx i i1 i2; beta_reduce; linarith
  have e : ∀ i, m ≤ i + 1 → i < n → -y i = x i := fun i i1 i2 => by rw [h3 i i1 i2]; ring
  exact ⟨y, ⟨ha.len, ha.mp, ha.pos, fun i i1 i2 => by beta_reduce; rw [ha.val i i1 i2, e i i1 i2]⟩, h2, e⟩

theorem affine_neg {F : ℕ → (ℕ → K) → ℕ → ℕ → K} (hA : Affine F ext1) (hp : 1 ≤ p) (x : ℕ → K) {b : ℕ} (hi : b + (p - 1) ≤ i) :
    F p (fun i => -x i) b i = -F p x b i := by
  have := hA p hp x b i (-1) 0 hi
  simpa using this

theorem trails_down_of {f : MA (Ext K)} {F : ℕ → (ℕ → K) → ℕ → ℕ → K} (hf : IsMA f F ext1) (hB : Averages F ext1) (hA : Affine F ext1)
    (hr : ∀ p, 1 ≤ p → ∀ (x : ℕ → K) b i, Monotone x → b + (p - 1) ≤ i → F p x b i ≤ F p x b (i + 1)) (hp : 1 ≤ p) :
    TrailsDown (f p) (p - 1) := by
  intro a n m x ha hx hn
  obtain ⟨y, hy, hmono, e⟩ := falls_everywhere ha hx
  have hm := ha.pos
  obtain ⟨r, r1, r2⟩ := hf p hp a n m _ hy hn
  refine ⟨r, _, r1, r2, fun i h1 h2 => ?_, fun i h1 h2 => ?_⟩
  · rw [affine_neg hA hp y (by omega), affine_neg hA hp y (by omega)]
    exact neg_le_neg (hr p hp y (m - 1) i hmono (by omega))
  · rw [← e i (by omega) h2, affine_neg hA hp y (by omega)]
    exact neg_le_neg (hB p hp y (m - 1) i (y 0) (y i) (by unfold ext1; omega) fun j _ h4 => ⟨hmono (Nat.zero_le j), hmono h4⟩).2

/-- **C141** Moving averages of prices which never rise never rise, and are never below the price. -/
theorem C141_averages_down (hp : 1 ≤ p) :
    TrailsDown (Ind.sma p : Line (Ext K) → _) (p - 1) ∧ TrailsDown (Ind.ema p : Line (Ext K) → _) (p - 1) ∧
    TrailsDown (Ind.smma p : Line (Ext K) → _) (p - 1) ∧ TrailsDown (Ind.wma p : Line (Ext K) → _) (p - 1) ∧
    TrailsDown (Ind.trima p : Line (Ext K) → _) (p - 1) := by
  refine ⟨trails_down_of sma_isMA smaF_averages smaF_affine (fun p hp x b i hx _ => ?_) hp,
    trails_down_of ema_isMA emaF_averages emaF_affine (fun p hp x b i hx hi => ?_) hp,
    trails_down_of smma_isMA smmaF_averages smmaF_affine (fun p hp x b i hx hi => ?_) hp,
    trails_down_of wma_isMA wmaF_averages wmaF_affine (fun p hp x b i hx _ => ?_) hp,
    trails_down_of trima_isMA trimaF_averages trimaF_affine (fun p hp x b i hx _ => ?_) hp⟩
  · unfold smaF; rw [winMean_eq x hp, winMean_eq x hp]; exact wmean_rises (fun _ _ => zero_le_one) hx i
  · exact expAvg_rises (ema_alpha hp).1 (ema_alpha hp).2 hp hx hi
  · exact expAvg_rises (smma_alpha hp).1 (smma_alpha hp).2 hp hx hi
  · exact wmean_rises (fun _ _ => Nat.cast_nonneg _) hx i
  · exact wmean_rises (fun _ _ => Nat.cast_nonneg _) hx i

/-- **C141** macd and apo of prices which never rise are never positive. -/
theorem C141_macd_down (ha : Holds a n m x) (hx : Falls x m n) {pf ps psig : ℕ} (h1 : 1 ≤ pf) (h2 : pf ≤ ps) (h3 : 1 ≤ psig)
    (hn : m + (ps - 1) + (psig - 1) ≤ n) :
    (Gives (Ind.macd Ind.ema Ind.ema Ind.ema pf ps psig a) fun r => ∃ g, Shows r.1 n (m + (ps - 1)) g ∧ ∀ i, m + (ps - 1) ≤ i + 1 → g i ≤ 0) ∧
    (Gives (Ind.apo Ind.ema pf ps a) fun r => ∃ g, Shows r n (m + (ps - 1)) g ∧ ∀ i, m + (ps - 1) ≤ i + 1 → g i ≤ 0) := by
  obtain ⟨y, hy, hmono, e⟩ := falls_everywhere ha hx
  have hm := ha.pos
  have key : ∀ i, m + (ps - 1) ≤ i + 1 → emaF pf (fun i => -y i) (m - 1) i - emaF ps (fun i => -y i) (m - 1) i ≤ 0 := fun i hi => by
    rw [affine_neg emaF_affine h1 y (by omega), affine_neg emaF_affine (show 1 ≤ ps by omega) y (by omega)]
    have := ema_fast_slow (b := m - 1) hmono h1 h2 (show m - 1 + (ps - 1) ≤ i by omega)
    linarith
  exact ⟨(C20_macd ema_isMA ema_isMA hy h1 h2 h3 hn).imp fun r hr => ⟨_, hr.main, key⟩,
    (C48_apo ema_isMA hy h1 h2 (by omega)).imp fun r hr => ⟨_, hr, key⟩⟩

theorem _root_.Spec.FallsStrictly.lt (hx : FallsStrictly x m n) (hi : m ≤ i + 1) (hij : i < j) (hj : j < n) : x j < x i := by
  have : RisesStrictly (fun i => -x i) m n := fun i h1 h2 => neg_lt_neg (hx i h1 h2)
  exact neg_lt_neg_iff.1 (this.lt hi hij hj)

/-- **C141** Prices which fall from bar to bar: rsi is 0, aroon up 0 and aroon down 100. -/
theorem C141_rsi_down (ha : Holds a n m x) (hx : FallsStrictly x m n) (hp : 1 ≤ p) :
    (m + p ≤ n → Gives (Ind.rsi Ind.smma 1 p a) fun r => Shows r n (m + p) fun _ => 0) ∧
    Shows (Ind.aroonUp p a) n (m + p) (fun _ => 0) ∧ Shows (Ind.aroonDn p a) n (m + p) fun _ => 100 := by
  have hm := ha.pos
  refine ⟨fun hn => ?_, ?_, ?_⟩
  · obtain ⟨r, r1, r2⟩ := C21_formula smma_isMA smmaF_mono smmaF_nonneg ha (q := 1) hp (show m + 1 + ext1 p ≤ n by unfold ext1; omega)
    obtain ⟨s, s1, s2⟩ := C21_no_up smma_isMA smmaF_mono smmaF_nonneg smmaF_posWin smmaF_affine.zero ha (q := 1) hp
      (show m + 1 + ext1 p ≤ n by unfold ext1; omega)
    obtain rfl : r = s := by rw [r1] at s1; exact Except.ok.inj s1
    have e : m + 1 + ext1 p = m + p := by unfold ext1; omega
    refine ⟨r, r1, r2.congr e fun i h1 h2 => ?_⟩
    have := s2 i (by omega) h2 (fun j h3 h4 => (hx.lt (by omega) (by omega) (by omega)).le)
      ⟨i, by omega, by omega, le_refl _, hx.lt (by omega) (by omega) h2⟩
    rw [r2.val i (by omega) h2] at this
    exact Option.some.inj this
  · obtain ⟨u, u1, u2⟩ := C25_up_extremes ha hp
    exact shows_congr u1 rfl fun i h1 h2 => (u2 i).2.2.2.2 fun j hj => hx.lt (by omega) (by omega) (by omega)
  · obtain ⟨u, u1, u2⟩ := C25_down_extremes ha hp
    refine shows_congr u1 rfl fun i h1 h2 => (u2 i).2.2.1.2 fun j hj => ?_
    rcases Nat.eq_zero_or_pos j with rfl | h
    · exact le_refl _
    · exact (hx.lt (by omega) (by omega) (by omega)).le

/-! ### concrete cases -/

example : Rises (fun i => if i < 2 then (5 : ℚ) else i + 4) 1 6 ∧ RisesStrictly (fun i => ((i * i : ℕ) : ℚ)) 1 6 := by
  constructor
  · intro i _ _
    beta_reduce
    rcases Nat.lt_or_ge i 2 with h | h
    · rw [if_pos h]; split
      · exact le_refl _
      · have : (1 : ℚ) ≤ i := by exact_mod_cast (by omega : 1 ≤ i)
        push_cast; linarith
    · rw [if_neg (by omega), if_neg (by omega)]; push_cast; linarith
  · intro i _ _
    show ((i * i : ℕ) : ℚ) < (((i + 1) * (i + 1) : ℕ) : ℚ)
    exact_mod_cast (by nlinarith : i * i < (i + 1) * (i + 1))
example : Trails (fun a : Line (Ext ℚ) => Ind.ema 5 a >>= Ind.sma 3) 6 :=
  C141_chain (C141_averages (p := 5) (by omega)).2.1 (C141_averages (p := 3) (by omega)).1
example : (Ind.macd Ind.ema Ind.ema Ind.ema 2 3 1 (bars 5 fun i => ((i * i : ℕ) : ℚ))).map (·.1) =
    .ok ⟨[.nan, .nan, .fin (7/6), .fin (29/18), .fin (125/54)], 3⟩ := by decide +kernel
/-- of prices which fall once macd may be negative -/
example : (Ind.macd Ind.ema Ind.ema Ind.ema 2 3 1 (bars 4 fun i => if i = 3 then (-3 : ℚ) else i)).map (fun r => r.1.series[3]?) =
    .ok (some (.fin (-1/2))) := by decide +kernel
example : Ind.rsi Ind.smma 1 2 (bars 5 fun i => ((i * i : ℕ) : ℚ)) = .ok ⟨[.nan, .nan, .fin 100, .fin 100, .fin 100], 3⟩ := by decide +kernel

end Bta
