import Verif.Props.More
import Verif.Props.Osc
import Mathlib.Tactic.LinearCombination

/-!
# Averages of spreads, of changes and of averages (C135)
-/

set_option linter.unusedSectionVars false

namespace Spec
open Bta

variable {K : Type} [Field K] [LinearOrder K] [IsStrictOrderedRing K]

/-- `f` calculates each value from the last `p` bars, with fixed weights. -/
def Weighted (f : Line (Ext K) → Except Err (Line (Ext K))) (p : ℕ) : Prop :=
  ∃ w : ℕ → K, ∀ (a : Line (Ext K)) (n m : ℕ) (x : ℕ → K), Holds a n m x → m + (p - 1) ≤ n →
    ∃ r, f a = .ok r ∧ Shows r n (m + (p - 1)) fun i => ∑ j ∈ Finset.range p, w j * x (i - j)

/-- `f` (which needs `e` bars more than its input) of a sum or difference of lines which start at the same bar is the sum or
difference of `f` of each (and these are delivered, as numbers, `e` bars later). -/
def Superposes (f : Line (Ext K) → Except Err (Line (Ext K))) (e : ℕ) : Prop :=
  ∀ (a b : Line (Ext K)) (n m : ℕ) (x y : ℕ → K), Holds a n m x → Holds b n m y → m + e ≤ n →
    ∃ r s u v, f a = .ok r ∧ f b = .ok s ∧ f (a + b) = .ok (r + s) ∧ f (a - b) = .ok (r - s) ∧
      Shows r n (m + e) u ∧ Shows s n (m + e) v

end Spec

namespace Bta
open Line Ext Ind Spec Finset

variable {K : Type} [Field K] [LinearOrder K] [IsStrictOrderedRing K]
variable {a b : Line (Ext K)} {n m m' : ℕ} {x y : ℕ → K}

/-- **C135** sma, wma, trima and sums are weighted with fixed weights. -/
theorem C135_weighted {p : ℕ} (hp : 1 ≤ p) :
    Weighted (K := K) (Ind.sma p) p ∧ Weighted (K := K) (Ind.wma p) p ∧ Weighted (K := K) (Ind.trima p) p ∧
      Weighted (K := K) (fun a => .ok (Ind.sumN p a)) p := by
  refine ⟨⟨fun _ => 1 / p, fun a n m x ha hn => ?_⟩,
    ⟨fun j => ((p - j : ℕ) : K) / ∑ j ∈ range p, ((p - j : ℕ) : K), fun a n m x ha hn => ?_⟩,
    ⟨fun j => (Spec.triWeight p j : K) / ∑ j ∈ range p, (Spec.triWeight p j : K), fun a n m x ha hn => ?_⟩,
    ⟨fun _ => 1, fun a n m x ha hn => ?_⟩⟩
  · obtain ⟨r, e, h⟩ := sma_isMA p hp a n m x ha hn
    refine ⟨r, e, shows_congr h rfl fun i _ _ => ?_⟩
    show Spec.winSum x p i / p = _
    rw [← mul_sum, Spec.winSum]; ring
  · obtain ⟨r, e, h⟩ := wma_isMA p hp a n m x ha hn
    refine ⟨r, e, shows_congr h rfl fun i _ _ => ?_⟩
    show Spec.wma x p i = _
    rw [Spec.wma, sum_div]
    exact sum_congr rfl fun j _ => by ring
  · obtain ⟨r, e, h⟩ := trima_isMA p hp a n m x ha hn
    refine ⟨r, e, shows_congr h rfl fun i _ _ => ?_⟩
    show Spec.trima x p i = _
    rw [Spec.trima, sum_div]
    exact sum_congr rfl fun j _ => by ring
  · have := ha.pos
    exact ⟨_, rfl, shows_congr (ha.rollSum hp) (by omega) fun i _ _ => by simp only [one_mul]; rfl⟩

/-- **C135** (window averages) Of a sum or difference of two lines - with whatever minimum periods - the average is the sum or
difference of the averages: same values at the same bars, same minimum period. -/
theorem C135_spread {f : Line (Ext K) → Except Err (Line (Ext K))} {p : ℕ} (hf : Weighted f p) (ha : Holds a n m x)
    (hb : Holds b n m' y) (hn : max m m' + (p - 1) ≤ n) :
    ∃ r s, f a = .ok r ∧ f b = .ok s ∧ f (a + b) = .ok (r + s) ∧ f (a - b) = .ok (r - s) := by
  obtain ⟨w, hf⟩ := hf
  obtain ⟨r, e1, h1⟩ := hf a n m x ha (by omega)
  obtain ⟨s, e2, h2⟩ := hf b n m' y hb (by omega)
  obtain ⟨t, e3, h3⟩ := hf _ n _ _ (Holds.add ha hb).toRepW hn
  obtain ⟨t', e4, h4⟩ := hf _ n _ _ (Holds.sub ha hb).toRepW hn
  refine ⟨r, s, e1, e2, ?_, ?_⟩
  · rw [e3]
    refine congrArg Except.ok (Rep.ext (shows_congr h3 (by omega) fun i _ _ => ?_) (Holds.add h1.toRepW h2.toRepW) fun i _ _ => rfl)
    rw [← sum_add_distrib]
    exact sum_congr rfl fun j _ => by ring
  · rw [e4]
    refine congrArg Except.ok (Rep.ext (shows_congr h4 (by omega) fun i _ _ => ?_) (Holds.sub h1.toRepW h2.toRepW) fun i _ _ => rfl)
    rw [← sum_sub_distrib]
    exact sum_congr rfl fun j _ => by ring

/-- **C135** (window averages) The average of the changes over `q` bars is the change of the average, and the average of the line
`q` bars ago is the average `q` bars ago. -/
theorem C135_change {f : Line (Ext K) → Except Err (Line (Ext K))} {p q : ℕ} (hq : 1 ≤ q) (hf : Weighted f p)
    (ha : Holds a n m x) (hn : m + q + (p - 1) ≤ n) :
    ∃ r, f a = .ok r ∧ f (Ind.mom q a) = .ok (Ind.mom q r) ∧ f (ago (-(q : Int)) a) = .ok (ago (-(q : Int)) r) := by
  have hm := ha.pos
  obtain ⟨w, hf⟩ := hf
  obtain ⟨r, e1, h1⟩ := hf a n m x ha (by omega)
  obtain ⟨t, e3, h3⟩ := hf _ n _ _ (Holds.diff ha q).toRepW (by omega)
  obtain ⟨t', e4, h4⟩ := hf _ n _ _ (Holds.ago ha hq).toRepW (by omega)
  refine ⟨r, e1, ?_, ?_⟩
  · show f (diff q a) = _
    rw [e3]
    refine congrArg Except.ok (Rep.ext (shows_congr h3 (by omega) fun i _ _ => ?_) (Holds.diff h1.toRepW q) fun i _ _ => rfl)
    rw [← sum_sub_distrib]
    exact sum_congr rfl fun j _ => by rw [mul_sub, Nat.sub_right_comm]
  · rw [e4]
    refine congrArg Except.ok (Rep.ext (shows_congr h4 (by omega) fun i _ _ => ?_) (Holds.ago h1.toRepW hq) fun i _ _ => rfl)
    exact sum_congr rfl fun j _ => by rw [Nat.sub_right_comm]

/-- **C135** (window averages) Of two averages one after the other it does not matter which comes first. -/
theorem C135_order {f g : Line (Ext K) → Except Err (Line (Ext K))} {p q : ℕ} (hf : Weighted f p)
    (hg : Weighted g q) (ha : Holds a n m x) (hn : m + (p - 1) + (q - 1) ≤ n) :
    ∃ r s t, f a = .ok r ∧ g a = .ok s ∧ g r = .ok t ∧ f s = .ok t := by
  have hm := ha.pos
  obtain ⟨w, hf⟩ := hf
  obtain ⟨v, hg⟩ := hg
  obtain ⟨r, e1, h1⟩ := hf a n m x ha (by omega)
  obtain ⟨s, e2, h2⟩ := hg a n m x ha (by omega)
  obtain ⟨t, e3, h3⟩ := hg r n _ _ h1.toRepW hn
  obtain ⟨t', e4, h4⟩ := hf s n _ _ h2.toRepW (by omega)
  refine ⟨r, s, t, e1, e2, e3, ?_⟩
  rw [e4]
  refine congrArg Except.ok (Rep.ext (shows_congr h4 (by omega) fun i _ _ => ?_) h3 fun i _ _ => rfl)
  simp only [mul_sum]
  rw [sum_comm]
  exact sum_congr rfl fun j _ => sum_congr rfl fun k _ => by rw [Nat.sub_right_comm]; ring

/-! ## Exponential averages -/

theorem expRec_lin (α : K) (x y : ℕ → K) (c s0 s1 : K) (s j : ℕ) :
    Spec.expRec α (fun i => x i + c * y i) s (s0 + c * s1) j = Spec.expRec α x s s0 j + c * Spec.expRec α y s s1 j := by
  induction j with
  | zero => rfl
  | succ j ih => simp only [Spec.expRec, ih]; ring

theorem winMean_lin (x y : ℕ → K) (c : K) (p i : ℕ) :
    Spec.winMean (fun i => x i + c * y i) p i = Spec.winMean x p i + c * Spec.winMean y p i := by
  unfold Spec.winMean Spec.winSum
  rw [sum_add_distrib, ← mul_sum]; ring

theorem expAvg_lin (α : K) (x y : ℕ → K) (c : K) (s p i : ℕ) :
    Spec.expAvg α (fun i => x i + c * y i) s p i = Spec.expAvg α x s p i + c * Spec.expAvg α y s p i := by
  unfold Spec.expAvg
  rw [winMean_lin, expRec_lin]

theorem superposes_of {f : MA (Ext K)} {F : ℕ → (ℕ → K) → ℕ → ℕ → K} {e : ℕ → ℕ} (hf : IsMA f F e) {p : ℕ} (hp : 1 ≤ p)
    (hF : ∀ (x y : ℕ → K) (c : K) (s i : ℕ), F p (fun i => x i + c * y i) s i = F p x s i + c * F p y s i) :
    Superposes (f p) (e p) := fun a b n m x y ha hb hn => by
  obtain ⟨r, e1, h1⟩ := hf p hp a n m x ha hn
  obtain ⟨s, e2, h2⟩ := hf p hp b n m y hb hn
  obtain ⟨t, e3, h3⟩ := hf p hp _ n m _ (shows_congr (Holds.add ha hb) (max_self m)
    fun i _ _ => show x i + y i = x i + 1 * y i by ring).toRepW hn
  obtain ⟨t', e4, h4⟩ := hf p hp _ n m _ (shows_congr (Holds.sub ha hb) (max_self m)
    fun i _ _ => show x i - y i = x i + -1 * y i by ring).toRepW hn
  refine ⟨r, s, _, _, e1, e2, ?_, ?_, h1, h2⟩
  · rw [e3]
    exact congrArg Except.ok (Rep.ext (shows_congr h3 (max_self _).symm fun i _ _ => hF _ _ _ _ _) (Holds.add h1.toRepW h2.toRepW)
      fun i _ _ => by ring_nf)
  · rw [e4]
    exact congrArg Except.ok (Rep.ext (shows_congr h4 (max_self _).symm fun i _ _ => hF _ _ _ _ _) (Holds.sub h1.toRepW h2.toRepW)
      fun i _ _ => by ring_nf)

/-- **C135** ema and smma: for lines which start at the same bar. -/
theorem C135_exponential {p : ℕ} (hp : 1 ≤ p) : Superposes (K := K) (Ind.ema p) (p - 1) ∧ Superposes (K := K) (Ind.smma p) (p - 1) :=
  ⟨superposes_of (e := ext1) ema_isMA hp fun x y c s i => expAvg_lin _ x y c s p i,
    superposes_of (e := ext1) smma_isMA hp fun x y c s i => expAvg_lin _ x y c s p i⟩

theorem add_sub_lines {r r' s s' : Line (Ext K)} {m1 m2 : ℕ} {u u' v v' : ℕ → K} (hr : Shows r n m1 u) (hr' : Shows r' n m1 u')
    (hs : Shows s n m2 v) (hs' : Shows s' n m2 v') :
    (r + r') - (s + s') = (r - s) + (r' - s') ∧ (r - r') - (s - s') = (r - s) - (r' - s') ∧
      (r + r') + (s + s') = (r + s) + (r' + s') ∧ (r - r') + (s - s') = (r + s) - (r' + s') := by
  have hr := hr.toRepW
  have hr' := hr'.toRepW
  have hs := hs.toRepW
  have hs' := hs'.toRepW
  refine ⟨Rep.ext (Holds.sub (Holds.add hr hr').toRepW (Holds.add hs hs').toRepW)
      (shows_congr (Holds.add (Holds.sub hr hs).toRepW (Holds.sub hr' hs').toRepW) (by omega) fun _ _ _ => rfl) fun i _ _ => ?_,
    Rep.ext (Holds.sub (Holds.sub hr hr').toRepW (Holds.sub hs hs').toRepW)
      (shows_congr (Holds.sub (Holds.sub hr hs).toRepW (Holds.sub hr' hs').toRepW) (by omega) fun _ _ _ => rfl) fun i _ _ => ?_,
    Rep.ext (Holds.add (Holds.add hr hr').toRepW (Holds.add hs hs').toRepW)
      (shows_congr (Holds.add (Holds.add hr hs).toRepW (Holds.add hr' hs').toRepW) (by omega) fun _ _ _ => rfl) fun i _ _ => ?_,
    Rep.ext (Holds.add (Holds.sub hr hr').toRepW (Holds.sub hs hs').toRepW)
      (shows_congr (Holds.sub (Holds.add hr hs).toRepW (Holds.add hr' hs').toRepW) (by omega) fun _ _ _ => rfl) fun i _ _ => ?_⟩ <;>
  exact congrArg fin (by ring)

theorem rmulS_lines {r r' : Line (Ext K)} {m1 : ℕ} {u u' : ℕ → K} (hr : Shows r n m1 u) (hr' : Shows r' n m1 u') (c : K) :
    rmulS (fin c) (r + r') = rmulS (fin c) r + rmulS (fin c) r' ∧ rmulS (fin c) (r - r') = rmulS (fin c) r - rmulS (fin c) r' := by
  have hr := hr.toRepW
  have hr' := hr'.toRepW
  exact ⟨Rep.ext (Holds.rmulS (Holds.add hr hr').toRepW c) (Holds.add (Holds.rmulS hr c).toRepW (Holds.rmulS hr' c).toRepW)
      fun i _ _ => congrArg fin (by ring),
    Rep.ext (Holds.rmulS (Holds.sub hr hr').toRepW c) (Holds.sub (Holds.rmulS hr c).toRepW (Holds.rmulS hr' c).toRepW)
      fun i _ _ => congrArg fin (by ring)⟩

/-- **C135** dema and tema of any such average -/
theorem C135_fast {f : MA (Ext K)} {p e : ℕ} (hf : Superposes (f p) e) :
    Superposes (Ind.dema f p) (2 * e) ∧ Superposes (Ind.tema f p) (3 * e) := by
  have two : (lit 2 : Ext K) = fin 2 := by simp
  have three : (lit 3 : Ext K) = fin 3 := by simp
  constructor <;> intro a b n m x y ha hb hn
  · obtain ⟨r1, s1, u1, v1, e1, f1, p1, q1, h1, k1⟩ := hf a b n m x y ha hb (by omega)
    obtain ⟨r2, s2, u2, v2, e2, f2, p2, q2, h2, k2⟩ := hf r1 s1 n _ _ _ h1.toRepW k1.toRepW (by omega)
    have A := rmulS_lines h1 k1 2
    have hA := Holds.rmulS h1.toRepW 2
    have kA := Holds.rmulS k1.toRepW 2
    have B := add_sub_lines hA kA h2 k2
    refine ⟨rmulS (lit 2) r1 - r2, rmulS (lit 2) s1 - s2, _, _, ?_, ?_, ?_, ?_, shows_congr (two ▸ Holds.sub hA.toRepW h2.toRepW) (by omega)
      fun i _ _ => rfl, shows_congr (two ▸ Holds.sub kA.toRepW k2.toRepW) (by omega) fun i _ _ => rfl⟩
    · simp only [Ind.dema, e1, e2, bind, Except.bind, pure, Except.pure]
    · simp only [Ind.dema, f1, f2, bind, Except.bind, pure, Except.pure]
    · simp only [Ind.dema, p1, p2, bind, Except.bind, pure, Except.pure, two, A.1, B.1]
    · simp only [Ind.dema, q1, q2, bind, Except.bind, pure, Except.pure, two, A.2, B.2.1]
  · obtain ⟨r1, s1, u1, v1, e1, f1, p1, q1, h1, k1⟩ := hf a b n m x y ha hb (by omega)
    obtain ⟨r2, s2, u2, v2, e2, f2, p2, q2, h2, k2⟩ := hf r1 s1 n _ _ _ h1.toRepW k1.toRepW (by omega)
    obtain ⟨r3, s3, u3, v3, e3, f3, p3, q3, h3, k3⟩ := hf r2 s2 n _ _ _ h2.toRepW k2.toRepW (by omega)
    have A := rmulS_lines h1 k1 3
    have A2 := rmulS_lines h2 k2 3
    have hA := Holds.rmulS h1.toRepW 3
    have kA := Holds.rmulS k1.toRepW 3
    have hA2 := Holds.rmulS h2.toRepW 3
    have kA2 := Holds.rmulS k2.toRepW 3
    have B := add_sub_lines hA kA hA2 kA2
    have hB := Holds.sub hA.toRepW hA2.toRepW
    have kB := Holds.sub kA.toRepW kA2.toRepW
    have C := add_sub_lines hB kB h3 k3
    refine ⟨rmulS (lit 3) r1 - rmulS (lit 3) r2 + r3, rmulS (lit 3) s1 - rmulS (lit 3) s2 + s3, _, _, ?_, ?_, ?_, ?_,
      shows_congr (three ▸ Holds.add hB.toRepW h3.toRepW) (by omega) fun i _ _ => rfl,
      shows_congr (three ▸ Holds.add kB.toRepW k3.toRepW) (by omega) fun i _ _ => rfl⟩
    · simp only [Ind.tema, e1, e2, e3, bind, Except.bind, pure, Except.pure]
    · simp only [Ind.tema, f1, f2, f3, bind, Except.bind, pure, Except.pure]
    · simp only [Ind.tema, p1, p2, p3, bind, Except.bind, pure, Except.pure, three, A.1, A2.1, B.1, C.2.2.1]
    · simp only [Ind.tema, q1, q2, q3, bind, Except.bind, pure, Except.pure, three, A.2, A2.2, B.2.1, C.2.2.2]

/-- **C135** macd (with apo, which is its first line) of a sum or difference: line, signal and histogram are those of the two,
added or subtracted. -/
theorem C135_macd {f g h : MA (Ext K)} {pfast pslow psig e1 e2 e3 : ℕ} (hf : Superposes (f pfast) e1) (hg : Superposes (g pslow) e2)
    (hh : Superposes (h psig) e3) (ha : Holds a n m x) (hb : Holds b n m y) (hn : m + max e1 e2 + e3 ≤ n) :
    ∃ r s, Ind.macd f g h pfast pslow psig a = .ok r ∧ Ind.macd f g h pfast pslow psig b = .ok s ∧
      Ind.macd f g h pfast pslow psig (a + b) = .ok (r.1 + s.1, r.2.1 + s.2.1, r.2.2 + s.2.2) ∧
      Ind.macd f g h pfast pslow psig (a - b) = .ok (r.1 - s.1, r.2.1 - s.2.1, r.2.2 - s.2.2) := by
  obtain ⟨r1, s1, u1, v1, a1, f1, p1, q1, h1, k1⟩ := hf a b n m x y ha hb (by omega)
  obtain ⟨r2, s2, u2, v2, a2, f2, p2, q2, h2, k2⟩ := hg a b n m x y ha hb (by omega)
  have B := add_sub_lines h1 k1 h2 k2
  have hB := Holds.sub h1.toRepW h2.toRepW
  have kB := Holds.sub k1.toRepW k2.toRepW
  obtain ⟨r3, s3, u3, v3, a3, f3, p3, q3, h3, k3⟩ := hh (r1 - r2) (s1 - s2) n _ _ _ hB.toRepW kB.toRepW (by omega)
  have C := add_sub_lines hB kB h3 k3
  refine ⟨(r1 - r2, r3, r1 - r2 - r3), (s1 - s2, s3, s1 - s2 - s3), ?_, ?_, ?_, ?_⟩
  · simp only [Ind.macd, a1, a2, a3, bind, Except.bind, pure, Except.pure]
  · simp only [Ind.macd, f1, f2, f3, bind, Except.bind, pure, Except.pure]
  · simp only [Ind.macd, p1, p2, p3, bind, Except.bind, pure, Except.pure, B.1, C.1]
  · simp only [Ind.macd, q1, q2, q3, bind, Except.bind, pure, Except.pure, B.2.1, C.2.1]

/-! ## Where the start matters -/

/-- values of a result -/
def shown (r : Except Err (Line (Ext ℚ))) : List (Ext ℚ) := (r.toOption.map (·.series)).getD []

/-- **C135** (limits) The exponential averages start with a mean of the first values, which are not the same if the lines start at
different bars, if changes are averaged, or if averages are exchanged: ema(a + b) is not ema(a) + ema(b) if `b` starts later, ema(mom(a)) is not
mom(ema(a)), and ema(2) of ema(3) is not ema(3) of ema(2). -/
theorem C135_not_ema :
    (∃ (a b : Line (Ext ℚ)) (x y : ℕ → ℚ), Holds a 5 1 x ∧ Holds b 5 2 y ∧
      shown (Ind.ema 2 (a + b)) ≠ shown (do return (← Ind.ema 2 a) + (← Ind.ema 2 b))) ∧
    (∃ (a : Line (Ext ℚ)) (x : ℕ → ℚ), Holds a 5 1 x ∧ shown (Ind.ema 2 (Ind.mom 1 a)) ≠ shown (do return Ind.mom 1 (← Ind.ema 2 a))) ∧
    ∃ (a : Line (Ext ℚ)) (x : ℕ → ℚ), Holds a 5 1 x ∧ shown (do Ind.ema 2 (← Ind.ema 3 a)) ≠ shown (do Ind.ema 3 (← Ind.ema 2 a)) := by
  let y : ℕ → ℚ := fun i => if i = 0 then 1 else 0
  refine ⟨⟨bars 5 y, ⟨nan :: (List.replicate 4 (fin 0)), 2⟩, y, fun _ => 0, bars_holds 5 y, ⟨rfl, rfl, by norm_num, fun i h1 h2 => ?_⟩,
    by decide +kernel⟩, ⟨bars 5 y, y, bars_holds 5 y, by decide +kernel⟩, ⟨bars 5 y, y, bars_holds 5 y, by decide +kernel⟩⟩
  have : i = 1 ∨ i = 2 ∨ i = 3 ∨ i = 4 := by omega
  rcases this with h | h | h | h <;> subst h <;> rfl

/-- C135, a case: the spread of two lines of which one starts later -/
example : ∃ r s : Line (Ext ℚ), Ind.sma 3 (bars 8 fun i => (i : ℚ)) = .ok r ∧ Ind.sma 3 (Ind.mom 2 (bars 8 fun i => (i : ℚ) ^ 2)) = .ok s ∧
    Ind.sma 3 (bars 8 (fun i => (i : ℚ)) - Ind.mom 2 (bars 8 fun i => (i : ℚ) ^ 2)) = .ok (r - s) := by
  obtain ⟨r, s, h1, h2, _, h3⟩ := C135_spread (C135_weighted (K := ℚ) (p := 3) (by norm_num)).1 (bars_holds 8 fun i => (i : ℚ))
    (Holds.diff (bars_holds 8 fun i => (i : ℚ) ^ 2) 2).toRepW (by norm_num)
  exact ⟨r, s, h1, h2, h3⟩
example : ∃ r s t : Line (Ext ℚ), Ind.sma 3 (bars 8 fun i => (i : ℚ) ^ 2) = .ok r ∧ Ind.wma 4 (bars 8 fun i => (i : ℚ) ^ 2) = .ok s ∧
    Ind.wma 4 r = .ok t ∧ Ind.sma 3 s = .ok t :=
  C135_order (C135_weighted (by norm_num)).1 (C135_weighted (by norm_num)).2.1 (bars_holds 8 _) (by norm_num)
example : Superposes (K := ℚ) (Ind.dema Ind.ema 10) 18 := (C135_fast (C135_exponential (by norm_num)).1).1

end Bta
