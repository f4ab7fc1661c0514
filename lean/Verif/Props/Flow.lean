import Verif.Props.Ieee
import Verif.Props.Rounding

/-!
# The accumulation/distribution line in double precision (C107)
-/

set_option linter.unusedSectionVars false

namespace Bta
open Line Spec Ind

/-- the difference of two numbers of the format, none of them more than the double of the other, is a number of the format -/
theorem binary64_sub {a b : ℚ} (ha : Binary64 a) (hb : Binary64 b) (h0 : 0 ≤ b) (h1 : b / 2 ≤ a) (h2 : a ≤ 2 * b) : Binary64 (a - b) := by
  have two : (2 : ℚ) ≠ 0 := by norm_num
  have small : ∀ {m k z : ℤ}, |(m : ℚ) * (2 : ℚ) ^ z| ≤ |(k : ℚ) * (2 : ℚ) ^ z| → |k| < 2 ^ 53 → |m| < 2 ^ 53 := by
    intro m k z h hk
    rw [abs_mul, abs_mul] at h
    have hp : 0 < |(2 : ℚ) ^ z| := abs_pos.mpr (zpow_ne_zero _ two)
    have h' : |(m : ℚ)| ≤ |(k : ℚ)| := le_of_mul_le_mul_right h hp
    have h'' : ((|m| : ℤ) : ℚ) ≤ ((|k| : ℤ) : ℚ) := by rwa [Int.cast_abs, Int.cast_abs]
    have : |m| ≤ |k| := by exact_mod_cast h''
    omega
  have hab : |a - b| ≤ |a| := by rw [abs_of_nonneg (by linarith : 0 ≤ a), abs_le]; constructor <;> linarith
  have hbb : |a - b| ≤ |b| := by rw [abs_of_nonneg h0, abs_le]; constructor <;> linarith
  obtain ⟨k, z, k1, z1, z2, rfl⟩ := ha
  obtain ⟨l, w, l1, w1, w2, rfl⟩ := hb
  rcases le_total z w with hzw | hzw
  · obtain ⟨d, rfl⟩ := Int.le.dest hzw
    have e : (k : ℚ) * 2 ^ z - l * 2 ^ (z + (d : ℤ)) = ((k - l * 2 ^ d : ℤ) : ℚ) * 2 ^ z := by
      rw [zpow_add₀ two, zpow_natCast]; push_cast; ring
    rw [e] at hab ⊢
    exact ⟨_, z, small hab k1, z1, z2, rfl⟩
  · obtain ⟨d, rfl⟩ := Int.le.dest hzw
    have e : (k : ℚ) * 2 ^ (w + (d : ℤ)) - l * 2 ^ w = ((k * 2 ^ d - l : ℤ) : ℚ) * 2 ^ w := by
      rw [zpow_add₀ two, zpow_natCast]; push_cast; ring
    rw [e] at hbb ⊢
    exact ⟨_, w, small hbb l1, w1, w2, rfl⟩

section flow
variable {h l c v : Line (Flt binary64)} {n mh ml mc mv : ℕ} {H L C V : ℕ → ℚ}

/-- **C107** the accumulation/distribution line cumulates, in double precision, flows which are none of them more than the volume of the bar,
and which are the volume, or the volume with the sign changed, if the bar closes at its high or low: for prices of which the low is not below a
quarter of the high. -/
theorem C107_ad_partial (hh : RepW h n mh fun i => Ext.fin (H i)) (hl : RepW l n ml fun i => Ext.fin (L i))
    (hc : RepW c n mc fun i => Ext.fin (C i)) (hv : RepW v n mv fun i => Ext.fin (V i))
    (nh : ∀ i, Binary64 (H i)) (nc : ∀ i, Binary64 (C i)) (nv : ∀ i, Binary64 (V i))
    (bar : ∀ i, 0 ≤ L i ∧ L i ≤ C i ∧ C i ≤ H i ∧ H i ≤ 4 * L i ∧ H i ≤ 2 ^ 1022 ∧ 0 ≤ V i) :
    ∃ (f : Line (Flt binary64)) (F : ℕ → Ext ℚ), ad h l c v = f.cumsum ∧ Rep (nan : Flt binary64) f n (max (max mh ml) (max mc mv)) F ∧
      ∀ i, Within (-V i) (V i) (F i) ∧ (C i = H i → F i = .nan ∨ F i = .fin (V i)) ∧ (C i = L i → F i = .nan ∨ F i = .fin (-V i)) := by
  have h1 := rep_rmulS hc (lit 2 : Flt binary64)
  have h2 := rep_binop (fill := (nan : Flt binary64)) (f := fun x y : Flt binary64 => x - y) h1.toRepW hh
  have h3 := rep_binop (fill := (nan : Flt binary64)) (f := fun x y : Flt binary64 => x - y) h2.toRepW hl
  have h4 := rep_binop (fill := (nan : Flt binary64)) (f := fun x y : Flt binary64 => x - y) hh hl
  have h5 := rep_binop (fill := (nan : Flt binary64)) (f := fun x y : Flt binary64 => x / y) h3.toRepW h4.toRepW
  have h6 := rep_binop (fill := (nan : Flt binary64)) (f := fun x y : Flt binary64 => x * y) h5.toRepW hv
  refine ⟨_, fun i => binary64.round (Ext.mul (binary64.round (Ext.div (binary64.fl (2 * C i - H i - L i)) (binary64.fl (H i - L i))))
    (.fin (V i))), rfl, h6.congr (by omega) fun i _ _ => ?_, fun i => ?_⟩
  · obtain ⟨b1, b2, b3, b4, b5, b6⟩ := bar i
    have n2 : binary64.fl (2 * C i) = .fin (2 * C i) := by
      rcases binary64.double (C i) (by linarith) ((C107_binary64_numbers _).mp (nc i)) with e | e
      · exact e
      · have := (C107_binary64_overflow (2 * C i)).1.mp e
        exfalso
        have e3 : 2 * (2 : ℚ) ^ 1022 < 2 ^ 1024 - 2 ^ 970 := by decide +kernel
        exact absurd (this.trans (mul_le_mul_of_nonneg_left (b3.trans b5) two_pos.le)) (not_le.mpr e3)
    have n3 : binary64.fl (2 * C i + -H i) = .fin (2 * C i + -H i) := by
      rw [← sub_eq_add_neg]
      exact (C107_binary64_numbers _).mp
        (binary64_sub ((C107_binary64_numbers _).mpr n2) (nh i) (by linarith) (by linarith) (by linarith))
    have e2 : (lit 2 : Flt binary64) = (Ext.fin 2 : Ext ℚ) := (by decide +kernel : binary64.fl 2 = Ext.fin 2)
    rw [e2]
    change binary64.round (Ext.mul (binary64.round (Ext.div (binary64.round (Ext.add (binary64.round (Ext.add (binary64.fl (2 * C i))
      (.fin (-H i)))) (.fin (-L i)))) (binary64.fl (H i + -L i)))) (.fin (V i))) = _
    rw [n2]
    change binary64.round (Ext.mul (binary64.round (Ext.div (binary64.round (Ext.add (binary64.fl (2 * C i + -H i))
      (.fin (-L i)))) (binary64.fl (H i + -L i)))) (.fin (V i))) = _
    rw [n3]
    change binary64.round (Ext.mul (binary64.round (Ext.div (binary64.fl (2 * C i + -H i + -L i)) (binary64.fl (H i + -L i)))) (.fin (V i))) = _
    rw [← sub_eq_add_neg, ← sub_eq_add_neg, ← sub_eq_add_neg]
  · obtain ⟨b1, b2, b3, b4, b5, b6⟩ := bar i
    have nV := (C107_binary64_numbers _).mp (nv i)
    have nV' : binary64.fl (-V i) = .fin (-V i) := by rw [binary64.neg, nV]; rfl
    have self : ∀ x : Ext ℚ, binary64.round (Ext.div x x) = .nan ∨ binary64.round (Ext.div x x) = .fin 1 := by
      intro x
      cases x with
      | fin x =>
        by_cases hx : x = 0
        · subst hx; exact Or.inl (by decide +kernel)
        · right
          change binary64.round (if x = 0 then _ else Ext.fin (x / x)) = _
          rw [if_neg hx, div_self hx]
          decide +kernel
      | _ => exact Or.inl (by decide +kernel)
    have self' : ∀ x : Ext ℚ, binary64.round (Ext.div (Ext.neg x) x) = .nan ∨ binary64.round (Ext.div (Ext.neg x) x) = .fin (-1) := by
      intro x
      cases x with
      | fin x =>
        by_cases hx : x = 0
        · subst hx; exact Or.inl (by decide +kernel)
        · right
          change binary64.round (if x = 0 then _ else Ext.fin (-x / x)) = _
          rw [if_neg hx, neg_div, div_self hx]
          decide +kernel
      | _ => exact Or.inl (by decide +kernel)
    refine ⟨?_, fun e => ?_, fun e => ?_⟩
    · have e1 : Ext.Le (binary64.fl (2 * C i - H i - L i)) (binary64.fl (H i - L i)) := binary64.mono _ _ (by linarith)
      have e2 : Ext.Le (Ext.neg (binary64.fl (H i - L i))) (binary64.fl (2 * C i - H i - L i)) := by
        rw [← binary64.neg]; exact binary64.mono _ _ (by linarith)
      have hw : Within (-1) 1 (binary64.round (Ext.div (binary64.fl (2 * C i - H i - L i)) (binary64.fl (H i - L i)))) := by
        refine binary64.round_within binary64.fl_negone binary64.fl_one ?_
        rcases Ext.ratio e2 e1 with e | ⟨e3, e4⟩
        · exact Or.inl e
        · exact Ext.within_of_le e3 e4
      refine binary64.round_within nV' nV ?_
      rcases hw with e | ⟨x, e, x1, x2⟩
      · rw [e]; exact Or.inl rfl
      · rw [e]
        exact Or.inr ⟨x * V i, rfl, by nlinarith, by nlinarith⟩
    · beta_reduce
      rw [e, show 2 * H i - H i - L i = H i - L i by ring]
      rcases self (binary64.fl (H i - L i)) with q | q
      · left; rw [q]; rfl
      · right; rw [q]
        change binary64.fl (1 * V i) = _
        rw [one_mul, nV]
    · beta_reduce
      rw [e, show 2 * L i - H i - L i = -(H i - L i) by ring, binary64.neg]
      rcases self' (binary64.fl (H i - L i)) with q | q
      · left; rw [q]; rfl
      · right; rw [q]
        change binary64.fl (-1 * V i) = _
        rw [neg_one_mul, nV']

/-- **C107** (negation) without the condition on the low the flow can be more than the volume: a bar from 3/4 to 2^53 - 1 which closes at
its low with a volume of 1. -/
theorem C107_not_ad : ∃ h l c : ℚ, 0 ≤ l ∧ l ≤ c ∧ c ≤ h ∧ Binary64 h ∧ Binary64 l ∧ Binary64 c ∧
    someBelow (-1) (ad (doubles [h]) (doubles [l]) (doubles [c]) (doubles [1])) = true :=
  ⟨2 ^ 53 - 1, 3 / 4, 3 / 4, by norm_num, by norm_num, by norm_num, (C107_binary64_numbers _).mpr (by decide +kernel),
    (C107_binary64_numbers _).mpr (by decide +kernel), (C107_binary64_numbers _).mpr (by decide +kernel), by decide +kernel⟩

/-- the hypotheses are met, e.g. by bars from 8 to 10 which close at 10 with a volume of 1000: the line rises by 1000 with each bar -/
example : ad (doubles [10, 10]) (doubles [8, 8]) (doubles [10, 8]) (doubles [1000, 500]) = doubles [1000, 500] := by decide +kernel

example : ∃ (f : Line (Flt binary64)) (F : ℕ → Ext ℚ), ad (doubles [10, 10]) (doubles [8, 8]) (doubles [9, 9]) (doubles [7, 7]) = f.cumsum ∧
    Rep (nan : Flt binary64) f 2 1 F ∧ ∀ i, Within (-7) 7 (F i) := by
  have e : ∀ k : ℕ, k ≤ 2 ^ 24 → RepW (doubles [(k : ℚ), (k : ℚ)]) 2 1 (fun _ => Ext.fin (k : ℚ)) := by
    intro k hk
    refine ⟨rfl, rfl, by norm_num, fun i h1 h2 => ?_⟩
    have : binary64.fl k = .fin (k : ℚ) := binary64.nat k hk
    rcases i with _ | _ | i
    · exact congrArg some this
    · exact congrArg some this
    · omega
  have num : ∀ k : ℕ, k ≤ 2 ^ 24 → Binary64 (k : ℚ) := fun k hk => (C107_binary64_numbers _).mpr (binary64.nat k hk)
  obtain ⟨f, F, h1, h2, h3⟩ := C107_ad_partial (e 10 (by norm_num)) (e 8 (by norm_num)) (e 9 (by norm_num)) (e 7 (by norm_num))
    (fun _ => num 10 (by norm_num)) (fun _ => num 9 (by norm_num)) (fun _ => num 7 (by norm_num))
    (fun _ => ⟨by norm_num, by norm_num, by norm_num, by norm_num, by decide +kernel, by norm_num⟩)
  exact ⟨f, F, by exact_mod_cast h1, h2, fun i => by exact_mod_cast (h3 i).1⟩

end flow
end Bta
