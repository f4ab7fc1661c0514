import Verif.Props.Linear

/-!
# C135: t3 of sums and differences
-/

set_option linter.unusedSectionVars false
set_option linter.unusedVariables false

namespace Bta
open Line Ext Ind Spec Finset

variable {K : Type} [Field K] [LinearOrder K] [IsStrictOrderedRing K]
variable {a b : Line (Ext K)} {n m m' : ℕ} {x y : ℕ → K}

theorem superposes_comp {f g : Line (Ext K) → Except Err (Line (Ext K))} {e e' : ℕ} (hf : Superposes f e) (hg : Superposes g e') :
    Superposes (fun a => f a >>= g) (e + e') := by
  intro a b n m x y ha hb hn
  obtain ⟨r1, s1, u1, v1, e1, f1, p1, q1, h1, k1⟩ := hf a b n m x y ha hb (by omega)
  obtain ⟨r2, s2, u2, v2, e2, f2, p2, q2, h2, k2⟩ := hg r1 s1 n _ _ _ h1.toRepW k1.toRepW (by omega)
  refine ⟨r2, s2, u2, v2, ?_, ?_, ?_, ?_, shows_congr h2 (by omega) fun i _ _ => rfl, shows_congr k2 (by omega) fun i _ _ => rfl⟩
  · simp only [e1, e2, bind, Except.bind]
  · simp only [f1, f2, bind, Except.bind]
  · simp only [p1, p2, bind, Except.bind]
  · simp only [q1, q2, bind, Except.bind]

/-- **C135** the generalized double average of any such average, with any factor -/
theorem C135_gdema {f : MA (Ext K)} {p e : ℕ} (hf : Superposes (f p) e) (w : K) : Superposes (Ind.gdema f (fin w) p) (2 * e) := by
  intro a b n m x y ha hb hn
  have hc : (lit 1 + fin w : Ext K) = fin (1 + w) := by simp
  obtain ⟨r1, s1, u1, v1, e1, f1, p1, q1, h1, k1⟩ := hf a b n m x y ha hb (by omega)
  obtain ⟨r2, s2, u2, v2, e2, f2, p2, q2, h2, k2⟩ := hf r1 s1 n _ _ _ h1.toRepW k1.toRepW (by omega)
  have A := rmulS_lines h1 k1 (1 + w)
  have A2 := rmulS_lines h2 k2 w
  have hA := Holds.rmulS h1.toRepW (1 + w)
  have kA := Holds.rmulS k1.toRepW (1 + w)
  have hA2 := Holds.rmulS h2.toRepW w
  have kA2 := Holds.rmulS k2.toRepW w
  have B := add_sub_lines hA kA hA2 kA2
  refine ⟨rmulS (fin (1 + w)) r1 - rmulS (fin w) r2, rmulS (fin (1 + w)) s1 - rmulS (fin w) s2, _, _, ?_, ?_, ?_, ?_,
    shows_congr (Holds.sub hA.toRepW hA2.toRepW) (by omega) fun i _ _ => rfl,
    shows_congr (Holds.sub kA.toRepW kA2.toRepW) (by omega) fun i _ _ => rfl⟩
  · simp only [Ind.gdema, e1, e2, bind, Except.bind, pure, Except.pure, hc]
  · simp only [Ind.gdema, f1, f2, bind, Except.bind, pure, Except.pure, hc]
  · simp only [Ind.gdema, p1, p2, bind, Except.bind, pure, Except.pure, hc, A.1, A2.1, B.1]
  · simp only [Ind.gdema, q1, q2, bind, Except.bind, pure, Except.pure, hc, A.2, A2.2, B.2.1]

/-- **C135** t3 in its own form and (`_gd=True`) as three generalized double averages of any such average, with any factor -/
theorem C135_t3 {f : MA (Ext K)} {p e : ℕ} (hf : Superposes (f p) e) (hp : 1 ≤ p) (w : K) :
    Superposes (Ind.t3 (fin w) p) (6 * (p - 1)) ∧ Superposes (Ind.t3gd f (fin w) p) (6 * e) := by
  constructor
  · have hf : Superposes (K := K) (Ind.ema p) (p - 1) := (C135_exponential hp).1
    intro a b n m x y ha hb hn
    obtain ⟨c1, hc1⟩ : ∃ c1 : K, (-(fin w * fin w * fin w) : Ext K) = fin c1 := ⟨_, by simp; rfl⟩
    obtain ⟨c2, hc2⟩ : ∃ c : K, (lit 3 * (fin w * fin w) + lit 3 * (fin w * fin w * fin w) : Ext K) = fin c := ⟨_, by simp; rfl⟩
    obtain ⟨c3, hc3⟩ : ∃ c : K, (lit (-6) * (fin w * fin w) - lit 3 * fin w - lit 3 * (fin w * fin w * fin w) : Ext K) = fin c := ⟨_, by simp; rfl⟩
    obtain ⟨c4, hc4⟩ : ∃ c : K, (lit 1 + lit 3 * fin w + fin w * fin w * fin w + lit 3 * (fin w * fin w) : Ext K) = fin c := ⟨_, by simp; rfl⟩
    obtain ⟨r1, s1, u1, v1, e1, f1, p1, q1, h1, k1⟩ := hf a b n m x y ha hb (by omega)
    obtain ⟨r2, s2, u2, v2, e2, f2, p2, q2, h2, k2⟩ := hf r1 s1 n _ _ _ h1.toRepW k1.toRepW (by omega)
    obtain ⟨r3, s3, u3, v3, e3, f3, p3, q3, h3, k3⟩ := hf r2 s2 n _ _ _ h2.toRepW k2.toRepW (by omega)
    obtain ⟨r4, s4, u4, v4, e4, f4, p4, q4, h4, k4⟩ := hf r3 s3 n _ _ _ h3.toRepW k3.toRepW (by omega)
    obtain ⟨r5, s5, u5, v5, e5, f5, p5, q5, h5, k5⟩ := hf r4 s4 n _ _ _ h4.toRepW k4.toRepW (by omega)
    obtain ⟨r6, s6, u6, v6, e6, f6, p6, q6, h6, k6⟩ := hf r5 s5 n _ _ _ h5.toRepW k5.toRepW (by omega)
    have A6 := rmulS_lines h6 k6 c1
    have A5 := rmulS_lines h5 k5 c2
    have A4 := rmulS_lines h4 k4 c3
    have A3 := rmulS_lines h3 k3 c4
    have hA6 := Holds.rmulS h6.toRepW c1
    have kA6 := Holds.rmulS k6.toRepW c1
    have hA5 := Holds.rmulS h5.toRepW c2
    have kA5 := Holds.rmulS k5.toRepW c2
    have hA4 := Holds.rmulS h4.toRepW c3
    have kA4 := Holds.rmulS k4.toRepW c3
    have hA3 := Holds.rmulS h3.toRepW c4
    have kA3 := Holds.rmulS k3.toRepW c4
    have B := add_sub_lines hA6 kA6 hA5 kA5
    have hB := Holds.add hA6.toRepW hA5.toRepW
    have kB := Holds.add kA6.toRepW kA5.toRepW
    have C := add_sub_lines hB kB hA4 kA4
    have hC := Holds.add hB.toRepW hA4.toRepW
    have kC := Holds.add kB.toRepW kA4.toRepW
    have D := add_sub_lines hC kC hA3 kA3
    refine ⟨_, _, _, _, ?_, ?_, ?_, ?_, shows_congr (Holds.add hC.toRepW hA3.toRepW) (by omega) fun i _ _ => rfl,
      shows_congr (Holds.add kC.toRepW kA3.toRepW) (by omega) fun i _ _ => rfl⟩
    · simp only [Ind.t3, e1, e2, e3, e4, e5, e6, bind, Except.bind, pure, Except.pure, hc1, hc2, hc3, hc4]
    · simp only [Ind.t3, f1, f2, f3, f4, f5, f6, bind, Except.bind, pure, Except.pure, hc1, hc2, hc3, hc4]
    · simp only [Ind.t3, p1, p2, p3, p4, p5, p6, bind, Except.bind, pure, Except.pure, hc1, hc2, hc3, hc4, A6.1, A5.1, A4.1, A3.1,
        B.2.2.1, C.2.2.1, D.2.2.1]
    · simp only [Ind.t3, q1, q2, q3, q4, q5, q6, bind, Except.bind, pure, Except.pure, hc1, hc2, hc3, hc4, A6.2, A5.2, A4.2, A3.2,
        B.2.2.2, C.2.2.2, D.2.2.2]
  · have hg := C135_gdema hf w
    have h := superposes_comp (superposes_comp hg hg) hg
    rw [show 2 * e + 2 * e + 2 * e = 6 * e from by omega] at h
    intro a b n m x y ha hb hn
    obtain ⟨r, s, u, v, e1, f1, p1, q1, h1, k1⟩ := h a b n m x y ha hb hn
    have ee : ∀ z, Ind.t3gd f (fin w) p z = ((Ind.gdema f (fin w) p z >>= Ind.gdema f (fin w) p) >>= Ind.gdema f (fin w) p) := by
      intro z
      rw [bind_assoc]
      rfl
    exact ⟨r, s, u, v, (ee _).trans e1, (ee _).trans f1, (ee _).trans p1, (ee _).trans q1, h1, k1⟩

/-- values: t3 over two bars of two lines and of their sum -/
example : (match Ind.t3 (.fin (1/2)) 2 (Line.ofSeries ((List.range 8).map fun i : ℕ => (.fin (i * i) : Ext ℚ))),
      Ind.t3 (.fin (1/2)) 2 (Line.ofSeries ((List.range 8).map fun i : ℕ => (.fin (3 - i) : Ext ℚ))),
      Ind.t3 (.fin (1/2)) 2 (Line.ofSeries ((List.range 8).map fun i : ℕ => (.fin (i * i + (3 - i)) : Ext ℚ))) with
    | .ok r, .ok s, .ok t => decide (t = r + s) && t.series[7]?.isSome && decide (t.series[7]? ≠ some .nan)
    | _, _, _ => false) = true := by decide +kernel

end Bta
