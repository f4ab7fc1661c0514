import Verif.Lemmas.HtCausal
import Verif.Props.Catalog
import Verif.Props.Ht

/-!
# Missing prices in the Hilbert indicators (C108), and no repainting of them (C84)

`ht_dcphase`, `ht_sine`, `ht_trendline` and `ht_trendmode` round the measured period to a whole number of bars in every
round of their loop (`int(smoothperiod + 0.5)`).  A price which is missing (NaN) or infinite makes the period NaN in the
round in which it is first read, and python's `int` refuses NaN.
-/

set_option linter.unusedSectionVars false

namespace Bta
open Line Ext Ind

variable {K : Type} [Field K] [LinearOrder K] [IsStrictOrderedRing K]

/-- The price line has enough bars for the loop to begin (it begins 37 bars after the first value), and one of the prices it
reads, those from 34 bars after the first value on, is missing or infinite.  For plain data (minimum period 1) these are at
least 38 bars, and a price which is not finite among those from the 35th bar on. -/
def Spec.BadPrice (a : Line (Ext K)) : Prop :=
  a.minperiod + 36 < a.series.length ∧
    ∃ (i : ℕ) (v : Ext K), a.minperiod + 33 ≤ i ∧ a.series[i]? = some v ∧ (v = nan ∨ v = pinf ∨ v = ninf)

theorem nf_cases {x : Ext K} : NF x ↔ x = nan ∨ x = pinf ∨ x = ninf := by
  cases x <;> simp [NF]

theorem NF.add_any {x y : Ext K} (h : NF x ∨ NF y) : NF (x + y) := by
  by_cases hx : NF x
  · by_cases hy : NF y
    · exact hx.add hy
    · obtain ⟨v, rfl⟩ := not_nf.mp hy; exact hx.add_fin v
  · obtain ⟨v, rfl⟩ := not_nf.mp hx
    exact (h.resolve_left hx).fin_add v

theorem NF.div_fin {x : Ext K} (h : NF x) (c : K) : NF (x / fin c) := by
  cases x with
  | fin _ => exact h.elim
  | pinf => show NF (if c < 0 then ninf else pinf); split_ifs <;> trivial
  | ninf => show NF (if c < 0 then pinf else ninf); split_ifs <;> trivial
  | nan => trivial

theorem htMean_nf {g : ℕ → Ext K} {i : ℕ} (h : NF (g i) ∨ NF (g (i - 1)) ∨ NF (g (i - 2)) ∨ NF (g (i - 3))) :
    NF (htMean g i) := by
  unfold htMean
  simp only [lit_def]
  refine NF.div_fin ?_ _
  rcases h with h | h | h | h
  · exact NF.add_any (.inl (NF.add_any (.inl (NF.add_any (.inl (h.fin_mul _))))))
  · exact NF.add_any (.inl (NF.add_any (.inl (NF.add_any (.inr (h.fin_mul _))))))
  · exact NF.add_any (.inl (NF.add_any (.inr (h.fin_mul _))))
  · exact NF.add_any (.inr h)

theorem htMean_fin {g : ℕ → Ext K} {i : ℕ} (h0 : ¬ NF (g i)) (h1 : ¬ NF (g (i - 1))) (h2 : ¬ NF (g (i - 2)))
    (h3 : ¬ NF (g (i - 3))) : ∃ v, htMean g i = fin v := by
  obtain ⟨a, ha⟩ := not_nf.mp h0
  obtain ⟨b, hb⟩ := not_nf.mp h1
  obtain ⟨c, hc⟩ := not_nf.mp h2
  obtain ⟨d, hd⟩ := not_nf.mp h3
  refine ⟨(4 * a + 3 * b + 2 * c + d) / 10, ?_⟩
  unfold htMean
  simp only [lit_def, ha, hb, hc, hd]
  rw [← Ext.fin_div _ (by norm_num)]
  simp

section
variable {a : Line (Ext K)} {F : HtFns (Ext K)} {T : Spec.Trig K}

theorem htTail_eq {n m : ℕ} {g : ℕ → Ext K} (h : RepW a n m g) : htTail a = tail n (m + 5) (htMean g) := by
  have hr := htSmooth_rep h
  unfold htTail
  rw [hr.mp, pyFrom_tail hr (le_refl _)]
  rfl

theorem htCheck_iff (hF : F.Agrees T) (hT : T.Ok) (hp : 1 ≤ a.minperiod) :
    (Spec.BadPrice a → htCheck F a = .error .valueError) ∧ (¬ Spec.BadPrice a → htCheck F a = .ok ()) := by
  have hr := repW_any (a := a) rfl hp
  have e := htTail_eq hr
  have hl : (htTail a).length = a.series.length - (a.minperiod.toNat + 5) := by rw [e, tail_length]
  constructor
  · rintro ⟨h1, i, v, h2, h3, h4⟩
    have hi : i < a.series.length := (List.getElem?_eq_some_iff.mp h3).1
    have hv : NF ((a.series[i]?).getD nan) := by rw [h3]; exact nf_cases.mpr h4
    refine htCheck_nf hF hT ⟨max i (a.minperiod.toNat + 36) - (a.minperiod.toNat + 5), by omega, by omega, ?_⟩
    rintro ⟨w, hw⟩
    rw [e, tail_get _ _ _ _ (by omega)] at hw
    have := Option.some.inj hw
    have hn := htMean_nf (g := fun i => (a.series[i]?).getD nan) (i := max i (a.minperiod.toNat + 36)) (by
      have : i = max i (a.minperiod.toNat + 36) ∨ i = max i (a.minperiod.toNat + 36) - 1 ∨
        i = max i (a.minperiod.toNat + 36) - 2 ∨ i = max i (a.minperiod.toNat + 36) - 3 := by omega
      rcases this with h | h | h | h
      · left; rw [← h]; exact hv
      · right; left; simp only [← h]; exact hv
      · right; right; left; simp only [← h]; exact hv
      · right; right; right; simp only [← h]; exact hv)
    rw [show max i (a.minperiod.toNat + 36) - (a.minperiod.toNat + 5) + (a.minperiod.toNat + 5) =
      max i (a.minperiod.toNat + 36) by omega] at this
    rw [this] at hn
    exact hn
  · intro hb
    refine htCheck_fin hF hT fun j h1 h2 => ?_
    rw [hl] at h2
    have ok : ∀ i, a.minperiod.toNat + 33 ≤ i → i < a.series.length → ¬ NF ((a.series[i]?).getD nan) := by
      intro i h3 h4 h5
      refine hb ⟨by omega, i, _, by omega, List.getElem?_eq_getElem h4, ?_⟩
      rw [List.getElem?_eq_getElem h4] at h5
      exact nf_cases.mp h5
    obtain ⟨v, hv⟩ := htMean_fin (g := fun i => (a.series[i]?).getD nan) (i := j + (a.minperiod.toNat + 5))
      (ok _ (by omega) (by omega)) (ok _ (by omega) (by omega)) (ok _ (by omega) (by omega)) (ok _ (by omega) (by omega))
    exact ⟨v, by rw [e, tail_get _ _ _ _ (by omega), hv]⟩

end

/-- The four indicators which look back a calculated number of bars. -/
def Spec.hilbertBack (F : HtFns (Ext K)) : List (Call (Ext K)) := [.htDcphase F, .htSine F, .htTrendline F, .htTrendmode F]

/-- **C108**: with a missing or infinite price among those they read, all four raise ValueError, whatever the other prices. -/
theorem C108_raises {F : HtFns (Ext K)} {T : Spec.Trig K} (hF : F.Agrees T) (hT : T.Ok) (c : Call (Ext K))
    (hc : c ∈ Spec.hilbertBack F) {n : ℕ} {x : ℕ → Line (Ext K)} (hx : Spec.Data n x) (hb : Spec.BadPrice (x 0)) :
    c.run x = .error .valueError := by
  have h := (htCheck_iff hF hT (hx.pos 0)).1 hb
  simp only [Spec.hilbertBack, List.mem_cons, List.not_mem_nil, or_false] at hc
  rcases hc with rfl | rfl | rfl | rfl <;> (simp only [Call.run, h]; rfl)

/-- **C108**: without such a price they give a result: with too few bars, or if all prices from 34 bars after the first value
on are finite, whatever the earlier ones. -/
theorem C108_else {F : HtFns (Ext K)} {T : Spec.Trig K} (hF : F.Agrees T) (hT : T.Ok) (c : Call (Ext K))
    (hc : c ∈ Spec.hilbertBack F) {n : ℕ} {x : ℕ → Line (Ext K)} (hx : Spec.Data n x) (hb : ¬ Spec.BadPrice (x 0)) :
    ∃ r, c.run x = .ok r := by
  have h := (htCheck_iff hF hT (hx.pos 0)).2 hb
  simp only [Spec.hilbertBack, List.mem_cons, List.not_mem_nil, or_false] at hc
  rcases hc with rfl | rfl | rfl | rfl <;> (simp only [Call.run, h]; exact ⟨_, rfl⟩)

/-- **C108**: `ht_dcperiod` and `ht_phasor` do not round the period and do not raise, whatever the prices. -/
theorem C108_others {V : Type} [PyFloat V] (F : HtFns V) (x : ℕ → Line V) :
    (∃ r, (Call.htDcperiod F).run x = .ok r) ∧ ∃ r, (Call.htPhasor F).run x = .ok r := ⟨⟨_, rfl⟩, ⟨_, rfl⟩⟩

/-- **C108**: the phase and the sine do not depend on the prices before: with any prices there, NaN included, the result is the
same. -/
theorem C108_early (F : HtFns (Ext K)) (c : Call (Ext K)) (hc : c ∈ [Call.htDcphase F, .htSine F]) {n n' : ℕ}
    {x x' : ℕ → Line (Ext K)} (hx : Spec.Data n x) (hx' : Spec.Data n' x') (hm : (x' 0).minperiod = (x 0).minperiod)
    (hl : n' = n)
    (h : ∀ i : ℕ, (x 0).minperiod + 33 ≤ i → (x' 0).series[i]? = (x 0).series[i]?) : c.run x' = c.run x := by
  subst hl
  have hr := repW_any (a := x 0) (hx.len 0) (hx.pos 0)
  have hr' := repW_any (a := x' 0) (hx'.len 0) (hx'.pos 0)
  have e := htTail_eq hr
  have e' := htTail_eq hr'
  have hz : htZero 31 (htTail (x' 0)) = htZero 31 (htTail (x 0)) := by
    rw [e, e', hm]
    refine List.ext_getElem? fun j => ?_
    by_cases hj : j < n' - ((x 0).minperiod.toNat + 5)
    · rw [htZero_get _ _ _ (by rw [tail_length]; exact hj), htZero_get _ _ _ (by rw [tail_length]; exact hj)]
      split
      · rfl
      · have hp := hx.pos 0
        rw [tail_get _ _ _ _ hj, tail_get _ _ _ _ hj]
        simp only [htMean]
        rw [h (j + ((x 0).minperiod.toNat + 5)) (by omega), h (j + ((x 0).minperiod.toNat + 5) - 1) (by omega),
          h (j + ((x 0).minperiod.toNat + 5) - 2) (by omega), h (j + ((x 0).minperiod.toNat + 5) - 3) (by omega)]
    · rw [List.getElem?_eq_none (by rw [htZero_length, tail_length]; omega),
        List.getElem?_eq_none (by rw [htZero_length, tail_length]; omega)]
  have hlen : (htTail (x' 0)).length = (htTail (x 0)).length := by rw [e, e', hm, tail_length, tail_length]
  have hs := htSmooth_rep hr
  have hs' := htSmooth_rep hr'
  have hmp : (htSmooth (x' 0)).minperiod = (htSmooth (x 0)).minperiod := by rw [hs.mp, hs'.mp, hm]
  have hsl : (htSmooth (x' 0)).series.length = (htSmooth (x 0)).series.length := by rw [hs.len, hs'.len]
  have hck : htCheck F (x' 0) = htCheck F (x 0) := by
    unfold htCheck
    simp only
    change htInts F (htZero 31 (htTail (x' 0))) ((htTail (x' 0)).length - 31) 31 HtSt.init =
      htInts F (htZero 31 (htTail (x 0))) ((htTail (x 0)).length - 31) 31 HtSt.init
    rw [hz, hlen]
  have hap : ∀ out : HtSt (Ext K) × Ext K → Ext K,
      apply (fun price => htBuf 31 price.length (htPhStep F (htZero 31 price)) out (HtSt.init, lit 0)) nan (htSmooth (x' 0)) =
      apply (fun price => htBuf 31 price.length (htPhStep F (htZero 31 price)) out (HtSt.init, lit 0)) nan (htSmooth (x 0)) := by
    intro out
    unfold apply
    change clone _ (setFrom _ _ _ (htBuf 31 (htTail (x' 0)).length (htPhStep F (htZero 31 (htTail (x' 0)))) out _)) _ =
      clone _ (setFrom _ _ _ (htBuf 31 (htTail (x 0)).length (htPhStep F (htZero 31 (htTail (x 0)))) out _)) _
    rw [hz, hlen, hsl, hmp]
    unfold clone
    rw [hmp]
  simp only [List.mem_cons, List.not_mem_nil, or_false] at hc
  rcases hc with rfl | rfl
  · simp only [Call.run, hck]
    unfold htDcphase
    rw [hap]
  · simp only [Call.run, hck]
    unfold htSine htLeadsine
    rw [hap, hap]

/-- **C84** for the four Hilbert indicators, any prices: if the longer history gives a result, the shorter one did, and adding
the bars changed no value. -/
theorem C84_hilbert_partial {F : HtFns (Ext K)} {T : Spec.Trig K} (hF : F.Agrees T) (hT : T.Ok) (c : Call (Ext K))
    (hc : c ∈ Spec.hilbertBack F) {n n' : ℕ} {x x' : ℕ → Line (Ext K)} (hx : Spec.Data n x) (hx' : Spec.Data n' x')
    (hm : Spec.MoreBars x x') (r' : List (Line (Ext K))) (hr : c.run x' = .ok r') :
    ∃ r, c.run x = .ok r ∧ List.Forall₂ Spec.Kept r r' := by
  have h : Ext2 n n' (x 0) (x' 0) :=
    ⟨⟨hx.pos 0, (hm.mp 0).symm, by rw [hm.ser 0]; exact List.take_prefix _ _⟩, hx.len 0, hx'.len 0⟩
  have kept : ∀ {o o' : Line (Ext K)}, Ext2 n n' o o' → Spec.Kept o o' := by
    intro o o' h
    have := prefix_iff_get.mp h.pref.ser
    exact ⟨h.pref.mp.symm, this.1, fun i hi => (this.2 i hi).symm⟩
  have hk : htCheck F (x' 0) = .ok () := by
    simp only [Spec.hilbertBack, List.mem_cons, List.not_mem_nil, or_false] at hc
    rcases hc with rfl | rfl | rfl | rfl <;>
    · simp only [Call.run] at hr
      cases hcc : htCheck F (x' 0) with
      | ok _ => rfl
      | error e => rw [hcc] at hr; cases hr
  have hk0 := htCheck_shorter hF hT h hk
  simp only [Spec.hilbertBack, List.mem_cons, List.not_mem_nil, or_false] at hc
  rcases hc with rfl | rfl | rfl | rfl <;>
    (simp only [Call.run, hk] at hr; injection hr with hr; subst hr; simp only [Call.run, hk0]; refine ⟨_, rfl, ?_⟩)
  · exact .cons (kept (hilbert_ext2 hF hT h hk _).fill) .nil
  · exact .cons (kept (hilbert_ext2 hF hT h hk _).fill) (.cons (kept (hilbert_ext2 hF hT h hk _).fill) .nil)
  · exact .cons (kept (hilbert_ext2_tl hF hT h hk).fill) .nil
  · exact .cons (kept (hilbert_ext2_tm hF hT h hk).fill) .nil

/-- The statement of C84 itself fails for them: whatever finite prices there are, enough of them give a result, and one bar
added without a price (NaN) takes it away. -/
theorem C84_not_hilbert {F : HtFns (Ext K)} {T : Spec.Trig K} (hF : F.Agrees T) (hT : T.Ok) (c : Call (Ext K))
    (hc : c ∈ Spec.hilbertBack F) (y : ℕ → K) {n : ℕ} (hn : 37 ≤ n) :
    (∃ r, c.run (fun _ => bars n y) = .ok r) ∧
      c.run (fun _ => Line.ofSeries ((bars n y).series ++ [nan])) = .error .valueError := by
  refine ⟨C108_else hF hT c hc (n := n) ⟨fun _ => by simp [bars, ofSeries], fun _ => by simp [bars, ofSeries]⟩ ?_,
    C108_raises hF hT c hc (n := n + 1) ⟨fun _ => by simp [bars, ofSeries], fun _ => by simp [ofSeries]⟩
      ⟨by simp [bars, ofSeries]; omega, n, nan, by simp [ofSeries]; omega, by simp [bars, ofSeries], .inl rfl⟩⟩
  rintro ⟨_, i, v, _, h, hv⟩
  have hi := (List.getElem?_eq_some_iff.mp h).1
  simp only [bars, ofSeries, List.length_map, List.length_range] at hi
  simp [bars, ofSeries, hi] at h
  subst h
  simp at hv

/-- the hypotheses are met with the real functions: forty closing prices of which the 36th is missing, and the same with the
first one missing instead -/
example (c : Call (Ext ℝ)) (hc : c ∈ Spec.hilbertBack (HtFns.ofTrig realTrig)) :
    c.run (fun _ => Line.ofSeries ((List.range 40).map fun i => if i = 35 then nan else fin (10 + (i % 7 : ℕ) : ℝ))) =
      .error .valueError ∧
    ∃ r, c.run (fun _ => Line.ofSeries ((List.range 40).map fun i => if i = 0 then nan else fin (10 + (i % 7 : ℕ) : ℝ))) =
      .ok r := by
  refine ⟨C108_raises (HtFns.ofTrig_agrees _) realTrig_ok c hc (n := 40) ⟨fun _ => by simp [ofSeries], fun _ => by simp [ofSeries]⟩
    ⟨by simp [ofSeries], 35, nan, by simp [ofSeries], by simp [ofSeries], .inl rfl⟩,
    C108_else (HtFns.ofTrig_agrees _) realTrig_ok c hc (n := 40) ⟨fun _ => by simp [ofSeries], fun _ => by simp [ofSeries]⟩ ?_⟩
  rintro ⟨_, i, v, h1, h, hv⟩
  have hi := (List.getElem?_eq_some_iff.mp h).1
  simp only [ofSeries, List.length_map, List.length_range] at hi h1
  have h0 : i ≠ 0 := by omega
  simp [ofSeries, hi, h0] at h
  subst h
  simp at hv

/-- the phase of 100 prices is the same whatever the first 34 are -/
example (p q : List (Ext ℝ)) (hp : p.length = 34) (hq : q.length = 34) (r : List (Ext ℝ)) (hr : r.length = 66) :
    (Call.htDcphase (HtFns.ofTrig realTrig)).run (fun _ => Line.ofSeries (p ++ r)) =
      (Call.htDcphase (HtFns.ofTrig realTrig)).run (fun _ => Line.ofSeries (q ++ r)) :=
  C108_early (HtFns.ofTrig realTrig) _ (by simp) (n := 100) (n' := 100) ⟨fun _ => by simp [ofSeries, hq, hr], fun _ => by simp [ofSeries]⟩
    ⟨fun _ => by simp [ofSeries, hp, hr], fun _ => by simp [ofSeries]⟩ rfl rfl (fun i hi => by
      simp only [ofSeries] at hi ⊢
      rw [List.getElem?_append_right (by omega), List.getElem?_append_right (by omega), hp, hq])

/-- `C84_hilbert_partial` on 80 and 90 prices, the first ten of them missing: there is a result, and it is kept -/
example (c : Call (Ext ℝ)) (hc : c ∈ Spec.hilbertBack (HtFns.ofTrig realTrig)) (y : ℕ → ℝ) :
    ∃ r r', c.run (fun _ => Line.ofSeries ((List.range 80).map fun i => if i < 10 then nan else fin (y i))) = .ok r ∧
      c.run (fun _ => Line.ofSeries ((List.range 90).map fun i => if i < 10 then nan else fin (y i))) = .ok r' ∧
      List.Forall₂ Spec.Kept r r' := by
  have hd : ∀ n, Spec.Data n (fun _ : ℕ => Line.ofSeries ((List.range n).map fun i => if i < 10 then nan else fin (y i))) :=
    fun n => ⟨fun _ => by simp [ofSeries], fun _ => by simp [ofSeries]⟩
  obtain ⟨r', h'⟩ := C108_else (HtFns.ofTrig_agrees _) realTrig_ok c hc (hd 90) (by
    rintro ⟨_, i, v, h1, h, hv⟩
    have hi := (List.getElem?_eq_some_iff.mp h).1
    simp only [ofSeries, List.length_map, List.length_range] at hi h1
    have h0 : ¬ i < 10 := by omega
    simp [ofSeries, hi, h0] at h
    subst h
    simp at hv)
  obtain ⟨r, h1, h2⟩ := C84_hilbert_partial (HtFns.ofTrig_agrees _) realTrig_ok c hc (hd 80) (hd 90)
    ⟨fun _ => rfl, fun _ => by
      simp only [ofSeries, List.length_map, List.length_range, ← List.map_take, List.take_range]
      rfl⟩ r' h'
  exact ⟨r, r', h1, h', h2⟩

end Bta
