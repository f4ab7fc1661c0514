import Verif.Props.Index
import Verif.Props.Catalog
import Verif.Lemmas.Need

/-!
# Moving average with variable period (C125)

`mavp` (mavp.py:47-61) with whatever moving average, in whatever arithmetic: which values it shows, from which bar on, when it
raises, and what added bars change.
-/

namespace Bta

open Line PyFloat

variable {V : Type} [PyFloat V]

/-! ## Lemmas -/

theorem mapM_inv {α β : Type} (f : α → Except Err β) (l : List α) {y : List β} (h : l.mapM f = .ok y) :
    ∀ q ∈ l, ∃ b, f q = .ok b := by
  induction l generalizing y with
  | nil => simp
  | cons q l ih =>
    rw [List.mapM_cons] at h
    intro q' hq'
    cases hf : f q with
    | error e => rw [hf] at h; cases h
    | ok b =>
      rw [hf] at h
      rcases List.mem_cons.mp hq' with rfl | hq'
      · exact ⟨b, hf⟩
      · cases hl : l.mapM f with
        | error e => rw [hl] at h; cases h
        | ok y' => exact ih hl q' hq'

theorem mapM_error {α β : Type} (f : α → Except Err β) (l : List α) {e : Err} (h : l.mapM f = .error e) :
    ∃ q ∈ l, f q = .error e := by
  induction l with
  | nil => cases h
  | cons q l ih =>
    rw [List.mapM_cons] at h
    cases hf : f q with
    | error e' => rw [hf] at h; cases h; exact ⟨q, by simp, hf⟩
    | ok b =>
      rw [hf] at h
      cases hl : l.mapM f with
      | error e' =>
        rw [hl] at h
        cases h
        obtain ⟨q', h1, h2⟩ := ih hl
        exact ⟨q', by simp [h1], h2⟩
      | ok y' => rw [hl] at h; cases h

theorem foldl_max_bounds {α : Type} (f : α → Int) (l : List α) (b : Int) :
    b ≤ l.foldl (fun m q => max m (f q)) b ∧ (∀ q ∈ l, f q ≤ l.foldl (fun m q => max m (f q)) b) ∧
    (l.foldl (fun m q => max m (f q)) b = b ∨ ∃ q ∈ l, l.foldl (fun m q => max m (f q)) b = f q) := by
  induction l generalizing b with
  | nil => simp
  | cons q l ih =>
    obtain ⟨h1, h2, h3⟩ := ih (max b (f q))
    rw [List.foldl_cons]
    refine ⟨by omega, ?_, ?_⟩
    · intro q' hq'
      rcases List.mem_cons.mp hq' with rfl | hq'
      · omega
      · exact h2 q' hq'
    · rcases h3 with h3 | ⟨q', h4, h5⟩
      · rcases le_total (f q) b with h | h
        · left; rw [h3]; omega
        · right; exact ⟨q, by simp, by rw [h3]; omega⟩
      · right; exact ⟨q', by simp [h4], h5⟩

/-- what `mavp` has calculated when it gives a result -/
structure MavpParts (ma : MA V) (minp maxp : ℕ) (talib : Bool) (close : Line V) (periods : List ℕ) (r : Line V)
    (u : List ℕ) (R : ℕ → Line V) : Prop where
  used : ∀ q, q ∈ u ↔ ∃ i, i < periods.length ∧ Spec.clipPer minp maxp periods i = q
  avg : ∀ q ∈ u, ma q close = .ok (R q)
  mp : r.minperiod = (u.map fun q => (q, R q)).foldl (fun m q => max m q.2.minperiod)
    (max (close.minperiod + ((if talib then (maxp : Int) else (u.foldl max 0 : ℕ)) - 1)) 1)
  val : ∀ i, i < close.series.length → r.minperiod - 1 ≤ i → i < periods.length →
    r.series[i]? = some (((R (Spec.clipPer minp maxp periods i)).series[i]?).getD nan)

theorem clipPer_range {minp maxp : ℕ} (h : minp ≤ maxp) (periods : List ℕ) (i : ℕ) :
    minp ≤ Spec.clipPer minp maxp periods i ∧ Spec.clipPer minp maxp periods i ≤ maxp := by
  unfold Spec.clipPer
  simp only []
  split_ifs <;> omega

theorem clip_used (minp maxp : ℕ) (periods : List ℕ) (q : ℕ) :
    q ∈ (periods.map (Ind.clipBoth minp maxp)).dedup ↔
      ∃ i, i < periods.length ∧ Spec.clipPer minp maxp periods i = q := by
  rw [List.mem_dedup, List.mem_map]
  constructor
  · rintro ⟨r, hr, rfl⟩
    obtain ⟨i, hi, rfl⟩ := List.mem_iff_getElem.mp hr
    exact ⟨i, hi, clipPer_eq minp maxp hi⟩
  · rintro ⟨i, hi, rfl⟩
    exact ⟨periods[i], List.getElem_mem _, (clipPer_eq minp maxp hi).symm⟩

theorem mavp_parts {ma : MA V} {minp maxp : ℕ} {talib : Bool} {close : Line V} {periods : List ℕ} {r : Line V}
    (h : Ind.mavp ma minp maxp talib close periods = .ok r) : ∃ u R, MavpParts ma minp maxp talib close periods r u R := by
  set u := (periods.map (Ind.clipBoth minp maxp)).dedup with hu
  have hused := clip_used minp maxp periods
  rw [← hu] at hused
  have hR : ∀ q, ∃ r, q ∈ u → ma q close = .ok r := by
    intro q
    by_cases hq : q ∈ u
    · unfold Ind.mavp at h
      simp only [] at h
      rw [← hu] at h
      cases hm : u.mapM (fun q => do return (q, ← ma q close) : ℕ → Except Err (ℕ × Line V)) with
      | error e => rw [hm] at h; cases h
      | ok y =>
        obtain ⟨b, hb⟩ := mapM_inv _ _ hm q hq
        cases hq' : ma q close with
        | error e => rw [hq'] at hb; cases hb
        | ok r => exact ⟨r, fun _ => rfl⟩
    · exact ⟨⟨[], 1⟩, fun h => absurd h hq⟩
  choose R hR using hR
  have hmap : u.mapM (fun q => do return (q, ← ma q close)) = (.ok (u.map fun q => (q, R q)) : Except Err _) := by
    refine mapM_ok _ (fun q => (q, R q)) u fun q hq => ?_
    rw [hR q hq]; rfl
  unfold Ind.mavp at h
  simp only [] at h
  rw [← hu, hmap] at h
  set mp := (u.map fun q => (q, R q)).foldl (fun m q => max m q.2.minperiod)
    (max (close.minperiod + ((if talib then (maxp : Int) else (u.foldl max 0 : ℕ)) - 1)) 1) with hmp
  have hpos : 1 ≤ mp := by
    have := (foldl_max_bounds (fun q : ℕ × Line V => q.2.minperiod) (u.map fun q => (q, R q))
      (max (close.minperiod + ((if talib then (maxp : Int) else (u.foldl max 0 : ℕ)) - 1)) 1)).1
    rw [← hmp] at this
    omega
  have h' := Except.ok.inj h
  have hmp' : r.minperiod = mp := by
    rw [← h']
    show (if mp = 0 then close.minperiod else mp) = mp
    rw [if_neg (by omega)]
  refine ⟨u, R, hused, hR, hmp', ?_⟩
  intro i hi hi1 hi2
  have hc : ((List.map (Ind.clipBoth minp maxp) periods)[i]?).getD 0 = Spec.clipPer minp maxp periods i := by
    rw [clipPer_eq minp maxp hi2]
    simp [List.getElem?_eq_getElem hi2]
  obtain ⟨k, hk⟩ : ∃ k : ℕ, mp - 1 = k := ⟨(mp - 1).toNat, by omega⟩
  rw [← h']
  show (setFrom close.series.length nan (mp - 1) (pyFrom _ (mp - 1)))[i]? = _
  rw [hk]
  unfold setFrom pyFrom
  simp only [List.length_map, List.length_range, pyStart_nat]
  have hki : k ≤ i := by omega
  rw [Nat.min_eq_left (by omega), List.getElem?_append_right (by simpa using hki), List.getElem?_drop, List.getElem?_map,
    List.length_replicate, show k + (i - k) = i from by omega, List.getElem?_range (by omega)]
  simp only [Option.map_some, hc]
  rw [find_map R u ((hused _).mpr ⟨i, hi2, rfl⟩)]

/-! ## C125 -/

/-- **C125** (values), for every moving average and every arithmetic: from the minimum period of the result on, each bar shows
what the average with the period asked for at this bar, restricted to the allowed range, shows there. -/
theorem C125_values {ma : MA V} {minp maxp : ℕ} {talib : Bool} {close : Line V} {periods : List ℕ} {r : Line V}
    (hlen : periods.length = close.series.length) (h : Ind.mavp ma minp maxp talib close periods = .ok r) :
    ∀ i, i < close.series.length → r.minperiod - 1 ≤ i →
      ∃ s, ma (Spec.clipPer minp maxp periods i) close = .ok s ∧ r.series[i]? = some ((s.series[i]?).getD nan) := by
  obtain ⟨u, R, P⟩ := mavp_parts h
  intro i hi hi1
  exact ⟨_, P.avg _ ((P.used _).mpr ⟨i, by omega, rfl⟩), P.val i hi hi1 (by omega)⟩

/-- **C125** (first bar): the result begins where all averages asked for at any bar have begun, not before the longest period
asked for (`maxperiod` with ta-lib compatibility), and no later. -/
theorem C125_first {ma : MA V} {minp maxp : ℕ} {talib : Bool} {close : Line V} {periods : List ℕ} {r : Line V}
    (hlen : periods.length = close.series.length) (hn : 1 ≤ close.series.length) (hc : 1 ≤ close.minperiod) (h1 : 1 ≤ minp)
    (h2 : minp ≤ maxp) (h : Ind.mavp ma minp maxp talib close periods = .ok r) :
    (∀ i, i < close.series.length → ∀ s, ma (Spec.clipPer minp maxp periods i) close = .ok s → s.minperiod ≤ r.minperiod) ∧
    (∀ i, i < close.series.length → close.minperiod + Spec.clipPer minp maxp periods i - 1 ≤ r.minperiod) ∧
    (talib = true → close.minperiod + maxp - 1 ≤ r.minperiod) ∧
    ((talib = true ∧ r.minperiod = close.minperiod + maxp - 1) ∨
      ∃ i, i < close.series.length ∧ (r.minperiod = close.minperiod + Spec.clipPer minp maxp periods i - 1 ∨
        ∃ s, ma (Spec.clipPer minp maxp periods i) close = .ok s ∧ r.minperiod = s.minperiod)) := by
  obtain ⟨u, R, P⟩ := mavp_parts h
  obtain ⟨b1, b2, b3⟩ := foldl_max_bounds (fun q : ℕ × Line V => q.2.minperiod) (u.map fun q => (q, R q))
    (max (close.minperiod + ((if talib then (maxp : Int) else (u.foldl max 0 : ℕ)) - 1)) 1)
  rw [← P.mp] at b1 b2 b3
  have hin : ∀ i, i < close.series.length → Spec.clipPer minp maxp periods i ∈ u := fun i hi =>
    (P.used _).mpr ⟨i, by omega, rfl⟩
  have hu0 := (foldl_max_mem_nat u)
  have htop : u.foldl max 0 ∈ u := hu0.2 (List.ne_nil_of_mem (hin 0 (by omega)))
  have hclip : ∀ i, 1 ≤ Spec.clipPer minp maxp periods i ∧ Spec.clipPer minp maxp periods i ≤ maxp := fun i => by
    have := clipPer_range h2 periods i
    omega
  refine ⟨?_, ?_, ?_, ?_⟩
  · intro i hi s hs
    have := b2 _ (List.mem_map.mpr ⟨_, hin i hi, rfl⟩)
    have h3 := P.avg _ (hin i hi)
    rw [hs] at h3
    cases h3
    exact this
  · intro i hi
    have := hu0.1 _ (hin i hi)
    have := hclip i
    cases talib
    · simp only [Bool.false_eq_true, if_false] at b1; omega
    · simp only [if_true] at b1; omega
  · rintro rfl
    simp only [if_true] at b1; omega
  · rcases b3 with b3 | ⟨q, hq, b3⟩
    · cases talib
      · right
        obtain ⟨i, hi, hi'⟩ := (P.used _).mp htop
        refine ⟨i, by omega, .inl ?_⟩
        have := hclip i
        simp only [Bool.false_eq_true, if_false] at b3
        omega
      · left
        simp only [if_true] at b3
        exact ⟨rfl, by omega⟩
    · right
      obtain ⟨q', hq', rfl⟩ := List.mem_map.mp hq
      obtain ⟨i, hi, rfl⟩ := (P.used _).mp hq'
      exact ⟨i, by omega, .inr ⟨_, P.avg _ hq', b3⟩⟩

/-- **C125** (exceptions): `mavp` raises exactly if one of the averages asked for does, and then what this average raises. -/
theorem C125_raises {ma : MA V} {minp maxp : ℕ} {talib : Bool} {close : Line V} {periods : List ℕ}
    (hlen : periods.length = close.series.length) :
    (∀ e, Ind.mavp ma minp maxp talib close periods = .error e →
      ∃ i, i < close.series.length ∧ ma (Spec.clipPer minp maxp periods i) close = .error e) ∧
    (∀ i e, i < close.series.length → ma (Spec.clipPer minp maxp periods i) close = .error e →
      ∃ e', Ind.mavp ma minp maxp talib close periods = .error e') := by
  constructor
  · intro e h
    unfold Ind.mavp at h
    simp only [] at h
    cases hm : (periods.map (Ind.clipBoth minp maxp)).dedup.mapM
        (fun q => do return (q, ← ma q close) : ℕ → Except Err (ℕ × Line V)) with
    | ok y => rw [hm] at h; cases h
    | error e' =>
      rw [hm] at h
      cases h
      obtain ⟨q, hq, hq'⟩ := mapM_error _ _ hm
      obtain ⟨i, hi, rfl⟩ := (clip_used minp maxp periods q).mp hq
      refine ⟨i, by omega, ?_⟩
      cases hma : ma (Spec.clipPer minp maxp periods i) close with
      | ok s => rw [hma] at hq'; cases hq'
      | error e' => rw [hma] at hq'; cases hq'; rfl
  · intro i e hi he
    cases h : Ind.mavp ma minp maxp talib close periods with
    | error e' => exact ⟨e', rfl⟩
    | ok r =>
      obtain ⟨u, R, P⟩ := mavp_parts h
      rw [P.avg _ ((P.used _).mpr ⟨i, by omega, rfl⟩)] at he
      cases he

/-- the averages asked for, on data with bars added -/
theorem avg_kept {A : Avg V} {q p : ℕ} (hA : A.Periods q p) {a a' s : Line V} (hc : 1 ≤ a.minperiod)
    (hq : (q : Int) ≤ a.minperiod) (hk : Spec.Kept a a') (h : A.run p a = .ok s) :
    ∃ s', A.run p a' = .ok s' ∧ s'.minperiod = s.minperiod ∧ s.series.length = a.series.length ∧
      ∀ i, i < a.series.length → s'.series[i]? = s.series[i]? := by
  have hr : (causalRel V a.series.length a'.series.length).rv a a' :=
    ⟨⟨hc, hk.mp.symm, prefix_iff_get.mpr ⟨hk.len, fun i hi => (hk.val i hi).symm⟩⟩, rfl, rfl⟩
  obtain ⟨s', h1, h2⟩ := Avg.rel (R := causalRel V a.series.length a'.series.length) A q p a a' (A.okAll trivial hA) hq
    (by rw [hk.mp]; exact hq) hr s h
  have := prefix_iff_get.mp h2.pref.ser
  refine ⟨s', h1, h2.pref.mp.symm, h2.len, fun i hi => (this.2 i (by rw [h2.len]; exact hi)).symm⟩

/-- **C125** (added bars): bars added to the data change no value of `mavp`: the result may begin later, as in C42, and then
the bars before are NaN; at all others the value stays. -/
theorem C125_added {A : Avg V} {minp maxp : ℕ} {talib : Bool} {close close' : Line V} {periods periods' : List ℕ}
    {r r' : Line V} (hA : ∀ q, minp ≤ q → q ≤ maxp → A.Periods 1 q) (h1 : 1 ≤ minp) (h2 : minp ≤ maxp)
    (hc : 1 ≤ close.minperiod) (hn : 1 ≤ close.series.length)
    (hlen : periods.length = close.series.length) (hlen' : periods'.length = close'.series.length)
    (hk : Spec.Kept close close') (hp : ∀ i, i < periods.length → periods'[i]? = periods[i]?)
    (h : Ind.mavp A.run minp maxp talib close periods = .ok r)
    (h' : Ind.mavp A.run minp maxp talib close' periods' = .ok r') :
    r.minperiod ≤ r'.minperiod ∧
    ∀ i, i < close.series.length → r'.series[i]? = if r'.minperiod - 1 ≤ i then r.series[i]? else some nan := by
  have hcl : ∀ i, i < close.series.length → Spec.clipPer minp maxp periods' i = Spec.clipPer minp maxp periods i := by
    intro i hi; unfold Spec.clipPer; rw [hp i (by omega)]
  have hkl := hk.len
  have hc' : 1 ≤ close'.minperiod := by rw [hk.mp]; exact hc
  have hA' : ∀ i, A.Periods 1 (Spec.clipPer minp maxp periods i) := fun i =>
    hA _ (clipPer_range h2 periods i).1 (clipPer_range h2 periods i).2
  obtain ⟨f1, f2, f3, -⟩ := C125_first hlen' (by omega) hc' h1 h2 h'
  have hmp : r.minperiod ≤ r'.minperiod := by
    rcases (C125_first hlen hn hc h1 h2 h).2.2.2 with ⟨ht, e⟩ | ⟨i, hi, e | ⟨s, hs, e⟩⟩
    · have := f3 ht
      rw [hk.mp] at this; omega
    · have := f2 i (by omega)
      rw [hk.mp, hcl i hi] at this; omega
    · obtain ⟨s', g1, g2, -⟩ := avg_kept (hA' i) hc hc hk hs
      have := f1 i (by omega) s' (by rw [hcl i hi]; exact g1)
      omega
  refine ⟨hmp, fun i hi => ?_⟩
  have hw := C86_mavp _ _ _ _ _ _ _ h'
  split
  · rename_i hi'
    obtain ⟨s, hs, e⟩ := C125_values hlen h i hi (by omega)
    obtain ⟨s', hs', e'⟩ := C125_values hlen' h' i (by omega) hi'
    obtain ⟨s'', g1, -, -, g2⟩ := avg_kept (hA' i) hc hc hk hs
    rw [hcl i hi, g1] at hs'
    cases hs'
    rw [e, e', g2 i hi]
  · exact hw.pre i (by omega) (by omega)

/-- **C125** (added bars, ta-lib compatibility): with an average which needs no more bars than its period, the result always
begins at `maxperiod`, and bars added to the data change nothing at all. -/
theorem C125_talib {A : Avg V} {minp maxp : ℕ} {close close' : Line V} {periods periods' : List ℕ}
    {r r' : Line V} (hA : ∀ q, minp ≤ q → q ≤ maxp → A.Periods 1 q) (hm : ∀ q, 1 ≤ q → Spec.more A q ≤ q - 1) (h1 : 1 ≤ minp)
    (h2 : minp ≤ maxp) (hc : 1 ≤ close.minperiod) (hn : 1 ≤ close.series.length)
    (hlen : periods.length = close.series.length) (hlen' : periods'.length = close'.series.length)
    (hk : Spec.Kept close close') (hp : ∀ i, i < periods.length → periods'[i]? = periods[i]?)
    (h : Ind.mavp A.run minp maxp true close periods = .ok r)
    (h' : Ind.mavp A.run minp maxp true close' periods' = .ok r') :
    r.minperiod = close.minperiod + maxp - 1 ∧ Spec.Kept r r' := by
  have key : ∀ {c : Line V} {ps : List ℕ} {o : Line V}, ps.length = c.series.length → 1 ≤ c.series.length → 1 ≤ c.minperiod →
      Ind.mavp A.run minp maxp true c ps = .ok o → o.minperiod = c.minperiod + maxp - 1 := by
    intro c ps o hl hn hc ho
    obtain ⟨-, -, g3, g4⟩ := C125_first hl hn hc h1 h2 ho
    have g3 := g3 rfl
    rcases g4 with ⟨-, e⟩ | ⟨i, hi, e⟩
    · exact e
    · have hq : 1 ≤ Spec.clipPer minp maxp ps i ∧ minp ≤ Spec.clipPer minp maxp ps i ∧ Spec.clipPer minp maxp ps i ≤ maxp := by
        have := clipPer_range h2 ps i
        omega
      rcases e with e | ⟨s, hs, e⟩
      · omega
      · obtain ⟨m, hm'⟩ : ∃ m : ℕ, c.minperiod = m := ⟨c.minperiod.toNat, by omega⟩
        have := Avg.mp A 1 _ m c (hA _ hq.2.1 hq.2.2) (by omega) ⟨hm', by omega⟩ s hs
        have h3 := hm _ hq.1
        have := this.1
        omega
  have e := key hlen hn hc h
  have hkl := hk.len
  have e' := key hlen' (by omega) (by rw [hk.mp]; exact hc) h'
  obtain ⟨-, g⟩ := C125_added hA h1 h2 hc hn hlen hlen' hk hp h h'
  have w := C86_mavp _ _ _ _ _ _ _ h
  have w' := C86_mavp _ _ _ _ _ _ _ h'
  refine ⟨e, by rw [e', e, hk.mp], by rw [w.len, w'.len]; exact hkl, fun i hi => ?_⟩
  rw [w.len] at hi
  rw [g i hi]
  split
  · rfl
  · rename_i hi'
    refine (w.pre i ?_ hi).symm
    rw [e]; rw [e', hk.mp] at hi'; omega

omit [PyFloat V] in
/-- The averages `C125_talib` is about: those of one pass. -/
theorem C125_one_pass : (∀ q, Spec.more (.sma : Avg V) q ≤ q - 1) ∧ (∀ s o q, Spec.more (.ema s o : Avg V) q ≤ q - 1) ∧
    (∀ s q, Spec.more (.smma s : Avg V) q ≤ q - 1) ∧ (∀ q, Spec.more (.wma : Avg V) q ≤ q - 1) ∧
    (∀ q, Spec.more (.trima : Avg V) q ≤ q - 1) := by
  refine ⟨?_, ?_, ?_, ?_, ?_⟩ <;> intros <;> exact le_refl _

/-- For `dema`, which needs twice as many, `C125_talib` fails: with ta-lib compatibility too a value shown (at the third bar)
is taken back when a fourth bar asks for a longer period. -/
theorem C125_talib_not_dema : ∃ r r' : Line (Ext ℚ),
    Ind.mavp (Avg.dema .sma : Avg (Ext ℚ)).run 2 3 true (bars 3 fun i => (1 + (i * (i + 1) / 2 : ℕ) : ℚ)) [2, 2, 2] = .ok r ∧
    Ind.mavp (Avg.dema .sma : Avg (Ext ℚ)).run 2 3 true (bars 4 fun i => (1 + (i * (i + 1) / 2 : ℕ) : ℚ)) [2, 2, 2, 3] = .ok r' ∧
    ¬ Spec.Kept r r' := by
  refine ⟨⟨[.nan, .nan, .fin (15/4)], 3⟩, ⟨[.nan, .nan, .nan, .nan], 5⟩, by decide +kernel, by decide +kernel, ?_⟩
  intro h
  exact absurd h.mp (by decide)

/-- `C125_talib`, `C125_values` and `C125_first` on bars where the periods change: the result begins at `maxperiod` -/
example : Ind.mavp (Avg.sma : Avg (Ext ℚ)).run 2 3 true (bars 4 fun i => (1 + (i * (i + 1) / 2 : ℕ) : ℚ)) [2, 2, 2, 9] =
      .ok ⟨[.nan, .nan, .fin 3, .fin (13/3)], 3⟩ ∧
    Ind.mavp (Avg.sma : Avg (Ext ℚ)).run 2 3 true (bars 5 fun i => (1 + (i * (i + 1) / 2 : ℕ) : ℚ)) [2, 2, 2, 9, 1] =
      .ok ⟨[.nan, .nan, .fin 3, .fin (13/3), .fin 9], 3⟩ := by
  constructor <;> decide +kernel

/-- `C125_raises`: too few bars for one of the periods asked for -/
example : Ind.mavp (Avg.ema .avg 0 : Avg (Ext ℚ)).run 2 30 false (bars 4 fun i => (i : ℚ)) [2, 2, 9, 2] = .error .indexError ∧
    (Avg.ema .avg 0 : Avg (Ext ℚ)).run 9 (bars 4 fun i => (i : ℚ)) = .error .indexError := by
  constructor <;> decide +kernel

end Bta
