import Verif.Align
import Mathlib.Data.List.Sort

/-!
# C104: operands with other dates
-/

set_option linter.unusedSectionVars false
set_option linter.unusedVariables false

namespace Spec
open Bta

/-- the dates increase -/
def Increasing {V : Type} (s : Dated V) : Prop := (s.map Prod.fst).Pairwise (· < ·)

/-- the bars of a series from the `m`-th on (counted from 1) -/
def barsFrom {V : Type} (m : ℕ) (s : Dated V) : Dated V := s.drop (m - 1)

end Spec

namespace Bta
open Spec (Increasing barsFrom)

variable {V : Type} [PyFloat V]

theorem outer_cons (f : V → V → V) (s : Int) (x : V) (a b : Dated V) : outer f ((s, x) :: a) b =
    ((b.takeWhile fun q => q.1 < s).map fun q => (q.1, nan)) ++
      match b.dropWhile fun q => q.1 < s with
      | [] => (s, nan) :: outer f a []
      | (t, y) :: b' => if t = s then (s, f x y) :: outer f a b' else (s, nan) :: outer f a ((t, y) :: b') := by
  rw [outer]; rfl

/-- what remains of `b` from date `s` on starts at `s` or later -/
theorem dropWhile_head {s : Int} {b : Dated V} {t : Int} {y : V} {b' : Dated V} (h : b.dropWhile (fun q => q.1 < s) = (t, y) :: b') :
    s ≤ t := by
  have := List.head_dropWhile_not (fun q : Int × V => decide (q.1 < s)) (l := b) (by rw [h]; simp)
  simp only [h, List.head_cons, decide_eq_false_iff_not] at this
  omega

theorem split_while (s : Int) (b : Dated V) : (b.takeWhile fun q => q.1 < s) ++ (b.dropWhile fun q => q.1 < s) = b :=
  List.takeWhile_append_dropWhile

theorem takeWhile_lt {s : Int} {b : Dated V} {q : Int × V} (h : q ∈ b.takeWhile fun q => q.1 < s) : q.1 < s := by
  simpa using (List.all_takeWhile (p := fun q : Int × V => decide (q.1 < s)) (l := b)) |> List.all_eq_true.mp |> fun k => k q h

theorem outer_dates_mem (f : V → V → V) (a : Dated V) : ∀ (b : Dated V) (d : Int),
    d ∈ (outer f a b).map Prod.fst ↔ d ∈ a.map Prod.fst ∨ d ∈ b.map Prod.fst := by
  induction a with
  | nil => intro b d; simp [outer]
  | cons p a ih =>
    obtain ⟨s, x⟩ := p
    intro b d
    rw [outer_cons]
    have hb := split_while s b
    have hm : d ∈ b.map Prod.fst ↔ d ∈ (b.takeWhile fun q => q.1 < s).map Prod.fst ∨ d ∈ (b.dropWhile fun q => q.1 < s).map Prod.fst := by
      conv_lhs => rw [← hb]
      rw [List.map_append, List.mem_append]
    have e : ∀ t : Dated V, (t.map fun q => (q.1, (nan : V))).map Prod.fst = t.map Prod.fst := by intro t; simp
    rw [List.map_append, List.mem_append, e, hm]
    generalize hr : (b.dropWhile fun q => decide (q.1 < s)) = rest
    match rest with
    | [] => simp [ih]; tauto
    | (t, y) :: b' =>
      by_cases ht : t = s
      · simp only [ht, if_true, List.map_cons, List.mem_cons, ih]; tauto
      · simp only [ht, if_false, List.map_cons, List.mem_cons, ih]; tauto

theorem _root_.Spec.Increasing.tail {p : Int × V} {a : Dated V} (h : Increasing (p :: a)) : Increasing a := (List.pairwise_cons.mp h).2

theorem _root_.Spec.Increasing.head {p : Int × V} {a : Dated V} (h : Increasing (p :: a)) : ∀ d ∈ a.map Prod.fst, p.1 < d := (List.pairwise_cons.mp h).1

theorem _root_.Spec.Increasing.sub {a b : Dated V} (h : Increasing b) (hs : a.Sublist b) : Increasing a := List.Pairwise.sublist (hs.map _) h

theorem outer_increasing (f : V → V → V) (a : Dated V) : ∀ b : Dated V, Increasing a → Increasing b → Increasing (outer f a b) := by
  induction a with
  | nil => intro b _ hb; unfold Increasing outer; rw [List.map_map]; exact hb
  | cons p a ih =>
    obtain ⟨s, x⟩ := p
    intro b ha hb
    rw [outer_cons]
    have hd : Increasing (b.dropWhile fun q => decide (q.1 < s)) := hb.sub (List.dropWhile_sublist _)
    have ht : Increasing (b.takeWhile fun q => decide (q.1 < s)) := hb.sub (List.takeWhile_sublist _)
    have e : ∀ t : Dated V, (t.map fun q => (q.1, (nan : V))).map Prod.fst = t.map Prod.fst := by intro t; simp
    -- the later part is increasing and starts at `s`
    have key : ∀ (v : V) (b' : Dated V), Increasing b' → (∀ d ∈ b'.map Prod.fst, s < d) →
        Increasing (((b.takeWhile fun q => decide (q.1 < s)).map fun q => (q.1, (nan : V))) ++ (s, v) :: outer f a b') := by
      intro v b' h1 h2
      unfold Increasing
      rw [List.map_append, e, List.pairwise_append]
      refine ⟨ht, ?_, ?_⟩
      · rw [List.map_cons, List.pairwise_cons]
        refine ⟨fun d hd => ?_, ih b' ha.tail h1⟩
        rcases (outer_dates_mem f a b' d).mp hd with h | h
        · exact ha.head d h
        · exact h2 d h
      · intro d hd d' hd'
        obtain ⟨q, hq, rfl⟩ := List.mem_map.mp hd
        have hq := takeWhile_lt hq
        rw [List.map_cons, List.mem_cons] at hd'
        rcases hd' with h | h
        · simp only [h]; exact hq
        · rcases (outer_dates_mem f a b' d').mp h with h | h
          · exact lt_trans hq (ha.head d' h)
          · exact lt_trans hq (h2 d' h)
    generalize hr : (b.dropWhile fun q => decide (q.1 < s)) = rest at hd
    match rest, hr, hd with
    | [], hr, hd => exact key nan [] List.Pairwise.nil (by simp)
    | (t, y) :: b', hr, hd =>
      have hst := dropWhile_head hr
      by_cases h : t = s
      · simp only [h, if_true]
        exact key _ b' hd.tail fun d h' => by have := hd.head d h'; simp only at this; omega
      · simp only [h, if_false]
        refine key _ _ hd fun d h' => ?_
        rw [List.map_cons, List.mem_cons] at h'
        rcases h' with h' | h'
        · simp only at h'; omega
        · have := hd.head d h'; simp only at this; omega

theorem outer_both (f : V → V → V) (a : Dated V) : ∀ b : Dated V, Increasing a → Increasing b → ∀ {d : Int} {x y : V},
    (d, x) ∈ a → (d, y) ∈ b → (d, f x y) ∈ outer f a b := by
  induction a with
  | nil => intro b _ _ d x y h; simp at h
  | cons p a ih =>
    obtain ⟨s, z⟩ := p
    intro b ha hb d x y hx hy
    rw [outer_cons]
    have hd : Increasing (b.dropWhile fun q => decide (q.1 < s)) := hb.sub (List.dropWhile_sublist _)
    have hsd : s ≤ d := by
      rcases List.mem_cons.mp hx with h | h
      · injection h with h1 _; omega
      · have := ha.head d (List.mem_map_of_mem (f := Prod.fst) h); simp only at this; omega
    have hy' : (d, y) ∈ b.dropWhile fun q => decide (q.1 < s) := by
      rw [← split_while s b, List.mem_append] at hy
      rcases hy with h | h
      · have := takeWhile_lt h; simp only at this; omega
      · exact h
    rw [List.mem_append]; right
    generalize hr : (b.dropWhile fun q => decide (q.1 < s)) = rest at hd hy'
    match rest, hr, hd, hy' with
    | [], hr, hd, hy' => simp at hy'
    | (t, w) :: b', hr, hd, hy' =>
      have hst := dropWhile_head hr
      by_cases h : t = s
      · simp only [h, if_true]
        by_cases hds : d = s
        · have e1 : x = z := by
            rcases List.mem_cons.mp hx with h | h
            · injection h
            · have := ha.head d (List.mem_map_of_mem (f := Prod.fst) h); simp only at this; omega
          have e2 : y = w := by
            rcases List.mem_cons.mp hy' with h' | h'
            · injection h'
            · have := hd.head d (List.mem_map_of_mem (f := Prod.fst) h'); simp only at this; omega
          rw [e1, e2, hds]; exact List.mem_cons_self
        · refine List.mem_cons_of_mem _ (ih b' ha.tail hd.tail ?_ ?_)
          · rcases List.mem_cons.mp hx with h | h
            · injection h with h1 _; exact absurd h1 hds
            · exact h
          · rcases List.mem_cons.mp hy' with h' | h'
            · injection h' with h1 _; exact absurd (h1.trans h) hds
            · exact h'
      · simp only [h, if_false]
        refine List.mem_cons_of_mem _ (ih _ ha.tail hd ?_ hy')
        rcases List.mem_cons.mp hx with h1 | h1
        · injection h1 with h2 _
          rcases List.mem_cons.mp hy' with h' | h'
          · injection h' with h3 _; omega
          · have := hd.head d (List.mem_map_of_mem (f := Prod.fst) h'); simp only at this; omega
        · exact h1

theorem outer_left (f : V → V → V) (a : Dated V) : ∀ b : Dated V, Increasing a → Increasing b → ∀ {d : Int} {x : V},
    (d, x) ∈ a → d ∉ b.map Prod.fst → (d, nan) ∈ outer f a b := by
  induction a with
  | nil => intro b _ _ d x h; simp at h
  | cons p a ih =>
    obtain ⟨s, z⟩ := p
    intro b ha hb d x hx hy
    rw [outer_cons]
    have hd : Increasing (b.dropWhile fun q => decide (q.1 < s)) := hb.sub (List.dropWhile_sublist _)
    have hy' : d ∉ (b.dropWhile fun q => decide (q.1 < s)).map Prod.fst := fun h =>
      hy (((List.dropWhile_sublist _).map Prod.fst).subset h)
    rw [List.mem_append]; right
    generalize hr : (b.dropWhile fun q => decide (q.1 < s)) = rest at hd hy'
    match rest, hr, hd, hy' with
    | [], hr, hd, hy' =>
      rcases List.mem_cons.mp hx with h | h
      · injection h with h1 _; rw [h1]; exact List.mem_cons_self
      · exact List.mem_cons_of_mem _ (ih [] ha.tail hd h (by simp))
    | (t, w) :: b', hr, hd, hy' =>
      by_cases h : t = s
      · simp only [h, if_true]
        rcases List.mem_cons.mp hx with h1 | h1
        · injection h1 with h1 _; exact absurd (by rw [h1, ← h]; simp) hy'
        · exact List.mem_cons_of_mem _ (ih b' ha.tail hd.tail h1 fun h2 => hy' (List.mem_cons_of_mem _ h2))
      · simp only [h, if_false]
        rcases List.mem_cons.mp hx with h1 | h1
        · injection h1 with h1 _; rw [h1]; exact List.mem_cons_self
        · exact List.mem_cons_of_mem _ (ih _ ha.tail hd h1 hy')

theorem _root_.Spec.Increasing.nodup {a : Dated V} (h : Increasing a) : (a.map Prod.fst).Nodup := h.imp fun h => ne_of_lt h

/-- as many bars as `a` has: the dates of `a` -/
theorem outer_length_iff (f : V → V → V) {a b : Dated V} (ha : Increasing a) (hb : Increasing b) :
    (outer f a b).length = a.length ↔ ∀ d ∈ b.map Prod.fst, d ∈ a.map Prod.fst := by
  have hr := outer_increasing f a b ha hb
  constructor
  · intro h d hd
    have hsub : a.map Prod.fst ⊆ (outer f a b).map Prod.fst := fun d h => (outer_dates_mem f a b d).mpr (Or.inl h)
    have hp : (a.map Prod.fst).Subperm ((outer f a b).map Prod.fst) := ha.nodup.subperm hsub
    have := hp.perm_of_length_le (by simp [h])
    exact this.mem_iff.mpr ((outer_dates_mem f a b d).mpr (Or.inr hd))
  · intro h
    have : (outer f a b).map Prod.fst = a.map Prod.fst := by
      refine List.Perm.eq_of_pairwise (le := (· < ·)) (fun _ _ _ _ h1 h2 => absurd h2 (not_lt.mpr h1.le)) hr ha ?_
      exact (List.perm_ext_iff_of_nodup hr.nodup ha.nodup).mpr fun d => by rw [outer_dates_mem]; exact ⟨fun h' => h'.elim id (h d), Or.inl⟩
    simpa using congrArg List.length this

theorem outer_dates_eq (f : V → V → V) {a b : Dated V} (ha : Increasing a) (hb : Increasing b)
    (h : ∀ d ∈ b.map Prod.fst, d ∈ a.map Prod.fst) : (outer f a b).map Prod.fst = a.map Prod.fst := by
  have hr := outer_increasing f a b ha hb
  refine List.Perm.eq_of_pairwise (le := (· < ·)) (fun _ _ _ _ h1 h2 => absurd h2 (not_lt.mpr h1.le)) hr ha ?_
  exact (List.perm_ext_iff_of_nodup hr.nodup ha.nodup).mpr fun d => by rw [outer_dates_mem]; exact ⟨fun h' => h'.elim id (h d), Or.inl⟩

/-- at a date of an increasing series there is one value -/
theorem at_date {s : Dated V} (h : Increasing s) {i : ℕ} {d : Int} {v : V} (hm : (d, v) ∈ s) (hd : (s.map Prod.fst)[i]? = some d) :
    s[i]? = some (d, v) := by
  obtain ⟨j, hj, e⟩ := List.getElem_of_mem hm
  rw [List.getElem?_eq_some_iff] at hd
  obtain ⟨hi, hd⟩ := hd
  have h2 : (s.map Prod.fst)[j]'(by simpa using hj) = d := by rw [List.getElem_map, e]
  have := (List.Nodup.getElem_inj_iff h.nodup).mp (hd.trans h2.symm)
  subst this
  rw [List.getElem?_eq_some_iff]; exact ⟨hj, e⟩

section
variable {a b : DLine V} {ma mb : ℕ}

/-- the operator for lines with minimum periods from 1 on -/
theorem binop_unfold (f : V → V → V) (ha : a.minperiod = ma) (hb : b.minperiod = mb) (h1 : 1 ≤ ma) :
    DLine.binop f a b = if (outer f (barsFrom (max ma mb) a.series) (barsFrom (max ma mb) b.series)).length =
        (barsFrom (max ma mb) a.series).length then
      .ok ⟨List.zip a.series.dates (List.replicate (min (max ma mb - 1) a.series.length) nan ++
        (outer f (barsFrom (max ma mb) a.series) (barsFrom (max ma mb) b.series)).map Prod.snd), ((max ma mb : ℕ) : Int)⟩
      else .error .valueError := by
  have hM : max a.minperiod b.minperiod = ((max ma mb : ℕ) : Int) := by rw [ha, hb]; push_cast; rfl
  have hs : ∀ s : Dated V, pyFrom s (((max ma mb : ℕ) : Int) - 1) = barsFrom (max ma mb) s := by
    intro s
    unfold pyFrom pyStart barsFrom
    rw [if_pos (by omega)]
    have : (((max ma mb : ℕ) : Int) - 1).toNat = max ma mb - 1 := by omega
    rw [this]
    by_cases h : max ma mb - 1 ≤ s.length
    · rw [min_eq_left h]
    · rw [min_eq_right (by omega), List.drop_eq_nil_of_le (le_refl _), List.drop_eq_nil_of_le (by omega)]
  unfold DLine.binop
  simp only [hM, hs]
  have hne : ¬ (((max ma mb : ℕ) : Int) = 0) := by omega
  simp only [hne, if_false]
  have hp : pyStart a.series.length (((max ma mb : ℕ) : Int) - 1) = min (max ma mb - 1) a.series.length := by
    unfold pyStart
    rw [if_pos (by omega)]
    congr 1
    omega
  unfold setFrom
  rw [hp]

/-- **C104** an operator between two lines gives a result if and only if each date at which the other operand has a bar from the common
minimum period on is such a date of the first; otherwise ValueError. -/
theorem C104_ok_iff (f : V → V → V) (ha : a.minperiod = ma) (hb : b.minperiod = mb) (h1 : 1 ≤ ma)
    (ia : Increasing a.series) (ib : Increasing b.series) :
    ((∃ r, DLine.binop f a b = .ok r) ↔
      ∀ d ∈ (barsFrom (max ma mb) b.series).dates, d ∈ (barsFrom (max ma mb) a.series).dates) ∧
    ((¬ ∃ r, DLine.binop f a b = .ok r) → DLine.binop f a b = .error .valueError) := by
  have key := outer_length_iff f (ia.sub (List.drop_sublist (max ma mb - 1) _)) (ib.sub (List.drop_sublist (max ma mb - 1) _))
  rw [binop_unfold f ha hb h1]
  by_cases h : (outer f (barsFrom (max ma mb) a.series) (barsFrom (max ma mb) b.series)).length = (barsFrom (max ma mb) a.series).length
  · rw [if_pos h]
    exact ⟨⟨fun _ => key.mp h, fun _ => ⟨_, rfl⟩⟩, fun h => absurd ⟨_, rfl⟩ h⟩
  · rw [if_neg h]
    exact ⟨⟨fun h' => absurd h'.choose_spec (by simp), fun h' => absurd (key.mpr h') h⟩, fun _ => rfl⟩

/-- **C104** the result has the dates of the first operand and the greater minimum period; before that it is NaN; from then on it is the
operation on the values of the same date, and NaN at dates which the other has not (or only before the common minimum period, counted
in its own bars). -/
theorem C104_values (f : V → V → V) (ha : a.minperiod = ma) (hb : b.minperiod = mb) (h1 : 1 ≤ ma)
    (ia : Increasing a.series) (ib : Increasing b.series) {r : DLine V} (hr : DLine.binop f a b = .ok r) :
    r.series.dates = a.series.dates ∧ r.minperiod = ((max ma mb : ℕ) : Int) ∧
    ∀ i d x, a.series[i]? = some (d, x) →
      (i + 1 < max ma mb → r.series[i]? = some (d, nan)) ∧
      (max ma mb ≤ i + 1 → ∀ y, (d, y) ∈ barsFrom (max ma mb) b.series → r.series[i]? = some (d, f x y)) ∧
      (max ma mb ≤ i + 1 → d ∉ (barsFrom (max ma mb) b.series).dates → r.series[i]? = some (d, nan)) := by
  have ia' : Increasing (barsFrom (max ma mb) a.series) := ia.sub (List.drop_sublist (max ma mb - 1) _)
  have ib' : Increasing (barsFrom (max ma mb) b.series) := ib.sub (List.drop_sublist (max ma mb - 1) _)
  have hsub := (C104_ok_iff f ha hb h1 ia ib).1.mp ⟨r, hr⟩
  have hlen := (outer_length_iff f ia' ib').mpr hsub
  have hdat := outer_dates_eq f ia' ib' hsub
  have hinc := outer_increasing f _ _ ia' ib'
  rw [binop_unfold f ha hb h1, if_pos hlen] at hr
  injection hr with hr
  subst hr
  have hl : (List.replicate (min (max ma mb - 1) a.series.length) (nan : V) ++
      (outer f (barsFrom (max ma mb) a.series) (barsFrom (max ma mb) b.series)).map Prod.snd).length = a.series.length := by
    rw [List.length_append, List.length_map, hlen]
    unfold barsFrom
    simp
    omega
  refine ⟨?_, rfl, fun i d x hi => ?_⟩
  · unfold Dated.dates
    rw [List.map_fst_zip]
    rw [hl]; simp
  · have hin : i < a.series.length := by
      by_contra h
      rw [List.getElem?_eq_none (by omega)] at hi
      exact nomatch hi
    have hdi : a.series.dates[i]? = some d := by unfold Dated.dates; rw [List.getElem?_map, hi]; rfl
    -- value at position `i` of the zipped list
    have hz : ∀ (l : List V) (v : V), l[i]? = some v → (List.zip a.series.dates l)[i]? = some (d, v) := by
      intro l v hv
      rw [List.getElem?_zip_eq_some]; exact ⟨hdi, hv⟩
    have hpos : max ma mb ≤ i + 1 → ∀ v, (d, v) ∈ outer f (barsFrom (max ma mb) a.series) (barsFrom (max ma mb) b.series) →
        (List.replicate (min (max ma mb - 1) a.series.length) (nan : V) ++
          (outer f (barsFrom (max ma mb) a.series) (barsFrom (max ma mb) b.series)).map Prod.snd)[i]? = some v := by
      intro h v hv
      have hdi' : ((outer f (barsFrom (max ma mb) a.series) (barsFrom (max ma mb) b.series)).map Prod.fst)[i - (max ma mb - 1)]? = some d := by
        rw [hdat]
        unfold barsFrom
        rw [List.map_drop, List.getElem?_drop, show max ma mb - 1 + (i - (max ma mb - 1)) = i from by omega]
        exact hdi
      have := at_date hinc hv hdi'
      rw [List.getElem?_append_right (by rw [List.length_replicate]; omega), List.length_replicate, List.getElem?_map,
        show i - min (max ma mb - 1) a.series.length = i - (max ma mb - 1) from by omega, this]
      rfl
    have hmem : max ma mb ≤ i + 1 → (d, x) ∈ barsFrom (max ma mb) a.series := by
      intro h
      unfold barsFrom
      refine List.mem_of_getElem? (i := i - (max ma mb - 1)) ?_
      rw [List.getElem?_drop, show max ma mb - 1 + (i - (max ma mb - 1)) = i from by omega]
      exact hi
    refine ⟨fun h => hz _ _ ?_, fun h y hy => hz _ _ (hpos h _ (outer_both f _ _ ia' ib' (hmem h) hy)),
      fun h hy => hz _ _ (hpos h _ (outer_left f _ _ ia' ib' (hmem h) hy))⟩
    rw [List.getElem?_append_left (by rw [List.length_replicate]; omega), List.getElem?_replicate, if_pos (by omega)]

/-- **C104** (commutativity) with the operands exchanged both give a result only if they have the same dates from the common minimum
period on: `a + b` may give a result and `b + a` raise. -/
theorem C104_both_orders (f g : V → V → V) (ha : a.minperiod = ma) (hb : b.minperiod = mb) (h1 : 1 ≤ ma) (h2 : 1 ≤ mb)
    (ia : Increasing a.series) (ib : Increasing b.series) :
    ((∃ r, DLine.binop f a b = .ok r) ∧ ∃ r, DLine.binop g b a = .ok r) ↔
      (barsFrom (max ma mb) a.series).dates = (barsFrom (max ma mb) b.series).dates := by
  have ia' : Increasing (barsFrom (max ma mb) a.series) := ia.sub (List.drop_sublist (max ma mb - 1) _)
  have ib' : Increasing (barsFrom (max ma mb) b.series) := ib.sub (List.drop_sublist (max ma mb - 1) _)
  rw [(C104_ok_iff f ha hb h1 ia ib).1, (C104_ok_iff g hb ha h2 ib ia).1, max_comm mb ma]
  constructor
  · rintro ⟨h3, h4⟩
    exact List.Perm.eq_of_pairwise (le := (· < ·)) (fun _ _ _ _ h1 h2 => absurd h2 (not_lt.mpr h1.le)) ia' ib'
      ((List.perm_ext_iff_of_nodup ia'.nodup ib'.nodup).mpr fun d => ⟨h4 d, h3 d⟩)
  · intro h
    rw [h]
    exact ⟨fun _ h => h, fun _ h => h⟩

/-- **C104** (negation) an operand which starts `k` bars later, and is a plain series, is not used as soon as it is there: for `k` bars
from the minimum period on (or from its own start) the result is NaN although both operands have values, for all data. -/
theorem C104_late_start (f : V → V → V) (ha : a.minperiod = ma) (hb : b.minperiod = 1) (h1 : 2 ≤ ma) (ia : Increasing a.series)
    {k : ℕ} (hk : 1 ≤ k) (hd : b.series.dates = a.series.dates.drop k) :
    ∃ r, DLine.binop f a b = .ok r ∧ r.minperiod = ma ∧ ∀ i d x, a.series[i]? = some (d, x) → ma ≤ i + 1 → k ≤ i → i + 1 < ma + k →
      (∃ y, b.series[i - k]? = some (d, y)) ∧ r.series[i]? = some (d, nan) := by
  have ib : Increasing b.series := by
    unfold Increasing
    have : b.series.map Prod.fst = (a.series.map Prod.fst).drop k := hd
    rw [this]
    exact List.Pairwise.sublist (List.drop_sublist _ _) ia
  have hM : max ma 1 = ma := by omega
  have hsub : ∀ d ∈ (barsFrom (max ma 1) b.series).dates, d ∈ (barsFrom (max ma 1) a.series).dates := by
    intro d h
    unfold barsFrom Dated.dates at h ⊢
    rw [hM] at h ⊢
    rw [List.map_drop] at h ⊢
    have hd' : b.series.map Prod.fst = (a.series.map Prod.fst).drop k := hd
    rw [hd', List.drop_drop, Nat.add_comm] at h
    rw [← List.drop_drop] at h
    exact List.mem_of_mem_drop h
  obtain ⟨r, hr⟩ := (C104_ok_iff f ha (by rw [hb]; rfl : b.minperiod = (1 : ℕ)) (by omega) ia ib).1.mpr hsub
  obtain ⟨-, h3, h4⟩ := C104_values f ha (by rw [hb]; rfl : b.minperiod = (1 : ℕ)) (by omega) ia ib hr
  refine ⟨r, hr, by rw [h3, hM], fun i d x hi h5 h6 h7 => ?_⟩
  have hdi : b.series.dates[i - k]? = some d := by
    rw [hd, List.getElem?_drop, show k + (i - k) = i from by omega]
    unfold Dated.dates
    rw [List.getElem?_map, hi]; rfl
  refine ⟨?_, (h4 i d x hi).2.2 (by omega) ?_⟩
  · unfold Dated.dates at hdi
    rw [List.getElem?_map, Option.map_eq_some_iff] at hdi
    obtain ⟨⟨d', y⟩, h8, h9⟩ := hdi
    exact ⟨y, by rw [h8]; simp only at h9; rw [h9]⟩
  · rw [hM]
    intro h
    unfold barsFrom Dated.dates at h
    rw [List.map_drop] at h
    obtain ⟨j, hj, e⟩ := List.getElem_of_mem h
    rw [List.getElem_drop] at e
    unfold Dated.dates at hdi
    rw [List.getElem?_eq_some_iff] at hdi
    obtain ⟨h8, h9⟩ := hdi
    have := (List.Nodup.getElem_inj_iff ib.nodup).mp (e.trans h9.symm)
    omega

/-- the comparison for lines with minimum periods from 1 on -/
theorem cmpop_unfold (f : V → V → Bool) (ha : a.minperiod = ma) (hb : b.minperiod = mb) (h1 : 1 ≤ ma) :
    DLine.cmpop f a b = if (barsFrom (max ma mb) a.series).map Prod.fst = (barsFrom (max ma mb) b.series).map Prod.fst then
      .ok (List.zip a.series.dates (List.replicate (min (max ma mb - 1) a.series.length) true ++
        List.zipWith (fun p q => f p.2 q.2) (barsFrom (max ma mb) a.series) (barsFrom (max ma mb) b.series)), ((max ma mb : ℕ) : Int))
      else .error .valueError := by
  have hM : max a.minperiod b.minperiod = ((max ma mb : ℕ) : Int) := by rw [ha, hb]; push_cast; rfl
  have hs : ∀ s : Dated V, pyFrom s (((max ma mb : ℕ) : Int) - 1) = barsFrom (max ma mb) s := by
    intro s
    unfold pyFrom pyStart barsFrom
    rw [if_pos (by omega)]
    have : (((max ma mb : ℕ) : Int) - 1).toNat = max ma mb - 1 := by omega
    rw [this]
    by_cases h : max ma mb - 1 ≤ s.length
    · rw [min_eq_left h]
    · rw [min_eq_right (by omega), List.drop_eq_nil_of_le (le_refl _), List.drop_eq_nil_of_le (by omega)]
  have hp : pyStart a.series.length (((max ma mb : ℕ) : Int) - 1) = min (max ma mb - 1) a.series.length := by
    unfold pyStart
    rw [if_pos (by omega)]
    congr 1
    omega
  have hne : ¬ (((max ma mb : ℕ) : Int) = 0) := by omega
  unfold DLine.cmpop setFrom
  simp only [hM, hs, hp, hne, if_false]

/-- **C104** comparisons need the same dates from the common minimum period on, otherwise ValueError; then they compare the values of the
same date. -/
theorem C104_compare (f : V → V → Bool) (ha : a.minperiod = ma) (hb : b.minperiod = mb) (h1 : 1 ≤ ma) :
    ((barsFrom (max ma mb) a.series).dates ≠ (barsFrom (max ma mb) b.series).dates → DLine.cmpop f a b = .error .valueError) ∧
    ((barsFrom (max ma mb) a.series).dates = (barsFrom (max ma mb) b.series).dates →
      ∃ r, DLine.cmpop f a b = .ok (r, ((max ma mb : ℕ) : Int)) ∧ ∀ (i : ℕ) (d : Int) (x : V), a.series[i]? = some (d, x) → max ma mb ≤ i + 1 →
        ∃ y, b.series[i]? = some (d, y) ∧ r[i]? = some (d, f x y)) := by
  rw [cmpop_unfold f ha hb h1]
  refine ⟨fun h => if_neg h, fun h => ⟨_, if_pos h, fun i d x hi h2 => ?_⟩⟩
  have hin : i < a.series.length := by
    by_contra h
    rw [List.getElem?_eq_none (by omega)] at hi
    exact nomatch hi
  have hdi : a.series.dates[i]? = some d := by unfold Dated.dates; rw [List.getElem?_map, hi]; rfl
  have e : ∀ s : Dated V, (barsFrom (max ma mb) s)[i - (max ma mb - 1)]? = s[i]? := by
    intro s
    unfold barsFrom
    rw [List.getElem?_drop, show max ma mb - 1 + (i - (max ma mb - 1)) = i from by omega]
  have hb' : b.series[i]?.map Prod.fst = some d := by
    have := congrArg (fun l => l[i - (max ma mb - 1)]?) h
    simp only [Dated.dates, List.getElem?_map, e] at this
    rw [← this, hi]; rfl
  rw [Option.map_eq_some_iff] at hb'
  obtain ⟨⟨d', y⟩, h3, h4⟩ := hb'
  simp only at h4
  subst h4
  refine ⟨y, h3, ?_⟩
  rw [List.getElem?_zip_eq_some]
  refine ⟨hdi, ?_⟩
  rw [List.getElem?_append_right (by rw [List.length_replicate]; omega), List.length_replicate,
    show i - min (max ma mb - 1) a.series.length = i - (max ma mb - 1) from by omega, List.getElem?_zipWith, e, e, hi, h3]

end

/-- two instruments, one of them listed two days later -/
def old104 : DLine (Ext ℚ) := ⟨[(1, .fin 1), (2, .fin 2), (3, .fin 3), (4, .fin 4), (5, .fin 5), (6, .fin 6)], 3⟩
def new104 : DLine (Ext ℚ) := ⟨[(3, .fin 30), (4, .fin 40), (5, .fin 50), (6, .fin 60)], 1⟩

/-- from the third bar on both have values; the sum starts with the fifth; the other way round: ValueError -/
example : DLine.binop (· + ·) old104 new104 = .ok ⟨[(1, .nan), (2, .nan), (3, .nan), (4, .nan), (5, .fin 55), (6, .fin 66)], 3⟩ ∧
    DLine.binop (· + ·) new104 old104 = .error .valueError ∧
    DLine.cmpop (fun x y => lt x y) old104 new104 = .error .valueError := by decide +kernel

example : Increasing old104.series ∧ new104.series.dates = old104.series.dates.drop 2 := by
  constructor
  · unfold Increasing; decide
  · rfl

end Bta
