import Verif.Lemmas.ApiCalls
import Verif.Props.HtNan

/-!
# What holds for every call (C121)

The promises of the catalogue (C02, C84, C86, C97) for the calls a user writes: any class, any keywords, any data.
-/

namespace Bta.Api

open Meta Py

variable {V : Type} [PyFloat V]

/-! ## Specification -/

/-- Is ta-lib compatibility asked for, by the call or globally? -/
def _root_.Spec.compat (global : Bool) (kw : Dict String PyVal) : Bool :=
  (match get? kw "_talib" with
    | some v => v.truthy
    | none => false) || global

/-- The value of a keyword: as given, else (with ta-lib compatibility) the default of ta-lib, else the declared default. -/
def _root_.Spec.value (global : Bool) (c : Cls) (kw : Dict String PyVal) (k : String) : Option PyVal :=
  ((get? kw k).or (if Spec.compat global kw then get? (Spec.talibDefaults c) k else none)).or (get? c.defaults k)

/-- the parameters which are periods -/
def _root_.Spec.periodKeys : List String := ["period", "pfast", "pslow", "psignal", "period1", "period2", "period3", "_period"]

/-- The keywords are usable: periods are not 0, the offset of an exponential average is not within its period (which is what
`macd` with ta-lib compatibility does if the fast period is longer than the slow one), and the accumulation `smacc` is left to
the indicators of directional movement (where its early start needs a period longer than 1). -/
structure _root_.Spec.Usable (global : Bool) (c : Cls) (kw : Dict String PyVal) : Prop where
  once : (keys kw).Nodup
  cls : c ≠ .smacc
  pos : ∀ k ∈ Spec.periodKeys, Spec.value global c kw k ≠ some (.int 0)
  off : ∀ m n : ℕ, Spec.value global c kw "poffset" = some (.int n) → Spec.value global c kw "period" = some (.int m) →
    n = 0 ∨ m ≤ n
  order : c = .macd → Spec.compat global kw = true → ∀ m n : ℕ, Spec.value global c kw "pfast" = some (.int m) →
    Spec.value global c kw "pslow" = some (.int n) → m ≤ n
  acc : ∀ k ∈ ["_ma", "_masig", "_maslow", "_sum"], Spec.value global c kw k ≠ some (.cls "smacc")
  early : Spec.value global c kw "_pearly" = some (.bool true) → Spec.value global c kw "period" ≠ some (.int 1)

/-- No average which is used is of the class `n` (nor is the call one of it). -/
structure _root_.Spec.Without (n : String) (global : Bool) (c : Cls) (kw : Dict String PyVal) : Prop where
  cls : c.row.name ≠ n
  avg : ∀ k ∈ ["_ma", "_masig", "_maslow", "_sum", "_accum"], Spec.value global c kw k ≠ some (.cls n)

/-- There is a line for each input, or one line for the classes which take one instead of high and low (C120). -/
def _root_.Spec.Bound (c : Cls) (x : List (Line V)) : Prop :=
  x.length = (Spec.inputs c).length ∨ (Spec.oneOrTwo c = true ∧ x.length = 1)

/-! ## From keywords to what the calculation sees -/

theorem compat_eq (g : Bool) (kw : Dict String PyVal) : (talibFlag g kw).1 = Spec.compat g kw := by
  unfold talibFlag Spec.compat
  cases get? kw "_talib" <;> rfl

theorem eff_value (g : Bool) (c : Cls) (kw : Dict String PyVal) (k : String) (hk : k ≠ "_talib") :
    (eff g c.hooks kw k).or (get? c.defaults k) = Spec.value g c kw k := by
  unfold eff Spec.value
  rw [if_neg hk, compat_eq, hooks_flatten c k (fun _ => hk)]

theorem param_value {g : Bool} {c : Cls} {kw : Dict String PyVal} (hn : (keys kw).Nodup) {s : Seen}
    (h : resolve g c kw = .ok s) {k : String} (hk : k ≠ "_talib") {v : PyVal} (hv : get? s.params k = some v) :
    Spec.value g c kw k = some v := by
  rw [resolve_params hn h] at hv
  rw [← eff_value g c kw k hk]
  cases hd : get? c.defaults k with
  | none => rw [hd] at hv; cases hv
  | some d => rw [hd] at hv; exact hv

theorem rest_value {g : Bool} {c : Cls} {kw : Dict String PyVal} (hn : (keys kw).Nodup) {s : Seen}
    (h : resolve g c kw = .ok s) {k : String} (hk : k ≠ "_talib") {v : PyVal} (hv : get? s.rest k = some v) :
    Spec.value g c kw k = some v := by
  rw [resolve_rest hn h] at hv
  rw [← eff_value g c kw k hk]
  cases hd : get? c.defaults k with
  | none =>
    rw [hd] at hv
    have hv : eff g c.hooks kw k = some v := hv
    rw [hv]
    rfl
  | some d => rw [hd] at hv; cases hv

theorem resolve_talib {g : Bool} {c : Cls} {kw : Dict String PyVal} {s : Seen} (h : resolve g c kw = .ok s) :
    s.talib = Spec.compat g kw := by
  unfold resolve at h
  dsimp only at h
  cases hc : initCheck c.rows 0 (keys (fromKwargs ⟨c.defaults, []⟩ (talibKwargs g c.hooks kw)).2) with
  | error e => rw [hc] at h; cases h
  | ok u =>
    rw [hc] at h
    cases h
    exact compat_eq g kw

theorem ne_talib {k : String} {l : List String} (h : k ∈ l) (hl : "_talib" ∉ l) : k ≠ "_talib" := fun e => hl (e ▸ h)

theorem usable_fine {g : Bool} {c : Cls} {kw : Dict String PyVal} (hu : Spec.Usable g c kw) {s : Seen}
    (h : resolve g c kw = .ok s) : Fine s c where
  pos := fun k hk hv => hu.pos k hk (param_value hu.once h (ne_talib hk (by decide)) hv)
  early := fun h1 h2 => hu.early (param_value hu.once h (by decide) h1) (param_value hu.once h (by decide) h2)
  off := fun m n h1 h2 => hu.off m n (rest_value hu.once h (by decide) h1) (param_value hu.once h (by decide) h2)
  order := fun hc ht m n h1 h2 => hu.order hc (resolve_talib h ▸ ht) m n (param_value hu.once h (by decide) h1)
    (param_value hu.once h (by decide) h2)
  acc := fun k hk => ⟨fun hv => hu.acc k hk (param_value hu.once h (ne_talib hk (by decide)) hv),
    fun hv => hu.acc k hk (rest_value hu.once h (ne_talib hk (by decide)) hv)⟩

theorem minmaxindex_period : (get? Cls.minmaxindex.defaults "period").isSome = true := by decide +kernel

theorem usable_periods {E : Env V} {c : Cls} {kw : Dict String PyVal} (hu : Spec.Usable E.talib c kw) {s : Seen}
    (h : resolve E.talib c kw = .ok s) {r : Bta.Call V} (hr : build E s c = .ok r) : r.Periods := by
  refine build_periods E s c (usable_fine hu h) ?_ ⟨(resolve_nodup hu.once h).2, (resolve_nodup hu.once h).1⟩ hu.cls r hr
  by_cases hc : c = .minmaxindex
  · subst hc
    left
    rw [resolve_params hu.once h]
    intro h0
    rw [Option.or_eq_none_iff] at h0
    have := minmaxindex_period
    rw [h0.2] at this
    cases this
  · exact .inr hc

/-- the parts of a call which gives a result -/
theorem call_ok {E : Env V} {c : Cls} {kw : Dict String PyVal} {x o : List (Line V)} (h : call E c kw x = .ok o) :
    ∃ s r, resolve E.talib c kw = .ok s ∧ build E s c = .ok r ∧ r.run (nth (inputsOf c x)) = .ok o := by
  unfold call at h
  obtain ⟨s, hs, h⟩ := ok_bind h
  obtain ⟨r, hr, h⟩ := ok_bind h
  refine ⟨s, r, hs, hr, ?_⟩
  cases hrun : r.run (nth (inputsOf c x)) with
  | error e => rw [hrun] at h; cases h
  | ok o' => rw [hrun] at h; cases h; rfl

theorem call_of {E : Env V} {c : Cls} {kw : Dict String PyVal} {x o : List (Line V)} {s : Seen} {r : Bta.Call V}
    (hs : resolve E.talib c kw = .ok s) (hr : build E s c = .ok r) (h : r.run (nth (inputsOf c x)) = .ok o) :
    call E c kw x = .ok o := by
  unfold call
  rw [hs]
  show (build E s c >>= _) = _
  rw [hr]
  show lift (r.run (nth (inputsOf c x))) = _
  rw [h]
  rfl

/-! ## Relations between inputs -/

theorem inputsOf_rel (R : LRel V) (c : Cls) {x x' : List (Line V)} (hx : List.Forall₂ R.rv x x') :
    List.Forall₂ R.rv (inputsOf c x) (inputsOf c x') := by
  unfold inputsOf
  cases hx with
  | nil => cases c <;> exact .nil
  | cons h0 hx =>
    cases hx with
    | nil => cases c <;> exact .cons h0 .nil
    | cons h1 hx =>
      cases c
      all_goals first
        | exact .cons (LRel.htMid h0 h1) .nil
        | exact .cons h0 (.cons h1 hx)

theorem inputsOf_width (c : Cls) {x : List (Line V)} (hb : Spec.Bound c x) : Spec.width c ≤ (inputsOf c x).length := by
  rcases hb with h | ⟨h, h1⟩
  · cases x with
    | nil =>
      have := inputs_pos c
      rw [← h] at this
      cases this
    | cons a x =>
      cases x with
      | nil =>
        have : Spec.width c ≤ 1 := by
          unfold Spec.width
          split
          · exact le_refl _
          · rw [← h]
            exact le_refl _
        cases c <;> exact this
      | cons b x =>
        cases c
        all_goals first
          | exact le_refl _
          | (refine le_trans ?_ (le_of_eq h.symm)
             exact Nat.le_of_ble_eq_true rfl)
  · cases x with
    | nil => cases h1
    | cons a x =>
      cases x with
      | nil =>
        have : Spec.width c ≤ 1 := by
          unfold Spec.width
          rw [if_pos h]
        cases c <;> exact this
      | cons b x => cases h1

theorem forall₂_getD {α : Type} {P : α → α → Prop} {l l' : List α} (h : List.Forall₂ P l l') {a a' : α} (ha : P a a') (i : ℕ) :
    P (l.getD i a) (l'.getD i a') := by
  induction h generalizing i with
  | nil => exact ha
  | cons h0 _ ih =>
    cases i with
    | zero => exact h0
    | succ i => exact ih i

theorem run_rel (R : LRel V) (ha : R.acc) {E : Env V} {s : Seen} {c : Cls} {r : Bta.Call V} (h : build E s c = .ok r)
    (hk : r.Ok R.acc R.plain R.early R.anyLoop) {x x' : List (Line V)} (hb : Spec.Bound c x) (hx : List.Forall₂ R.rv x x') :
    RE (List.Forall₂ R.rv) (r.run (nth (inputsOf c x))) (r.run (nth (inputsOf c x'))) := by
  have hw := inputsOf_width c hb
  have hx := inputsOf_rel R c hx
  have h1 : 1 ≤ Spec.width c := by
    unfold Spec.width
    split
    · exact le_refl _
    · exact inputs_pos c
  have hl := hx.length_eq
  revert hw hx hl
  generalize inputsOf c x = y
  generalize inputsOf c x' = y'
  intro hw hx hl
  cases hx with
  | nil => exact absurd (le_trans h1 hw) (Nat.not_succ_le_zero 0)
  | @cons a a' y y' h0 hy =>
    have e : ∀ (z : List (Line V)) (d : Line V) (i : ℕ), i < z.length → nth z i = z.getD i d := by
      intro z d i hi
      unfold nth
      simp [List.getD_eq_getElem?_getD, List.getElem?_eq_getElem hi]
    rw [build_width E s c r h (fun i hi => e (a :: y) a i (lt_of_lt_of_le hi hw)),
      build_width E s c r h (fun i hi => e (a' :: y') a' i (lt_of_lt_of_le hi (hl ▸ hw)))]
    exact Call.rel R r hk _ _ (fun k => forall₂_getD (.cons h0 hy) h0 k) (.inl ha)

theorem call_rel (R : LRel V) (ha : R.acc) {E : Env V} {c : Cls} {kw : Dict String PyVal} {x x' o : List (Line V)}
    (hk : ∀ s r, resolve E.talib c kw = .ok s → build E s c = .ok r → r.Ok R.acc R.plain R.early R.anyLoop)
    (hb : Spec.Bound c x) (hx : List.Forall₂ R.rv x x') (h : call E c kw x = .ok o) :
    ∃ o', call E c kw x' = .ok o' ∧ List.Forall₂ R.rv o o' := by
  obtain ⟨s, r, hs, hr, h⟩ := call_ok h
  obtain ⟨o', h1, h2⟩ := run_rel R ha hr (hk s r hs hr) hb hx o h
  exact ⟨o', call_of hs hr h1, h2⟩

theorem forall₂_self {α : Type} {P : α → Prop} {l : List α} (h : ∀ a ∈ l, P a) : List.Forall₂ (fun a b => a = b ∧ P a) l l := by
  induction l with
  | nil => exact .nil
  | cons a l ih => exact .cons ⟨rfl, h a (List.mem_cons_self ..)⟩ (ih fun b hb => h b (List.mem_cons_of_mem _ hb))

theorem forall₂_mem {α : Type} {P : α → α → Prop} {l l' : List α} (h : List.Forall₂ P l l') {a : α} (ha : a ∈ l) :
    ∃ a', P a a' := by
  induction h with
  | nil => cases ha
  | cons h0 _ ih =>
    rcases List.mem_cons.1 ha with rfl | ha
    · exact ⟨_, h0⟩
    · exact ih ha

/-! ## The theorems -/

/-- **C121** Every result has the bars of the data. -/
theorem C121_bars (E : Env V) (c : Cls) (kw : Dict String PyVal) (hu : Spec.Usable E.talib c kw) {n : ℕ}
    {x o : List (Line V)} (hb : Spec.Bound c x) (hx : ∀ l ∈ x, l.series.length = n ∧ 1 ≤ l.minperiod)
    (h : call E c kw x = .ok o) : ∀ l ∈ o, l.series.length = n ∧ 1 ≤ l.minperiod := by
  obtain ⟨o', _, h2⟩ := call_rel (barsRel V n) trivial (fun s r hs hr => r.okBars (usable_periods hu hs hr)) hb
    (forall₂_self (P := fun l => (causalRel V n n).rv l l) (fun l hl =>
      ⟨⟨(hx l hl).2, rfl, List.prefix_rfl⟩, (hx l hl).1, (hx l hl).1⟩)) h
  intro l hl
  obtain ⟨_, hl⟩ := forall₂_mem h2 hl
  exact ⟨hl.2.len, hl.2.pref.pos⟩

theorem usable_seeded {E : Env V} {c : Cls} {kw : Dict String PyVal} (hu : Spec.Usable E.talib c kw)
    (hw : Spec.Without "ewma" E.talib c kw) {s : Seen}
    (h : resolve E.talib c kw = .ok s) {r : Bta.Call V} (hr : build E s c = .ok r) : r.Seeded := by
  refine build_seeded E s c (fun k hk => ⟨fun hv => ?_, fun hv => ?_⟩) ?_ r hr
  · exact hw.avg k hk (param_value hu.once h (ne_talib hk (by decide)) hv)
  · exact hw.avg k hk (rest_value hu.once h (ne_talib hk (by decide)) hv)
  · intro hc
    rcases List.mem_singleton.1 hc with rfl
    exact hw.cls rfl

/-- **C121** Nothing is delivered before the minimum period. -/
theorem C121_starts (E : Env V) (c : Cls) (kw : Dict String PyVal) (hu : Spec.Usable E.talib c kw)
    (hw : Spec.Without "ewma" E.talib c kw) {n : ℕ} {x o : List (Line V)} (hb : Spec.Bound c x)
    (hx : ∀ l ∈ x, Spec.StartsAtMinperiod n l) (h : call E c kw x = .ok o) : ∀ l ∈ o, Spec.StartsAtMinperiod n l := by
  obtain ⟨o', _, h2⟩ := call_rel (warmRel V n) trivial
    (fun s r hs hr => r.okSeeded (usable_periods hu hs hr) (usable_seeded hu hw hs hr)) hb
    (forall₂_self (P := Warm n) (fun l hl => ⟨(hx l hl).pos, (hx l hl).len, (hx l hl).pre⟩)) h
  intro l hl
  obtain ⟨_, hl⟩ := forall₂_mem h2 hl
  exact ⟨hl.2.len, hl.2.pos, hl.2.pre⟩

/-- the four classes which refuse some data after all (C84_hilbert_partial) -/
def _root_.Spec.hilbertLate : List Cls := [.ht_dcphase, .ht_sine, .ht_trendline, .ht_trendmode]

theorem build_back (E : Env V) (s : Seen) (c : Cls) (hc : c ∉ Spec.hilbertLate) (r : Bta.Call V) (h : build E s c = .ok r) :
    ¬ r.HtBack := by
  cases c
  all_goals first
    | (cases h; done)
    | (cases h; exact id)
    | exact absurd (by decide) hc
    | skip
  all_goals simp only [build, rad] at h
  case sin | cos | tan | sinh | cosh | tanh | asin | acos | atan | maxindex | minindex =>
    obtain ⟨_, _, h⟩ := ok_bind h
    split at h
    all_goals
      repeat (obtain ⟨_, _, h⟩ := ok_bind h)
      obtain rfl := ok_pure h
      exact id
  case stochrsi =>
    obtain ⟨v, hv, h⟩ := ok_bind h
    obtain ⟨ph, hph, h⟩ := ok_bind h
    split at h
    · split at h
      all_goals
        repeat (obtain ⟨_, _, h⟩ := ok_bind h)
        obtain rfl := ok_pure h
        exact id
    · cases h
  all_goals
    repeat (obtain ⟨_, _, h⟩ := ok_bind h)
    obtain rfl := ok_pure h
    exact id

/-- **C121** Bars added at the end do not change what was there. -/
theorem C121_no_repaint_partial (E : Env V) (c : Cls) (hc : c ∉ Spec.hilbertLate) (kw : Dict String PyVal)
    (hu : Spec.Usable E.talib c kw) {n n' : ℕ} {x x' o : List (Line V)} (hb : Spec.Bound c x)
    (hx : ∀ l ∈ x, l.series.length = n ∧ 1 ≤ l.minperiod) (hx' : ∀ l ∈ x', l.series.length = n')
    (hm : List.Forall₂ Spec.Kept x x') (h : call E c kw x = .ok o) :
    ∃ o', call E c kw x' = .ok o' ∧ List.Forall₂ Spec.Kept o o' := by
  have hr : List.Forall₂ (causalRel V n n').rv x x' := by
    clear h hb
    induction hm with
    | nil => exact .nil
    | @cons a a' l l' h0 _ ih =>
      refine .cons ⟨⟨(hx a (List.mem_cons_self ..)).2, h0.mp.symm, ?_⟩, (hx a (List.mem_cons_self ..)).1,
        hx' a' (List.mem_cons_self ..)⟩ (ih (fun b hb => hx b (List.mem_cons_of_mem _ hb))
          (fun b hb => hx' b (List.mem_cons_of_mem _ hb)))
      exact prefix_iff_get.mpr ⟨h0.len, fun i hi => (h0.val i hi).symm⟩
  obtain ⟨o', h1, h2⟩ := call_rel (causalRel V n n') trivial
    (fun s r hs hr => r.okAll (usable_periods hu hs hr) (build_back E s c hc r hr)) hb hr h
  refine ⟨o', h1, forall₂_mono ?_ h2⟩
  intro o o' h
  have := prefix_iff_get.mp h.pref.ser
  exact ⟨h.pref.mp.symm, this.1, fun i hi => (this.2 i hi).symm⟩

theorem usable_delayable {E : Env V} {c : Cls} {kw : Dict String PyVal} (hu : Spec.Usable E.talib c kw)
    (hw : Spec.Without "kama" E.talib c kw) (hc : c ∉ [.mama, .maxindex, .minindex, .minmaxindex]) {s : Seen}
    (h : resolve E.talib c kw = .ok s) {r : Bta.Call V} (hr : build E s c = .ok r) : r.Delayable := by
  refine build_delayable E s c (fun k hk => ⟨fun hv => ?_, fun hv => ?_⟩) ?_ r hr
  · exact hw.avg k hk (param_value hu.once h (ne_talib hk (by decide)) hv)
  · exact hw.avg k hk (rest_value hu.once h (ne_talib hk (by decide)) hv)
  · intro h
    rcases List.mem_cons.1 h with rfl | h
    · exact hw.cls rfl
    · exact hc h

/-- **C121** On lines which start later (as results do) the same is calculated, later: it does not matter what is in front.
Missing: `kama`, `mama` and the positions, see C97. -/
theorem C121_later_partial (E : Env V) (c : Cls) (hc : c ∉ [.mama, .maxindex, .minindex, .minmaxindex])
    (kw : Dict String PyVal) (hu : Spec.Usable E.talib c kw) (hw : Spec.Without "kama" E.talib c kw) {k : ℕ}
    {x x' : List (Line V)} (hb : Spec.Bound c x) (hx : ∀ l ∈ x, 1 ≤ l.minperiod)
    (hm : List.Forall₂ (Spec.PutOff k) x x') :
    (∀ o, call E c kw x = .ok o → ∃ o', call E c kw x' = .ok o' ∧ List.Forall₂ (Spec.PutOff k) o o') ∧
      ∀ o', call E c kw x' = .ok o' → ∃ o, call E c kw x = .ok o ∧ List.Forall₂ (Spec.PutOff k) o o' := by
  have hr : List.Forall₂ (lateRel V k).rv x x' := by
    clear hb
    induction hm with
    | nil => exact .nil
    | @cons a a' l l' h0 _ ih =>
      exact .cons (h0.toLate (hx a (List.mem_cons_self ..))) (ih (fun b hb => hx b (List.mem_cons_of_mem _ hb)))
  have hb' : Spec.Bound c x' := by
    unfold Spec.Bound at *
    rwa [← hm.length_eq]
  constructor
  · intro o h
    obtain ⟨o', h1, h2⟩ := call_rel (lateRel V k) trivial
      (fun s r hs hr => r.okLate (usable_periods hu hs hr) (usable_delayable hu hw hc hs hr)) hb hr h
    exact ⟨o', h1, forall₂_mono (fun _ _ h => h.putOff) h2⟩
  · intro o' h
    obtain ⟨o, h1, h2⟩ := call_rel (lateRel' V k) trivial
      (fun s r hs hr => r.okLate (usable_periods hu hs hr) (usable_delayable hu hw hc hs hr)) hb' hr.flip h
    exact ⟨o, h1, List.Forall₂.flip (forall₂_mono (fun _ _ h => h.putOff) h2)⟩

/-! ## Frames -/

/-- The frame `df'` is the frame `df` (with `n` rows) with rows added at the end (`n'` rows). -/
def _root_.Spec.MoreRows (n n' : ℕ) (df df' : Frame V) : Prop :=
  List.Forall₂ (fun a b : String × List V => a.1 = b.1 ∧ a.2 <+: b.2 ∧ a.2.length = n ∧ b.2.length = n') df.cols df'.cols

omit [PyFloat V] in
theorem column_more (low : String → String) {n n' : ℕ} {df df' : Frame V} (hm : Spec.MoreRows n n' df df') (k : String)
    {y : List V} (h : Spec.column low df k = some y) :
    ∃ y', Spec.column low df' k = some y' ∧ y <+: y' ∧ y.length = n ∧ y'.length = n' := by
  obtain ⟨cols⟩ := df
  obtain ⟨cols'⟩ := df'
  unfold Spec.MoreRows at hm
  unfold Spec.column at *
  simp only at *
  induction hm with
  | nil => cases h
  | @cons a a' l l' h0 _ ih =>
    obtain ⟨e, h1, h2, h3⟩ := h0
    rw [List.find?_cons] at h ⊢
    rw [← e]
    split at h
    · injection h with h
      subst h
      exact ⟨a'.2, rfl, h1, h2, h3⟩
    · exact ih h

theorem mapM_len {α β : Type} {f : α → Option β} {l : List α} {r : List β} (h : l.mapM f = some r) : r.length = l.length := by
  induction l generalizing r with
  | nil =>
    obtain rfl : [] = r := by simpa using h
    rfl
  | cons a l ih =>
    rw [List.mapM_cons] at h
    cases ha : f a with
    | none => rw [ha] at h; cases h
    | some b =>
      rw [ha] at h
      cases hl : l.mapM f with
      | none => rw [hl] at h; cases h
      | some bs =>
        rw [hl] at h
        cases h
        simp [ih hl]

omit [PyFloat V] in
theorem columns_more (low : String → String) {n n' : ℕ} {df df' : Frame V} (hm : Spec.MoreRows n n' df df') (ks : List String)
    {ys : List (List V)} (h : ks.mapM (Spec.column low df) = some ys) :
    ∃ ys', ks.mapM (Spec.column low df') = some ys' ∧
      List.Forall₂ (fun y y' => y <+: y' ∧ y.length = n ∧ y'.length = n') ys ys' := by
  induction ks generalizing ys with
  | nil =>
    obtain rfl : [] = ys := by simpa using h
    exact ⟨[], rfl, .nil⟩
  | cons k ks ih =>
    rw [List.mapM_cons] at h
    cases hy : Spec.column low df k with
    | none => rw [hy] at h; cases h
    | some y =>
      rw [hy] at h
      cases hys : ks.mapM (Spec.column low df) with
      | none => rw [hys] at h; cases h
      | some zs =>
        rw [hys] at h
        cases h
        obtain ⟨y', g1, g2⟩ := column_more low hm k hy
        obtain ⟨zs', g3, g4⟩ := ih hys
        refine ⟨y' :: zs', ?_, .cons g2 g4⟩
        rw [List.mapM_cons, g1, g3]
        rfl

/-- **C121** Rows added to a data frame do not change the values of the rows which were there. -/
theorem C121_frame_partial (E : Env V) (cfg : Config) (hf : cfg.ohlcFirst = false) (low : String → String) (c : Cls)
    (hc : c ∉ Spec.hilbertLate) (kw : Dict String PyVal) (hu : Spec.Usable E.talib c kw) {n n' : ℕ} {df df' : Frame V}
    (hm : Spec.MoreRows n n' df df') (hd : ∀ k ∈ Spec.inputs c, Spec.column low df k ≠ none) {o : List (Line V)}
    (h : invoke E cfg low c [.frame df] kw = .ok o) :
    ∃ o', invoke E cfg low c [.frame df'] kw = .ok o' ∧ List.Forall₂ Spec.Kept o o' := by
  obtain ⟨ys, hy⟩ : ∃ ys, (Spec.inputs c).mapM (Spec.column low df) = some ys := by
    revert hd
    generalize Spec.inputs c = ks
    intro hd
    induction ks with
    | nil => exact ⟨[], rfl⟩
    | cons k ks ih =>
      obtain ⟨ys, hys⟩ := ih (fun j hj => hd j (List.mem_cons_of_mem _ hj))
      obtain ⟨y, hy⟩ := Option.ne_none_iff_exists'.1 (hd k (List.mem_cons_self ..))
      exact ⟨y :: ys, by rw [List.mapM_cons, hy, hys]; rfl⟩
  obtain ⟨ys', hy', hr⟩ := columns_more low hm _ hy
  rw [C120_frame E cfg hf low c df kw ys hy] at h
  rw [C120_frame E cfg hf low c df' kw ys' hy']
  have hl : ys.length = (Spec.inputs c).length := mapM_len hy
  refine C121_no_repaint_partial E c hc kw hu (n := n) (n' := n') (.inl (by simpa using hl)) ?_ ?_ ?_ h
  · intro l hl
    obtain ⟨y, hy, rfl⟩ := List.mem_map.1 hl
    obtain ⟨y', h1⟩ := forall₂_mem hr hy
    exact ⟨h1.2.1, le_refl _⟩
  · intro l hl
    obtain ⟨y, hy, rfl⟩ := List.mem_map.1 hl
    obtain ⟨y', h1⟩ := forall₂_mem hr.flip hy
    exact h1.2.2
  · rw [List.forall₂_map_left_iff, List.forall₂_map_right_iff]
    refine forall₂_mono ?_ hr
    intro y y' h
    have := prefix_iff_get.mp h.1
    exact ⟨rfl, this.1, fun i hi => (this.2 i hi).symm⟩

/-! ## The defaults -/

/-- is it this integer? -/
def isInt (n : ℤ) : PyVal → Bool
  | .int m => m == n
  | _ => false

theorem defaults_usable : ∀ c ∈ Cls.all, ∀ g : Bool,
    (∀ k ∈ Spec.periodKeys, (Spec.value g c [] k).any (isInt 0) = false) ∧
    (Spec.value g c [] "poffset").isNone = true ∧
    (c = .macd → (Spec.value g c [] "pfast").any (isInt 12) = true ∧ (Spec.value g c [] "pslow").any (isInt 26) = true) ∧
    (∀ k ∈ ["_ma", "_masig", "_maslow", "_sum"], (Spec.value g c [] k).any (isCls "smacc") = false) ∧
    (Spec.value g c [] "period").any (isInt 1) = false := by
  decide +kernel

/-- **C121** Every indicator (but the accumulation) as it comes is usable. -/
theorem C121_defaults (g : Bool) (c : Cls) (hc : c ≠ .smacc) : Spec.Usable g c [] := by
  obtain ⟨h1, h2, h3, h4, h5⟩ := defaults_usable c (all_mem c) g
  refine ⟨List.nodup_nil, hc, ?_, ?_, ?_, ?_, ?_⟩
  · intro k hk h
    have := h1 k hk
    rw [h] at this
    cases this
  · intro m n h
    rw [h] at h2
    cases h2
  · intro hm _ m n hp hs
    obtain ⟨h6, h7⟩ := h3 hm
    rw [hp] at h6
    rw [hs] at h7
    have h6 : (m : ℤ) = 12 := by simpa [isInt] using h6
    have h7 : (n : ℤ) = 26 := by simpa [isInt] using h7
    omega
  · intro k hk h
    have := h4 k hk
    rw [h] at this
    cases this
  · intro _ h
    rw [h] at h5
    cases h5

/-! ## The four of the Hilbert transform -/

section
variable {K : Type} [Field K] [LinearOrder K] [IsStrictOrderedRing K]

omit [IsStrictOrderedRing K] in
theorem build_hilbert (E : Env (Ext K)) (s : Seen) (c : Cls) (hc : c ∈ Spec.hilbertLate) (r : Bta.Call (Ext K))
    (h : build E s c = .ok r) : r ∈ Spec.hilbertBack E.ht := by
  simp only [Spec.hilbertLate, List.mem_cons, List.not_mem_nil, or_false] at hc
  rcases hc with rfl | rfl | rfl | rfl
  all_goals
    cases h
    simp [Spec.hilbertBack]

theorem inputsOf_hilbert {c : Cls} (hc : c ∈ Spec.hilbertLate) {V : Type} [PyFloat V] {x : List (Line V)} (hb : Spec.Bound c x) :
    (∃ a, x = [a] ∧ inputsOf c x = [a]) ∨ ∃ a b, x = [a, b] ∧ inputsOf c x = [Ind.htMid a b] := by
  simp only [Spec.hilbertLate, List.mem_cons, List.not_mem_nil, or_false] at hc
  have hl : x.length = 2 ∨ x.length = 1 := by
    rcases hb with h | h
    · left
      rcases hc with rfl | rfl | rfl | rfl <;> exact h
    · exact .inr h.2
  match x, hl with
  | [a], _ => exact .inl ⟨a, rfl, by rcases hc with rfl | rfl | rfl | rfl <;> rfl⟩
  | [a, b], _ => exact .inr ⟨a, b, rfl, by rcases hc with rfl | rfl | rfl | rfl <;> rfl⟩
  | [], h => exact absurd h (by simp)
  | _ :: _ :: _ :: _, h => exact absurd h (by simp)

/-- **C121** For the four others what is shown on more data is what was shown before, if more data give a result at all. -/
theorem C121_hilbert_partial (E : Env (Ext K)) {T : Spec.Trig K} (hF : E.ht.Agrees T) (hT : T.Ok) (c : Cls)
    (hc : c ∈ Spec.hilbertLate) (kw : Dict String PyVal) {n n' : ℕ} {x x' o' : List (Line (Ext K))} (hb : Spec.Bound c x)
    (hx : ∀ l ∈ x, l.series.length = n ∧ 1 ≤ l.minperiod) (hx' : ∀ l ∈ x', l.series.length = n')
    (hm : List.Forall₂ Spec.Kept x x') (h : call E c kw x' = .ok o') :
    ∃ o, call E c kw x = .ok o ∧ List.Forall₂ Spec.Kept o o' := by
  obtain ⟨s, r, hs, hr, h⟩ := call_ok h
  have hk := build_hilbert E s c hc r hr
  have hb' : Spec.Bound c x' := by
    unfold Spec.Bound at *
    rwa [← hm.length_eq]
  have ext : ∀ a a', Spec.Kept a a' → a.series.length = n → 1 ≤ a.minperiod → a'.series.length = n' →
      (causalRel (Ext K) n n').rv a a' := fun a a' h0 h1 h2 h3 =>
    ⟨⟨h2, h0.mp.symm, prefix_iff_get.mpr ⟨h0.len, fun i hi => (h0.val i hi).symm⟩⟩, h1, h3⟩
  have w : Spec.width c = 1 := by
    simp only [Spec.hilbertLate, List.mem_cons, List.not_mem_nil, or_false] at hc
    rcases hc with rfl | rfl | rfl | rfl <;> rfl
  obtain ⟨y, y', e, e', hy⟩ : ∃ y y', inputsOf c x = [y] ∧ inputsOf c x' = [y'] ∧ (causalRel (Ext K) n n').rv y y' := by
    rcases inputsOf_hilbert hc hb with ⟨a, rfl, e⟩ | ⟨a, b, rfl, e⟩
    · cases hm with
      | cons h0 h1 =>
        cases h1
        refine ⟨_, _, e, ?_, ext _ _ h0 (hx _ (by simp)).1 (hx _ (by simp)).2 (hx' _ (by simp))⟩
        rcases inputsOf_hilbert hc hb' with ⟨_, h, e⟩ | ⟨_, _, h, _⟩
        · cases h
          exact e
        · cases h
    · cases hm with
      | cons h0 h1 =>
        cases h1 with
        | cons h1 h2 =>
          cases h2
          refine ⟨_, _, e, ?_, LRel.htMid (ext _ _ h0 (hx _ (by simp)).1 (hx _ (by simp)).2 (hx' _ (by simp)))
            (ext _ _ h1 (hx _ (by simp)).1 (hx _ (by simp)).2 (hx' _ (by simp)))⟩
          rcases inputsOf_hilbert hc hb' with ⟨_, h, _⟩ | ⟨_, _, h, e⟩
          · cases h
          · cases h
            exact e
  have e1 : ∀ z, r.run (nth [z]) = r.run (fun _ => z) := by
    intro z
    refine build_width E s c r hr ?_
    intro i hi
    rw [w] at hi
    obtain rfl : i = 0 := by omega
    rfl
  rw [e', e1] at h
  have hp := prefix_iff_get.mp hy.pref.ser
  obtain ⟨o, h1, h2⟩ := C84_hilbert_partial hF hT r hk (x := fun _ => y) (x' := fun _ => y') ⟨fun _ => hy.len, fun _ => hy.pref.pos⟩
    ⟨fun _ => hy.len', fun _ => by have := hy.pref.pos; have := hy.pref.mp; omega⟩
    ⟨fun _ => hy.pref.mp.symm, fun _ => (List.prefix_iff_eq_take.1 hy.pref.ser)⟩ o' h
  refine ⟨o, call_of hs hr ?_, h2⟩
  rw [e, e1, h1]

/-- **C121** They may not give one: prices which gave a result give none with a bar without a price added. -/
theorem C121_not_hilbert (E : Env (Ext K)) {T : Spec.Trig K} (hF : E.ht.Agrees T) (hT : T.Ok) (c : Cls)
    (hc : c ∈ Spec.hilbertLate) (y : ℕ → K) {n : ℕ} (hn : 37 ≤ n) :
    (∃ o, call E c [] [Bta.bars n y] = .ok o) ∧
      call E c [] [Line.ofSeries ((Bta.bars n y).series ++ [PyFloat.nan])] = .error (.py .valueError) := by
  obtain ⟨s, r, hs, hr⟩ : ∃ s r, resolve E.talib c [] = .ok s ∧ build E s c = .ok r := by
    simp only [Spec.hilbertLate, List.mem_cons, List.not_mem_nil, or_false] at hc
    cases E.talib
    all_goals
      rcases hc with rfl | rfl | rfl | rfl
      all_goals exact ⟨_, _, rfl, rfl⟩
  have w : Spec.width c = 1 := by
    simp only [Spec.hilbertLate, List.mem_cons, List.not_mem_nil, or_false] at hc
    rcases hc with rfl | rfl | rfl | rfl <;> rfl
  have e1 : ∀ z, r.run (nth (inputsOf c [z])) = r.run (fun _ => z) := by
    intro z
    have : inputsOf c [z] = [z] := by cases c <;> rfl
    rw [this]
    refine build_width E s c r hr ?_
    intro i hi
    rw [w] at hi
    obtain rfl : i = 0 := by omega
    rfl
  obtain ⟨⟨o, h1⟩, h2⟩ := C84_not_hilbert hF hT r (build_hilbert E s c hc r hr) y hn
  refine ⟨⟨o, call_of hs hr (by rw [e1, h1])⟩, ?_⟩
  unfold call
  rw [hs]
  show (build E s c >>= _) = _
  rw [hr]
  show lift (r.run (nth (inputsOf c _))) = _
  rw [e1, h2]
  rfl

end

/-! ## Concrete cases -/

/-- a check of usable keywords (without an offset) -/
def usableCheck (g : Bool) (c : Cls) (kw : Dict String PyVal) : Bool :=
  decide (keys kw).Nodup && c != .smacc && Spec.periodKeys.all (fun k => !(Spec.value g c kw k).any (isInt 0)) &&
    (Spec.value g c kw "poffset").isNone && (c != .macd || !Spec.compat g kw ||
      (match Spec.value g c kw "pfast", Spec.value g c kw "pslow" with
        | some (.int m), some (.int n) => decide (m ≤ n)
        | _, _ => true)) &&
    ["_ma", "_masig", "_maslow", "_sum"].all (fun k => !(Spec.value g c kw k).any (isCls "smacc")) &&
    !(Spec.value g c kw "period").any (isInt 1)

theorem usable_of_check {g : Bool} {c : Cls} {kw : Dict String PyVal} (h : usableCheck g c kw = true) : Spec.Usable g c kw := by
  unfold usableCheck at h
  simp only [Bool.and_eq_true] at h
  obtain ⟨⟨⟨⟨⟨⟨h1, h2⟩, h3⟩, h4⟩, h5⟩, h6⟩, h7⟩ := h
  refine ⟨of_decide_eq_true h1, by simpa using h2, ?_, ?_, ?_, ?_, ?_⟩
  · intro k hk h
    have := List.all_eq_true.1 h3 k hk
    rw [h] at this
    cases this
  · intro m n h
    rw [h] at h4
    cases h4
  · intro hc ht m n hp hs
    rw [hp, hs, hc, ht] at h5
    simpa using h5
  · intro k hk h
    have := List.all_eq_true.1 h6 k hk
    rw [h] at this
    simp [isCls] at this
  · intro _ h
    rw [h] at h7
    cases h7

theorem without_of_check {n : String} {g : Bool} {c : Cls} {kw : Dict String PyVal} (h1 : c.row.name ≠ n)
    (h2 : ["_ma", "_masig", "_maslow", "_sum", "_accum"].all (fun k => !(Spec.value g c kw k).any (isCls n)) = true) :
    Spec.Without n g c kw := by
  refine ⟨h1, fun k hk h => ?_⟩
  have := List.all_eq_true.1 h2 k hk
  rw [h] at this
  simp [isCls] at this

example : Spec.Usable false .macd [("_talib", .bool true), ("pfast", .int 3), ("pslow", .int 5), ("psignal", .int 2)] :=
  usable_of_check (by decide +kernel)

example : Spec.Usable false .atr [("period", .int 3), ("_ma", .cls "wma")] ∧
    Spec.Without "ewma" false .atr [("period", .int 3), ("_ma", .cls "wma")] ∧
    Spec.Without "kama" false .atr [("period", .int 3), ("_ma", .cls "wma")] :=
  ⟨usable_of_check (by decide +kernel), without_of_check (by decide +kernel) (by decide +kernel),
    without_of_check (by decide +kernel) (by decide +kernel)⟩

/-- `atr(period=2, _ma=wma)` of three bars, of four bars, and of three bars put off by one -/
example : call E0 .atr [("period", .int 2), ("_ma", .cls "wma")] [mk [5, 6, 8], mk [3, 4, 5], mk [4, 5, 6]] =
      .ok [⟨nan :: nan :: fins [8 / 3], 3⟩] ∧
    call E0 .atr [("period", .int 2), ("_ma", .cls "wma")] [mk [5, 6, 8, 9], mk [3, 4, 5, 6], mk [4, 5, 6, 7]] =
      .ok [⟨nan :: nan :: fins [8 / 3, 3], 3⟩] ∧
    call E0 .atr [("period", .int 2), ("_ma", .cls "wma")]
      [⟨nan :: fins [5, 6, 8], 2⟩, ⟨nan :: fins [3, 4, 5], 2⟩, ⟨nan :: fins [4, 5, 6], 2⟩] =
        .ok [⟨nan :: nan :: nan :: fins [8 / 3], 4⟩] := by decide +kernel

example : Spec.Bound .atr [mk [5, 6, 8], mk [3, 4, 5], mk [4, 5, 6]] ∧ Spec.Bound .ht_dcphase [mk [1, 2]] :=
  ⟨.inl rfl, .inr ⟨rfl, rfl⟩⟩

/-- a frame with a row more -/
def frame1 : Frame Q :=
  ⟨[("Volume", fins [9, 9, 9, 8]), ("Close", fins [3, 6, 9, 12]), ("adj", fins [1, 1, 1, 1]), ("Low", fins [1, 2, 3, 4]),
    ("HIGH", fins [5, 10, 15, 20])]⟩

example : Spec.MoreRows 3 4 frame0 frame1 ∧ (∀ k ∈ Spec.inputs .typprice, Spec.column low0 frame0 k ≠ none) ∧
    invoke E0 defaultConfig low0 .typprice [.frame frame1] [] = .ok [mk [3, 6, 9, 12]] := by
  refine ⟨?_, by decide +kernel, by decide +kernel⟩
  unfold Spec.MoreRows frame0 frame1
  simp only [List.forall₂_cons, List.Forall₂.nil, and_true]
  decide +kernel

/-- The condition on the offset is needed: with an offset within the period the average repaints. -/
theorem C121_not_offset :
    call E0 .ema [("period", .int 2), ("poffset", .int 1)] [mk [1]] = .ok [⟨fins [1], 2⟩] ∧
    call E0 .ema [("period", .int 2), ("poffset", .int 1)] [mk [1, 2]] = .ok [⟨nan :: fins [2], 2⟩] := by decide +kernel

end Bta.Api
