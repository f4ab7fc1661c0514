import Verif.Props.ApiArgs
import Verif.Props.ApiTalib
import Verif.Props.Late

/-!
# What the keywords of a call must be for the promises of the catalogue to hold

`Call.Periods`, `Call.Seeded` and `Call.Delayable` are conditions on typed parameters.  Here they are derived from conditions on
keywords.
-/

namespace Bta.Api

open Meta Py
open Line (Seed)

variable {V : Type} [PyFloat V]

/-- the parameters which are averages -/
def averageKeys : List String := ["_ma", "_masig", "_maslow", "_sum", "_accum"]

/-- is it the class with this name? -/
def isCls (n : String) : PyVal → Bool
  | .cls m => m == n
  | _ => false

/-- An average which is usable with every period. -/
def Usual (m : Avg V) : Prop := ∀ q p : ℕ, 1 ≤ p → m.Periods q p

theorem ok_nat {p : String → Option PyVal} {k : String} {n : ℕ} (h : nat p k = .ok n) : p k = some (.int n) := by
  unfold nat at h
  obtain ⟨v, hv, h⟩ := ok_bind h
  unfold need at hv
  cases hk : p k with
  | none => rw [hk] at hv; cases hv
  | some w =>
    rw [hk] at hv
    injection hv with hv
    subst hv
    unfold asNat at h
    split at h
    · injection h with h
      subst h
      rfl
    · cases h

theorem ok_need {p : String → Option PyVal} {k : String} {v : PyVal} (h : need p k = .ok v) : p k = some v := by
  unfold need at h
  cases hk : p k with
  | none => rw [hk] at h; cases h
  | some w =>
    rw [hk] at h
    injection h with h
    rw [h]

theorem ok_flag {p : String → Option PyVal} {k : String} {b : Bool} (h : flag p k = .ok b) : p k = some (.bool b) := by
  unfold flag at h
  obtain ⟨v, hv, h⟩ := ok_bind h
  rw [ok_need hv]
  unfold asBool at h
  split at h
  · injection h with h
    subst h
    rfl
  · cases h

/-- What an average is called with decides. -/
theorem buildAvg_periods (E : Env V) (m : PyVal → Out (Avg V)) (s : Seen) (c : Cls) (r : Avg V)
    (h : buildAvg E m s c = .ok r) (q p : ℕ) (hp : 1 ≤ p)
    (hm : ∀ v a, get? s.params "_ma" = some v → m v = .ok a → Usual a)
    (ho : ∀ n, get? s.rest "poffset" = some (.int (n : ℕ)) → n = 0 ∨ p ≤ n)
    (he : c = .smacc → get? s.params "_pearly" = some (.bool true) → 2 ≤ p ∧ 2 ≤ q) : r.Periods q p := by
  cases c
  all_goals first
    | (cases h; done)
    | (cases h; exact hp)
    | skip
  all_goals simp only [buildAvg] at h
  case ewma =>
    split at h
    · cases h
    · split at h
      · obtain ⟨_, _, h⟩ := ok_bind h
        obtain rfl := ok_pure h
        exact hp
      · cases h
  case ema =>
    split at h
    · obtain ⟨_, h0, h⟩ := ok_bind h
      obtain ⟨_, _, h⟩ := ok_bind h
      obtain rfl := ok_pure h
      obtain rfl := ok_pure h0
      exact ⟨hp, .inl rfl⟩
    · rename_i v hv
      obtain ⟨n, h0, h⟩ := ok_bind h
      obtain ⟨_, _, h⟩ := ok_bind h
      obtain rfl := ok_pure h
      refine ⟨hp, ho n ?_⟩
      rw [hv]
      unfold asNat at h0
      split at h0
      · injection h0 with h0
        subst h0
        rfl
      · cases h0
  case t3 =>
    obtain ⟨_, _, h⟩ := ok_bind h
    split at h
    · obtain ⟨v, hv, h⟩ := ok_bind h
      obtain ⟨a, ha, h⟩ := ok_bind h
      obtain ⟨_, _, h⟩ := ok_bind h
      obtain rfl := ok_pure h
      exact hm v a (ok_need hv) ha 1 p hp
    · obtain ⟨_, _, h⟩ := ok_bind h
      obtain rfl := ok_pure h
      exact hp
  case smacc =>
    obtain ⟨b, hb, h⟩ := ok_bind h
    obtain ⟨_, _, h⟩ := ok_bind h
    obtain rfl := ok_pure h
    refine ⟨hp, fun hbt => ?_⟩
    subst hbt
    exact he rfl (ok_flag hb)
  case dema | tema | trix =>
    obtain ⟨v, hv, h⟩ := ok_bind h
    obtain ⟨a, ha, h⟩ := ok_bind h
    obtain rfl := ok_pure h
    exact hm v a (ok_need hv) ha 1 p hp
  case gdema =>
    obtain ⟨v, hv, h⟩ := ok_bind h
    obtain ⟨a, ha, h⟩ := ok_bind h
    obtain ⟨_, _, h⟩ := ok_bind h
    obtain rfl := ok_pure h
    exact hm v a (ok_need hv) ha 1 p hp
  all_goals
    repeat (obtain ⟨_, _, h⟩ := ok_bind h)
    obtain rfl := ok_pure h
    exact hp

theorem ok_asCls {v : PyVal} {c : Cls} (h : asCls v = .ok c) : v = .cls c.row.name := by
  unfold asCls at h
  split at h
  · split at h
    · rename_i n c' hn
      injection h with h
      subst h
      unfold Cls.ofName at hn
      have := List.find?_some hn
      simp only [beq_iff_eq] at this
      rw [this]
    · cases h
  · cases h

/-- An average called with no more than a period is usable, if it is not `smacc`. -/
theorem avgOf_usual (E : Env V) (n : ℕ) (v : PyVal) (hv : v ≠ .cls "smacc") (m : Avg V) (h : avgOf E n [] v = .ok m) :
    Usual m := by
  induction n generalizing v m with
  | zero => cases h
  | succ n ih =>
    unfold avgOf at h
    obtain ⟨c, hc, h⟩ := ok_bind h
    obtain ⟨s, hs, h⟩ := ok_bind h
    have hn : (keys [("period", PyVal.int 1)]).Nodup := by decide
    intro q p hp
    refine buildAvg_periods E _ s c m h q p hp (fun w a hw ha => ?_) (fun k hk => ?_) (fun hcs => ?_)
    · refine ih w ?_ a ha
      rintro rfl
      rw [resolve_params hn hs] at hw
      clear hs h ih hc
      generalize E.talib = g at hw
      have hw' := congrArg (Option.any (isCls "smacc")) hw
      clear hw
      cases c <;> cases g <;> exact absurd hw' (by decide +kernel)
    · exfalso
      rw [resolve_rest hn hs] at hk
      clear hs h ih hc
      generalize E.talib = g at hk
      cases c <;> cases g <;> cases hk
    · subst hcs
      exact absurd (ok_asCls hc) hv

theorem eff_more (g : Bool) (hs : List Hook) (a k : String) (w : PyVal) (h1 : a ≠ "_talib") (h2 : a ≠ k) :
    eff g hs [("period", .int 1), (a, w)] k = eff g hs [("period", .int 1)] k := by
  have h : ∀ k, a ≠ k → get? [("period", PyVal.int 1), (a, w)] k = get? [("period", PyVal.int 1)] k := by
    intro k hk
    simp [get?, hk]
  unfold eff talibFlag
  rw [h k h2, h "_talib" h1]

/-- the default average of an average is not `smacc`, and there is no offset -/
theorem inner_default (g : Bool) (c : Cls) :
    ((if (get? c.defaults "_ma").isSome then eff g c.hooks [("period", .int 1)] "_ma" else none).or
      (get? c.defaults "_ma")).any (isCls "smacc") = false ∧
    (if (get? c.defaults "poffset").isSome then none else eff g c.hooks [("period", .int 1)] "poffset") = none := by
  cases c <;> cases g <;> exact ⟨by decide +kernel, rfl⟩

theorem avgOf_offset (E : Env V) (n : ℕ) (v w : PyVal) (hv : v ≠ .cls "smacc") (m : Avg V)
    (h : avgOf E n [("poffset", w)] v = .ok m) (q p : ℕ) (hp : 1 ≤ p)
    (hw : ∀ k : ℕ, w = .int k → k = 0 ∨ p ≤ k) : m.Periods q p := by
  cases n with
  | zero => cases h
  | succ n =>
    unfold avgOf at h
    obtain ⟨c, hc, h⟩ := ok_bind h
    obtain ⟨s, hs, h⟩ := ok_bind h
    have hn : (keys [("period", PyVal.int 1), ("poffset", w)]).Nodup := by
      show ["period", "poffset"].Nodup
      decide
    refine buildAvg_periods E _ s c m h q p hp (fun w a hw ha => ?_) (fun k hk => ?_) (fun hcs => ?_)
    · refine avgOf_usual E n w ?_ a ha
      rintro rfl
      rw [resolve_params hn hs, eff_more _ _ _ _ _ (by decide) (by decide)] at hw
      have := (inner_default E.talib c).1
      rw [hw] at this
      exact absurd this (by decide)
    · rw [resolve_rest hn hs] at hk
      split at hk
      · cases hk
      · refine hw k ?_
        have : eff E.talib c.hooks [("period", PyVal.int 1), ("poffset", w)] "poffset" = some w := by
          simp [eff, get?]
        rw [this] at hk
        injection hk
    · subst hcs
      exact absurd (ok_asCls hc) hv

theorem avgOf_early (E : Env V) (n : ℕ) (v w : PyVal) (m : Avg V)
    (h : avgOf E n [("_pearly", w)] v = .ok m) (p : ℕ) (hp : 1 ≤ p)
    (hw : w = .bool true → 2 ≤ p) : m.Periods 2 p := by
  cases n with
  | zero => cases h
  | succ n =>
    unfold avgOf at h
    obtain ⟨c, hc, h⟩ := ok_bind h
    obtain ⟨s, hs, h⟩ := ok_bind h
    have hn : (keys [("period", PyVal.int 1), ("_pearly", w)]).Nodup := by
      show ["period", "_pearly"].Nodup
      decide
    refine buildAvg_periods E _ s c m h 2 p hp (fun w a hw ha => ?_) (fun k hk => ?_) (fun hcs hk => ?_)
    · refine avgOf_usual E n w ?_ a ha
      rintro rfl
      rw [resolve_params hn hs, eff_more _ _ _ _ _ (by decide) (by decide)] at hw
      have := (inner_default E.talib c).1
      rw [hw] at this
      exact absurd this (by decide)
    · rw [resolve_rest hn hs, eff_more _ _ _ _ _ (by decide) (by decide), (inner_default E.talib c).2] at hk
      cases hk
    · subst hcs
      refine ⟨hw ?_, le_refl 2⟩
      rw [resolve_params hn hs] at hk
      have : eff E.talib Cls.smacc.hooks [("period", PyVal.int 1), ("_pearly", w)] "_pearly" = some w := by
        simp [eff, get?]
      rw [this] at hk
      have h1 : (get? Cls.smacc.defaults "_pearly").isSome = true := rfl
      rw [if_pos h1] at hk
      injection hk

/-- What a call sees is usable (the conditions of `Spec.Usable`, for what `__init__` sees). -/
structure Fine (s : Seen) (c : Cls) : Prop where
  pos : ∀ k ∈ ["period", "pfast", "pslow", "psignal", "period1", "period2", "period3", "_period"],
    get? s.params k ≠ some (.int 0)
  early : get? s.params "_pearly" = some (.bool true) → get? s.params "period" ≠ some (.int 1)
  off : ∀ m n : ℕ, get? s.rest "poffset" = some (.int n) → get? s.params "period" = some (.int m) → n = 0 ∨ m ≤ n
  order : c = .macd → s.talib = true → ∀ m n : ℕ, get? s.params "pfast" = some (.int m) → get? s.params "pslow" = some (.int n) → m ≤ n
  acc : ∀ k ∈ ["_ma", "_masig", "_maslow", "_sum"], get? s.params k ≠ some (.cls "smacc") ∧ get? s.rest k ≠ some (.cls "smacc")

theorem Fine.nat_ok {s : Seen} {c : Cls} (hf : Fine s c) {k : String} {n : ℕ} (h : nat (get? s.params) k = .ok n)
    (hk : k ∈ ["period", "pfast", "pslow", "psignal", "period1", "period2", "period3", "_period"]) : 1 ≤ n := by
  rcases Nat.eq_zero_or_pos n with rfl | h0
  · exact absurd (ok_nat h) (hf.pos k hk)
  · exact h0

theorem Fine.ma_ok {s : Seen} {c : Cls} (hf : Fine s c) {E : Env V} {k : String} {m : Avg V} (h : maOf E (get? s.params) k = .ok m)
    (hk : k ∈ ["_ma", "_masig", "_maslow", "_sum"]) : Usual m := by
  unfold maOf at h
  obtain ⟨v, hv, h⟩ := ok_bind h
  refine avgOf_usual E 3 v ?_ m h
  rintro rfl
  exact (hf.acc k hk).1 (ok_need hv)

theorem ok_either {p : String → Option PyVal} {a b : String} {v : PyVal} (h : either p a b = .ok v) :
    (p a = some v ∧ v.truthy = true) ∨ p b = some v := by
  unfold either at h
  obtain ⟨w, hw, h⟩ := ok_bind h
  split at h
  · rename_i ht
    obtain rfl := ok_pure h
    exact .inl ⟨ok_need hw, ht⟩
  · exact .inr (ok_need h)

theorem Fine.either_ok {s : Seen} {c : Cls} (hf : Fine s c) {E : Env V} {a b : String} {v : PyVal} {m : Avg V}
    (h : either (get? s.params) a b = .ok v) (hm : Api.ma E v = .ok m)
    (ha : a ∈ ["_ma", "_masig", "_maslow", "_sum"]) (hb : b ∈ ["_ma", "_masig", "_maslow", "_sum"]) : Usual m := by
  refine avgOf_usual E 3 v ?_ m hm
  rintro rfl
  rcases ok_either h with h | h
  · exact (hf.acc a ha).1 h.1
  · exact (hf.acc b hb).1 h

theorem Fine.smoother_ok {s : Seen} {c : Cls} (hf : Fine s c) {E : Env V} {m : Avg V} (h : smoother E (get? s.params) = .ok m) {p : ℕ}
    (hp : nat (get? s.params) "period" = .ok p) : m.Periods 2 p := by
  have h1 := hf.nat_ok hp (by decide)
  unfold Api.smoother at h
  obtain ⟨b, _, h⟩ := ok_bind h
  split at h
  · exact hf.ma_ok h (by decide) 2 p h1
  · obtain ⟨w, hw, h⟩ := ok_bind h
    obtain ⟨v, _, h⟩ := ok_bind h
    refine avgOf_early E 3 v w m h p h1 ?_
    rintro rfl
    have h2 := hf.early (ok_need hw)
    have : p ≠ 1 := by
      rintro rfl
      exact h2 (ok_nat hp)
    omega

theorem build_periods (E : Env V) (s : Seen) (c : Cls) (hf : Fine s c) (hd : get? s.params "period" ≠ none ∨ c ≠ .minmaxindex)
    (hn : (keys s.params).Nodup ∧ (keys s.rest).Nodup) (hc : c ≠ .smacc)
    (r : Bta.Call V) (h : build E s c = .ok r) : r.Periods := by
  have havg : ∀ a p, buildAvg E (Api.ma E) s c = .ok a → nat (get? s.params) "period" = .ok p → a.Periods 1 p := by
    intro a p ha hp
    refine buildAvg_periods E _ s c a ha 1 p (hf.nat_ok hp (by decide)) (fun v b hv hb => ?_) (fun n hn => ?_)
      (fun hcs => absurd hcs hc)
    · refine avgOf_usual E 3 v ?_ b hb
      rintro rfl
      exact (hf.acc "_ma" (by decide)).1 hv
    · exact hf.off p n hn (ok_nat hp)
  cases c
  all_goals first
    | (cases h; done)
    | (cases h; trivial)
    | skip
  all_goals simp only [build, rad] at h
  case «sum» | ewma | sma | ema | smma | wma | dema | kama | tema | trima | trix | gdema | t3 =>
    obtain ⟨a, ha, h⟩ := ok_bind h
    obtain ⟨p, hp, h⟩ := ok_bind h
    obtain rfl := ok_pure h
    exact havg a p ha hp
  case smacc => exact absurd rfl hc
  case avgprice | typprice | medprice | truelow | truerange | aroon | aroonosc | mom | roc | rocp | rocr | rocr100 |
      crossup | crossdown | crossover =>
    obtain ⟨_, _, h⟩ := ok_bind h
    obtain rfl := ok_pure h
    trivial
  case wclprice | mama | sar =>
    obtain ⟨_, _, h⟩ := ok_bind h
    obtain ⟨_, _, h⟩ := ok_bind h
    obtain rfl := ok_pure h
    trivial
  case sarext =>
    repeat obtain ⟨_, _, h⟩ := ok_bind h
    obtain rfl := ok_pure h
    trivial
  case sin | cos | tan | sinh | cosh | tanh | asin | acos | atan =>
    obtain ⟨_, _, h⟩ := ok_bind h
    split at h <;> (obtain rfl := ok_pure h; trivial)
  case «max» | «min» | minmax | midprice | midpoint | correl | linearreg_slope | linearreg_angle | linearreg_intercept |
      linearreg | tsf | mad | mfi | williamsr =>
    obtain ⟨p, hp, h⟩ := ok_bind h
    obtain rfl := ok_pure h
    exact hf.nat_ok hp (by decide)
  case maxindex | minindex =>
    obtain ⟨_, _, h⟩ := ok_bind h
    split at h
    all_goals
      obtain ⟨p, hp, h⟩ := ok_bind h
      obtain rfl := ok_pure h
    · trivial
    · exact hf.nat_ok hp (by decide)
  case minmaxindex =>
    obtain ⟨i, hi, h⟩ := ok_bind h
    obtain ⟨b, _, h⟩ := ok_bind h
    obtain ⟨p, hp, h⟩ := ok_bind h
    obtain rfl := ok_pure h
    refine .inr ?_
    have h1 := ok_nat hp
    rw [resolve_params (nodup_keys_update hn.2 _) hi] at h1
    have h2 : eff E.talib Cls.minindex.hooks (update s.rest s.params) "period" = get? s.params "period" := by
      unfold eff
      rw [if_neg (by decide), get?_update, get?_reverse hn.1]
      cases hk : get? s.params "period" with
      | none => exact absurd hk (hd.resolve_right (by simp))
      | some v => rfl
    have h3 : (get? Cls.minindex.defaults "period").isSome = true := rfl
    rw [if_pos h3, h2] at h1
    cases hk : get? s.params "period" with
    | none => exact absurd hk (hd.resolve_right (by simp))
    | some v =>
      rw [hk] at h1
      injection h1 with h1
      subst h1
      rcases Nat.eq_zero_or_pos p with rfl | h0
      · exact absurd hk (hf.pos "period" (by decide))
      · exact h0
  case beta =>
    obtain ⟨_, _, h⟩ := ok_bind h
    obtain ⟨_, _, h⟩ := ok_bind h
    obtain ⟨p, hp, h⟩ := ok_bind h
    obtain rfl := ok_pure h
    exact hf.nat_ok hp (by decide)
  case stddev | stddev_s | var | var_s =>
    obtain ⟨_, _, h⟩ := ok_bind h
    obtain ⟨p, hp, h⟩ := ok_bind h
    obtain rfl := ok_pure h
    exact hf.nat_ok hp (by decide)
  case bbands | cci =>
    obtain ⟨m, hm, h⟩ := ok_bind h
    obtain ⟨_, _, h⟩ := ok_bind h
    obtain ⟨p, hp, h⟩ := ok_bind h
    obtain rfl := ok_pure h
    have h1 := hf.nat_ok hp (by decide)
    exact ⟨hf.ma_ok hm (by decide) 1 p h1, h1⟩
  case atr | natr | rsi =>
    obtain ⟨m, hm, h⟩ := ok_bind h
    obtain ⟨_, _, h⟩ := ok_bind h
    obtain ⟨p, hp, h⟩ := ok_bind h
    obtain rfl := ok_pure h
    exact hf.ma_ok hm (by decide) 1 p (hf.nat_ok hp (by decide))
  case cmo =>
    obtain ⟨m, hm, h⟩ := ok_bind h
    obtain ⟨p, hp, h⟩ := ok_bind h
    obtain rfl := ok_pure h
    exact hf.ma_ok hm (by decide) 1 p (hf.nat_ok hp (by decide))
  case plus_dm | minus_dm | dm | plus_di | minus_di | di | dx =>
    obtain ⟨m, hm, h⟩ := ok_bind h
    obtain ⟨p, hp, h⟩ := ok_bind h
    obtain ⟨q, hq, h⟩ := ok_bind h
    obtain rfl := ok_pure h
    exact ⟨hf.nat_ok hq (by decide), hf.smoother_ok hm hp⟩
  case adx =>
    obtain ⟨m, hm, h⟩ := ok_bind h
    obtain ⟨a, ha, h⟩ := ok_bind h
    obtain ⟨p, hp, h⟩ := ok_bind h
    obtain ⟨q, hq, h⟩ := ok_bind h
    obtain ⟨p', hp', h⟩ := ok_bind h
    obtain rfl := ok_pure h
    exact ⟨hf.nat_ok hq (by decide), hf.smoother_ok hm hp, hf.ma_ok ha (by decide) 1 p' (hf.nat_ok hp' (by decide))⟩
  case adxr =>
    obtain ⟨m, hm, h⟩ := ok_bind h
    obtain ⟨a, ha, h⟩ := ok_bind h
    obtain ⟨p, hp, h⟩ := ok_bind h
    obtain ⟨q, hq, h⟩ := ok_bind h
    obtain ⟨p', hp', h⟩ := ok_bind h
    obtain ⟨_, _, h⟩ := ok_bind h
    obtain ⟨_, _, h⟩ := ok_bind h
    obtain rfl := ok_pure h
    exact ⟨hf.nat_ok hq (by decide), hf.smoother_ok hm hp, hf.ma_ok ha (by decide) 1 p' (hf.nat_ok hp' (by decide)),
      hf.nat_ok hp' (by decide)⟩
  case macd =>
    obtain ⟨slow, hsl, h⟩ := ok_bind h
    obtain ⟨v, hv, h⟩ := ok_bind h
    obtain ⟨fast, hfa, h⟩ := ok_bind h
    obtain ⟨m, hm, h⟩ := ok_bind h
    obtain ⟨w, hw, h⟩ := ok_bind h
    obtain ⟨m', hm', h⟩ := ok_bind h
    obtain ⟨pf, hpf, h⟩ := ok_bind h
    obtain ⟨ps, hps, h⟩ := ok_bind h
    obtain ⟨pg, hpg, h⟩ := ok_bind h
    obtain rfl := ok_pure h
    have h1 := hf.nat_ok hpf (by decide)
    have hvs : v ≠ .cls "smacc" := by
      rintro rfl
      exact (hf.acc "_ma" (by decide)).1 (ok_need hv)
    refine ⟨?_, hf.ma_ok hm (by decide) 1 ps (hf.nat_ok hps (by decide)),
      hf.either_ok hw hm' (by decide) (by decide) 1 pg (hf.nat_ok hpg (by decide))⟩
    unfold maWith at hfa
    split at hfa
    · rename_i ht
      refine avgOf_offset E 3 v slow hvs fast hfa 1 pf h1 (fun k hk => .inr ?_)
      subst hk
      exact hf.order rfl ht pf k (ok_nat hpf) (ok_need hsl)
    · exact avgOf_usual E 3 v hvs fast hfa 1 pf h1
  case apo | adosc =>
    obtain ⟨m, hm, h⟩ := ok_bind h
    obtain ⟨p, hp, h⟩ := ok_bind h
    obtain ⟨q, hq, h⟩ := ok_bind h
    obtain rfl := ok_pure h
    exact ⟨hf.ma_ok hm (by decide) 1 p (hf.nat_ok hp (by decide)), hf.ma_ok hm (by decide) 1 q (hf.nat_ok hq (by decide))⟩
  case ppo | ppofast =>
    obtain ⟨m, hm, h⟩ := ok_bind h
    obtain ⟨w, hw, h⟩ := ok_bind h
    obtain ⟨m', hm', h⟩ := ok_bind h
    obtain ⟨pf, hpf, h⟩ := ok_bind h
    obtain ⟨ps, hps, h⟩ := ok_bind h
    obtain ⟨pg, hpg, h⟩ := ok_bind h
    obtain rfl := ok_pure h
    exact ⟨hf.ma_ok hm (by decide) 1 pf (hf.nat_ok hpf (by decide)), hf.ma_ok hm (by decide) 1 ps (hf.nat_ok hps (by decide)),
      hf.either_ok hw hm' (by decide) (by decide) 1 pg (hf.nat_ok hpg (by decide))⟩
  case stochf =>
    obtain ⟨m, hm, h⟩ := ok_bind h
    obtain ⟨p, hp, h⟩ := ok_bind h
    obtain ⟨q, hq, h⟩ := ok_bind h
    obtain rfl := ok_pure h
    exact ⟨hf.nat_ok hp (by decide), hf.ma_ok hm (by decide) 1 q (hf.nat_ok hq (by decide))⟩
  case stochastic =>
    obtain ⟨m, hm, h⟩ := ok_bind h
    obtain ⟨w, hw, h⟩ := ok_bind h
    obtain ⟨m', hm', h⟩ := ok_bind h
    obtain ⟨p, hp, h⟩ := ok_bind h
    obtain ⟨q, hq, h⟩ := ok_bind h
    obtain ⟨q', hq', h⟩ := ok_bind h
    obtain rfl := ok_pure h
    exact ⟨hf.nat_ok hp (by decide), hf.ma_ok hm (by decide) 1 q (hf.nat_ok hq (by decide)),
      hf.either_ok hw hm' (by decide) (by decide) 1 q' (hf.nat_ok hq' (by decide))⟩
  case stochrsi =>
    obtain ⟨v, hv, h⟩ := ok_bind h
    obtain ⟨ph, hph, h⟩ := ok_bind h
    have hphilo : 1 ≤ ph := by
      have h1 : v = .int ph := by
        unfold asNat at hph
        split at hph
        · injection hph with hph
          subst hph
          rfl
        · cases hph
      subst h1
      rcases Nat.eq_zero_or_pos ph with rfl | h0
      · rcases ok_either hv with h | h
        · exact absurd h.2 (by decide)
        · exact absurd h (hf.pos "period" (by decide))
      · exact h0
    split at h
    · split at h
      · rename_i hfast
        obtain ⟨w, hw, h⟩ := ok_bind h
        obtain ⟨m, hm, h⟩ := ok_bind h
        obtain ⟨p, hp, h⟩ := ok_bind h
        obtain ⟨pf, hpf, h⟩ := ok_bind h
        obtain ⟨_, _, h⟩ := ok_bind h
        obtain rfl := ok_pure h
        have h1 : (get? s.rest "_pfast").getD .none = .int pf := by
          unfold asNat at hpf
          split at hpf
          · rename_i n hn
            injection hpf with hpf
            subst hpf
            exact hn
          · cases hpf
        have h2 : 1 ≤ pf := by
          rcases Nat.eq_zero_or_pos pf with rfl | h0
          · rw [h1] at hfast
            exact absurd hfast (by decide)
          · exact h0
        refine ⟨hf.nat_ok hp (by decide), hphilo, avgOf_usual E 3 w ?_ m hm 1 pf h2⟩
        rintro rfl
        exact (hf.acc "_ma" (by decide)).2 (ok_need hw)
      · obtain ⟨p, hp, h⟩ := ok_bind h
        obtain ⟨_, _, h⟩ := ok_bind h
        obtain rfl := ok_pure h
        exact ⟨hf.nat_ok hp (by decide), hphilo⟩
    · cases h
  case ultimateoscillator =>
    obtain ⟨p1, h1, h⟩ := ok_bind h
    obtain ⟨p2, h2, h⟩ := ok_bind h
    obtain ⟨p3, h3, h⟩ := ok_bind h
    obtain ⟨_, _, h⟩ := ok_bind h
    obtain ⟨_, _, h⟩ := ok_bind h
    obtain ⟨_, _, h⟩ := ok_bind h
    obtain rfl := ok_pure h
    exact ⟨hf.nat_ok h1 (by decide), hf.nat_ok h2 (by decide), hf.nat_ok h3 (by decide)⟩
  case obv =>
    obtain ⟨p, hp, h⟩ := ok_bind h
    obtain rfl := ok_pure h
    exact fun _ => hf.nat_ok hp (by decide)

/-! ### Which averages are used: not `ewma` -/

theorem buildAvg_seeded (E : Env V) (m : PyVal → Out (Avg V)) (s : Seen) (c : Cls) (r : Avg V)
    (h : buildAvg E m s c = .ok r) (hc : c ≠ .ewma)
    (hm : ∀ v a, get? s.params "_ma" = some v → m v = .ok a → a.Seeded) : r.Seeded := by
  cases c
  all_goals first
    | (cases h; done)
    | (cases h; trivial)
    | exact absurd rfl hc
    | skip
  all_goals simp only [buildAvg] at h
  case ema =>
    split at h
    all_goals
      repeat (obtain ⟨_, _, h⟩ := ok_bind h)
      obtain rfl := ok_pure h
      trivial
  case t3 =>
    obtain ⟨_, _, h⟩ := ok_bind h
    split at h
    · obtain ⟨v, hv, h⟩ := ok_bind h
      obtain ⟨a, ha, h⟩ := ok_bind h
      obtain ⟨_, _, h⟩ := ok_bind h
      obtain rfl := ok_pure h
      exact hm v a (ok_need hv) ha
    · obtain ⟨_, _, h⟩ := ok_bind h
      obtain rfl := ok_pure h
      trivial
  case dema | tema | trix =>
    obtain ⟨v, hv, h⟩ := ok_bind h
    obtain ⟨a, ha, h⟩ := ok_bind h
    obtain rfl := ok_pure h
    exact hm v a (ok_need hv) ha
  case gdema =>
    obtain ⟨v, hv, h⟩ := ok_bind h
    obtain ⟨a, ha, h⟩ := ok_bind h
    obtain ⟨_, _, h⟩ := ok_bind h
    obtain rfl := ok_pure h
    exact hm v a (ok_need hv) ha
  all_goals
    repeat (obtain ⟨_, _, h⟩ := ok_bind h)
    obtain rfl := ok_pure h
    trivial

theorem inner_seeded (g : Bool) (c : Cls) (hc : c ≠ .adosc) :
    ((if (get? c.defaults "_ma").isSome then eff g c.hooks [("period", .int 1)] "_ma" else none).or
      (get? c.defaults "_ma")).any (isCls "ewma") = false := by
  cases c
  all_goals first
    | exact absurd rfl hc
    | (cases g <;> decide +kernel)

theorem avgOf_seeded (E : Env V) (n : ℕ) (v : PyVal) (hv : v ≠ .cls "ewma") (m : Avg V) (h : avgOf E n [] v = .ok m) :
    m.Seeded := by
  induction n generalizing v m with
  | zero => cases h
  | succ n ih =>
    unfold avgOf at h
    obtain ⟨c, hc, h⟩ := ok_bind h
    obtain ⟨s, hs, h⟩ := ok_bind h
    have hn : (keys [("period", PyVal.int 1)]).Nodup := by decide
    refine buildAvg_seeded E _ s c m h ?_ (fun w a hw ha => ih w ?_ a ha)
    · rintro rfl
      exact hv (ok_asCls hc)
    · rintro rfl
      rw [resolve_params hn hs] at hw
      have := inner_seeded E.talib c (by rintro rfl; cases h)
      rw [hw] at this
      exact absurd this (by decide)

theorem avgOf_with_seeded (E : Env V) (n : ℕ) (v w : PyVal) (b : String) (hb : b ∈ ["poffset", "_pearly"])
    (hv : v ≠ .cls "ewma") (m : Avg V) (h : avgOf E n [(b, w)] v = .ok m) : m.Seeded := by
  have hb2 : b ≠ "period" ∧ b ≠ "_talib" ∧ b ≠ "_ma" := by
    simp only [List.mem_cons, List.not_mem_nil, or_false] at hb
    rcases hb with rfl | rfl <;> decide
  cases n with
  | zero => cases h
  | succ n =>
    unfold avgOf at h
    obtain ⟨c, hc, h⟩ := ok_bind h
    obtain ⟨s, hs, h⟩ := ok_bind h
    have hn : (keys [("period", PyVal.int 1), (b, w)]).Nodup := by
      show ["period", b].Nodup
      simp only [List.nodup_cons, List.mem_singleton, List.not_mem_nil, not_false_eq_true, List.nodup_nil, and_true]
      exact fun h => hb2.1 h.symm
    refine buildAvg_seeded E _ s c m h ?_ (fun w a hw ha => avgOf_seeded E n w ?_ a ha)
    · rintro rfl
      exact hv (ok_asCls hc)
    · rintro rfl
      rw [resolve_params hn hs, eff_more _ _ _ _ _ hb2.2.1 hb2.2.2] at hw
      have := inner_seeded E.talib c (by rintro rfl; cases h)
      rw [hw] at this
      exact absurd this (by decide)

/-- No average the call is to use is ewma. -/
def Notewma (s : Seen) : Prop :=
  ∀ k ∈ averageKeys, get? s.params k ≠ some (.cls "ewma") ∧ get? s.rest k ≠ some (.cls "ewma")

theorem Notewma.ma_ok {s : Seen} (hf : Notewma s) {E : Env V} {k : String} {m : Avg V}
    (h : maOf E (get? s.params) k = .ok m) (hk : k ∈ averageKeys) : m.Seeded := by
  unfold maOf at h
  obtain ⟨v, hv, h⟩ := ok_bind h
  refine avgOf_seeded E 3 v ?_ m h
  rintro rfl
  exact (hf k hk).1 (ok_need hv)

theorem Notewma.either_ok {s : Seen} (hf : Notewma s) {E : Env V} {a b : String} {v : PyVal} {m : Avg V}
    (h : either (get? s.params) a b = .ok v) (hm : Api.ma E v = .ok m)
    (ha : a ∈ averageKeys) (hb : b ∈ averageKeys) : m.Seeded := by
  refine avgOf_seeded E 3 v ?_ m hm
  rintro rfl
  rcases ok_either h with h | h
  · exact (hf a ha).1 h.1
  · exact (hf b hb).1 h

theorem Notewma.smoother_ok {s : Seen} (hf : Notewma s) {E : Env V} {m : Avg V}
    (h : smoother E (get? s.params) = .ok m) : m.Seeded := by
  unfold Api.smoother at h
  obtain ⟨b, _, h⟩ := ok_bind h
  split at h
  · exact hf.ma_ok h (by decide)
  · obtain ⟨w, hw, h⟩ := ok_bind h
    obtain ⟨v, hv, h⟩ := ok_bind h
    refine avgOf_with_seeded E 3 v w "_pearly" (by decide) ?_ m h
    rintro rfl
    exact (hf "_accum" (by decide)).1 (ok_need hv)

theorem build_seeded (E : Env V) (s : Seen) (c : Cls) (hf : Notewma s) (hc : c ∉ [Cls.ewma])
    (r : Bta.Call V) (h : build E s c = .ok r) : r.Seeded := by
  cases c
  all_goals first
    | (cases h; done)
    | (cases h; trivial)
    | exact absurd (by decide) hc
    | skip
  all_goals simp only [build, rad] at h
  case «sum» | sma | ema | smma | wma | dema | kama | tema | trima | trix | gdema | t3 | smacc =>
    obtain ⟨a, ha, h⟩ := ok_bind h
    obtain ⟨p, hp, h⟩ := ok_bind h
    obtain rfl := ok_pure h
    refine buildAvg_seeded E _ s _ a ha (by simp) (fun v b hv hb => avgOf_seeded E 3 v ?_ b hb)
    rintro rfl
    exact (hf "_ma" (by decide)).1 hv
  case sin | cos | tan | sinh | cosh | tanh | asin | acos | atan | maxindex | minindex =>
    obtain ⟨_, _, h⟩ := ok_bind h
    split at h
    all_goals
      repeat (obtain ⟨_, _, h⟩ := ok_bind h)
      obtain rfl := ok_pure h
      trivial
  case macd =>
    obtain ⟨slow, hsl, h⟩ := ok_bind h
    obtain ⟨v, hv, h⟩ := ok_bind h
    obtain ⟨fast, hfa, h⟩ := ok_bind h
    obtain ⟨m, hm, h⟩ := ok_bind h
    obtain ⟨w, hw, h⟩ := ok_bind h
    obtain ⟨m', hm', h⟩ := ok_bind h
    obtain ⟨pf, hpf, h⟩ := ok_bind h
    obtain ⟨ps, hps, h⟩ := ok_bind h
    obtain ⟨pg, hpg, h⟩ := ok_bind h
    obtain rfl := ok_pure h
    have hvs : v ≠ .cls "ewma" := by
      rintro rfl
      exact (hf "_ma" (by decide)).1 (ok_need hv)
    refine ⟨?_, hf.ma_ok hm (by decide), hf.either_ok hw hm' (by decide) (by decide)⟩
    unfold maWith at hfa
    split at hfa
    · exact avgOf_with_seeded E 3 v slow "poffset" (by decide) hvs fast hfa
    · exact avgOf_seeded E 3 v hvs fast hfa
  case stochrsi =>
    obtain ⟨v, hv, h⟩ := ok_bind h
    obtain ⟨ph, hph, h⟩ := ok_bind h
    split at h
    · split at h
      · obtain ⟨w, hw, h⟩ := ok_bind h
        obtain ⟨m, hm, h⟩ := ok_bind h
        obtain ⟨p, hp, h⟩ := ok_bind h
        obtain ⟨pf, hpf, h⟩ := ok_bind h
        obtain ⟨_, _, h⟩ := ok_bind h
        obtain rfl := ok_pure h
        refine avgOf_seeded E 3 w ?_ m hm
        rintro rfl
        exact (hf "_ma" (by decide)).2 (ok_need hw)
      · obtain ⟨p, hp, h⟩ := ok_bind h
        obtain ⟨_, _, h⟩ := ok_bind h
        obtain rfl := ok_pure h
        trivial
    · cases h
  case plus_dm | minus_dm | dm | plus_di | minus_di | di | dx =>
    obtain ⟨m, hm, h⟩ := ok_bind h
    repeat (obtain ⟨_, _, h⟩ := ok_bind h)
    obtain rfl := ok_pure h
    exact hf.smoother_ok hm
  case adx | adxr =>
    obtain ⟨m, hm, h⟩ := ok_bind h
    obtain ⟨a, ha, h⟩ := ok_bind h
    repeat (obtain ⟨_, _, h⟩ := ok_bind h)
    obtain rfl := ok_pure h
    exact ⟨hf.smoother_ok hm, hf.ma_ok ha (by decide)⟩
  case ppo | ppofast | stochastic =>
    obtain ⟨m, hm, h⟩ := ok_bind h
    obtain ⟨w, hw, h⟩ := ok_bind h
    obtain ⟨m', hm', h⟩ := ok_bind h
    repeat (obtain ⟨_, _, h⟩ := ok_bind h)
    obtain rfl := ok_pure h
    exact ⟨hf.ma_ok hm (by decide), hf.either_ok hw hm' (by decide) (by decide)⟩
  case bbands | cci | atr | natr | rsi | cmo | apo | adosc | stochf =>
    obtain ⟨m, hm, h⟩ := ok_bind h
    repeat (obtain ⟨_, _, h⟩ := ok_bind h)
    obtain rfl := ok_pure h
    exact hf.ma_ok hm (by decide)
  all_goals
    repeat (obtain ⟨_, _, h⟩ := ok_bind h)
    obtain rfl := ok_pure h
    trivial

/-! ### Which averages are used: not `kama` -/

theorem buildAvg_delayable (E : Env V) (m : PyVal → Out (Avg V)) (s : Seen) (c : Cls) (r : Avg V)
    (h : buildAvg E m s c = .ok r) (hc : c ≠ .kama)
    (hm : ∀ v a, get? s.params "_ma" = some v → m v = .ok a → a.Delayable) : r.Delayable := by
  cases c
  all_goals first
    | (cases h; done)
    | (cases h; trivial)
    | exact absurd rfl hc
    | skip
  all_goals simp only [buildAvg] at h
  case ewma =>
    split at h
    · cases h
    · split at h
      · obtain ⟨_, _, h⟩ := ok_bind h
        obtain rfl := ok_pure h
        trivial
      · cases h
  case ema =>
    split at h
    all_goals
      repeat (obtain ⟨_, _, h⟩ := ok_bind h)
      obtain rfl := ok_pure h
      trivial
  case t3 =>
    obtain ⟨_, _, h⟩ := ok_bind h
    split at h
    · obtain ⟨v, hv, h⟩ := ok_bind h
      obtain ⟨a, ha, h⟩ := ok_bind h
      obtain ⟨_, _, h⟩ := ok_bind h
      obtain rfl := ok_pure h
      exact hm v a (ok_need hv) ha
    · obtain ⟨_, _, h⟩ := ok_bind h
      obtain rfl := ok_pure h
      trivial
  case dema | tema | trix =>
    obtain ⟨v, hv, h⟩ := ok_bind h
    obtain ⟨a, ha, h⟩ := ok_bind h
    obtain rfl := ok_pure h
    exact hm v a (ok_need hv) ha
  case gdema =>
    obtain ⟨v, hv, h⟩ := ok_bind h
    obtain ⟨a, ha, h⟩ := ok_bind h
    obtain ⟨_, _, h⟩ := ok_bind h
    obtain rfl := ok_pure h
    exact hm v a (ok_need hv) ha
  all_goals
    repeat (obtain ⟨_, _, h⟩ := ok_bind h)
    obtain rfl := ok_pure h
    trivial

theorem inner_delayable (g : Bool) (c : Cls) (hc : c ≠ .adosc) :
    ((if (get? c.defaults "_ma").isSome then eff g c.hooks [("period", .int 1)] "_ma" else none).or
      (get? c.defaults "_ma")).any (isCls "kama") = false := by
  cases c
  all_goals first
    | exact absurd rfl hc
    | (cases g <;> decide +kernel)

theorem avgOf_delayable (E : Env V) (n : ℕ) (v : PyVal) (hv : v ≠ .cls "kama") (m : Avg V) (h : avgOf E n [] v = .ok m) :
    m.Delayable := by
  induction n generalizing v m with
  | zero => cases h
  | succ n ih =>
    unfold avgOf at h
    obtain ⟨c, hc, h⟩ := ok_bind h
    obtain ⟨s, hs, h⟩ := ok_bind h
    have hn : (keys [("period", PyVal.int 1)]).Nodup := by decide
    refine buildAvg_delayable E _ s c m h ?_ (fun w a hw ha => ih w ?_ a ha)
    · rintro rfl
      exact hv (ok_asCls hc)
    · rintro rfl
      rw [resolve_params hn hs] at hw
      have := inner_delayable E.talib c (by rintro rfl; cases h)
      rw [hw] at this
      exact absurd this (by decide)

theorem avgOf_with_delayable (E : Env V) (n : ℕ) (v w : PyVal) (b : String) (hb : b ∈ ["poffset", "_pearly"])
    (hv : v ≠ .cls "kama") (m : Avg V) (h : avgOf E n [(b, w)] v = .ok m) : m.Delayable := by
  have hb2 : b ≠ "period" ∧ b ≠ "_talib" ∧ b ≠ "_ma" := by
    simp only [List.mem_cons, List.not_mem_nil, or_false] at hb
    rcases hb with rfl | rfl <;> decide
  cases n with
  | zero => cases h
  | succ n =>
    unfold avgOf at h
    obtain ⟨c, hc, h⟩ := ok_bind h
    obtain ⟨s, hs, h⟩ := ok_bind h
    have hn : (keys [("period", PyVal.int 1), (b, w)]).Nodup := by
      show ["period", b].Nodup
      simp only [List.nodup_cons, List.mem_singleton, List.not_mem_nil, not_false_eq_true, List.nodup_nil, and_true]
      exact fun h => hb2.1 h.symm
    refine buildAvg_delayable E _ s c m h ?_ (fun w a hw ha => avgOf_delayable E n w ?_ a ha)
    · rintro rfl
      exact hv (ok_asCls hc)
    · rintro rfl
      rw [resolve_params hn hs, eff_more _ _ _ _ _ hb2.2.1 hb2.2.2] at hw
      have := inner_delayable E.talib c (by rintro rfl; cases h)
      rw [hw] at this
      exact absurd this (by decide)

/-- No average the call is to use is kama. -/
def Notkama (s : Seen) : Prop :=
  ∀ k ∈ averageKeys, get? s.params k ≠ some (.cls "kama") ∧ get? s.rest k ≠ some (.cls "kama")

theorem Notkama.ma_ok {s : Seen} (hf : Notkama s) {E : Env V} {k : String} {m : Avg V}
    (h : maOf E (get? s.params) k = .ok m) (hk : k ∈ averageKeys) : m.Delayable := by
  unfold maOf at h
  obtain ⟨v, hv, h⟩ := ok_bind h
  refine avgOf_delayable E 3 v ?_ m h
  rintro rfl
  exact (hf k hk).1 (ok_need hv)

theorem Notkama.either_ok {s : Seen} (hf : Notkama s) {E : Env V} {a b : String} {v : PyVal} {m : Avg V}
    (h : either (get? s.params) a b = .ok v) (hm : Api.ma E v = .ok m)
    (ha : a ∈ averageKeys) (hb : b ∈ averageKeys) : m.Delayable := by
  refine avgOf_delayable E 3 v ?_ m hm
  rintro rfl
  rcases ok_either h with h | h
  · exact (hf a ha).1 h.1
  · exact (hf b hb).1 h

theorem Notkama.smoother_ok {s : Seen} (hf : Notkama s) {E : Env V} {m : Avg V}
    (h : smoother E (get? s.params) = .ok m) : m.Delayable := by
  unfold Api.smoother at h
  obtain ⟨b, _, h⟩ := ok_bind h
  split at h
  · exact hf.ma_ok h (by decide)
  · obtain ⟨w, hw, h⟩ := ok_bind h
    obtain ⟨v, hv, h⟩ := ok_bind h
    refine avgOf_with_delayable E 3 v w "_pearly" (by decide) ?_ m h
    rintro rfl
    exact (hf "_accum" (by decide)).1 (ok_need hv)

theorem build_delayable (E : Env V) (s : Seen) (c : Cls) (hf : Notkama s) (hc : c ∉ [Cls.kama, .mama, .maxindex, .minindex, .minmaxindex])
    (r : Bta.Call V) (h : build E s c = .ok r) : r.Delayable := by
  cases c
  all_goals first
    | (cases h; done)
    | (cases h; trivial)
    | exact absurd (by decide) hc
    | skip
  all_goals simp only [build, rad] at h
  case «sum» | ewma | sma | ema | smma | wma | dema | tema | trima | trix | gdema | t3 | smacc =>
    obtain ⟨a, ha, h⟩ := ok_bind h
    obtain ⟨p, hp, h⟩ := ok_bind h
    obtain rfl := ok_pure h
    refine buildAvg_delayable E _ s _ a ha (by simp) (fun v b hv hb => avgOf_delayable E 3 v ?_ b hb)
    rintro rfl
    exact (hf "_ma" (by decide)).1 hv
  case sin | cos | tan | sinh | cosh | tanh | asin | acos | atan =>
    obtain ⟨_, _, h⟩ := ok_bind h
    split at h
    all_goals
      repeat (obtain ⟨_, _, h⟩ := ok_bind h)
      obtain rfl := ok_pure h
      trivial
  case macd =>
    obtain ⟨slow, hsl, h⟩ := ok_bind h
    obtain ⟨v, hv, h⟩ := ok_bind h
    obtain ⟨fast, hfa, h⟩ := ok_bind h
    obtain ⟨m, hm, h⟩ := ok_bind h
    obtain ⟨w, hw, h⟩ := ok_bind h
    obtain ⟨m', hm', h⟩ := ok_bind h
    obtain ⟨pf, hpf, h⟩ := ok_bind h
    obtain ⟨ps, hps, h⟩ := ok_bind h
    obtain ⟨pg, hpg, h⟩ := ok_bind h
    obtain rfl := ok_pure h
    have hvs : v ≠ .cls "kama" := by
      rintro rfl
      exact (hf "_ma" (by decide)).1 (ok_need hv)
    refine ⟨?_, hf.ma_ok hm (by decide), hf.either_ok hw hm' (by decide) (by decide)⟩
    unfold maWith at hfa
    split at hfa
    · exact avgOf_with_delayable E 3 v slow "poffset" (by decide) hvs fast hfa
    · exact avgOf_delayable E 3 v hvs fast hfa
  case stochrsi =>
    obtain ⟨v, hv, h⟩ := ok_bind h
    obtain ⟨ph, hph, h⟩ := ok_bind h
    split at h
    · split at h
      · obtain ⟨w, hw, h⟩ := ok_bind h
        obtain ⟨m, hm, h⟩ := ok_bind h
        obtain ⟨p, hp, h⟩ := ok_bind h
        obtain ⟨pf, hpf, h⟩ := ok_bind h
        obtain ⟨_, _, h⟩ := ok_bind h
        obtain rfl := ok_pure h
        refine avgOf_delayable E 3 w ?_ m hm
        rintro rfl
        exact (hf "_ma" (by decide)).2 (ok_need hw)
      · obtain ⟨p, hp, h⟩ := ok_bind h
        obtain ⟨_, _, h⟩ := ok_bind h
        obtain rfl := ok_pure h
        trivial
    · cases h
  case plus_dm | minus_dm | dm | plus_di | minus_di | di | dx =>
    obtain ⟨m, hm, h⟩ := ok_bind h
    repeat (obtain ⟨_, _, h⟩ := ok_bind h)
    obtain rfl := ok_pure h
    exact hf.smoother_ok hm
  case adx | adxr =>
    obtain ⟨m, hm, h⟩ := ok_bind h
    obtain ⟨a, ha, h⟩ := ok_bind h
    repeat (obtain ⟨_, _, h⟩ := ok_bind h)
    obtain rfl := ok_pure h
    exact ⟨hf.smoother_ok hm, hf.ma_ok ha (by decide)⟩
  case ppo | ppofast | stochastic =>
    obtain ⟨m, hm, h⟩ := ok_bind h
    obtain ⟨w, hw, h⟩ := ok_bind h
    obtain ⟨m', hm', h⟩ := ok_bind h
    repeat (obtain ⟨_, _, h⟩ := ok_bind h)
    obtain rfl := ok_pure h
    exact ⟨hf.ma_ok hm (by decide), hf.either_ok hw hm' (by decide) (by decide)⟩
  case bbands | cci | atr | natr | rsi | cmo | apo | adosc | stochf =>
    obtain ⟨m, hm, h⟩ := ok_bind h
    repeat (obtain ⟨_, _, h⟩ := ok_bind h)
    obtain rfl := ok_pure h
    exact hf.ma_ok hm (by decide)
  all_goals
    repeat (obtain ⟨_, _, h⟩ := ok_bind h)
    obtain rfl := ok_pure h
    trivial

/-! ## Inputs which are not read -/

/-- the number of lines a class calculates with -/
def Spec.width (c : Cls) : ℕ := if Spec.oneOrTwo c then 1 else (Spec.inputs c).length

theorem build_width (E : Env V) (s : Seen) (c : Cls) (r : Bta.Call V) (h : build E s c = .ok r) {x x' : ℕ → Line V}
    (hx : ∀ i < Spec.width c, x i = x' i) : r.run x = r.run x' := by
  cases c
  all_goals first
    | (cases h; done)
    | (have h0 := hx 0 (Nat.le_of_ble_eq_true rfl)
       first
       | (have h1 := hx 1 (Nat.le_of_ble_eq_true rfl)
          first
          | (have h2 := hx 2 (Nat.le_of_ble_eq_true rfl)
             first
             | (have h3 := hx 3 (Nat.le_of_ble_eq_true rfl)
                simp only [build] at h
                repeat (obtain ⟨_, _, h⟩ := ok_bind h)
                cases h
                simp only [Bta.Call.run, h0, h1, h2, h3])
             | (simp only [build] at h
                repeat (obtain ⟨_, _, h⟩ := ok_bind h)
                cases h
                simp only [Bta.Call.run, h0, h1, h2]))
          | (simp only [build] at h
             repeat (obtain ⟨_, _, h⟩ := ok_bind h)
             cases h
             simp only [Bta.Call.run, h0, h1]))
       | (simp only [build, rad] at h
          repeat (obtain ⟨_, _, h⟩ := ok_bind h)
          cases h
          simp only [Bta.Call.run, h0])
       | (simp only [build, rad] at h
          obtain ⟨_, _, h⟩ := ok_bind h
          split at h
          all_goals
            repeat (obtain ⟨_, _, h⟩ := ok_bind h)
            cases h
            simp only [Bta.Call.run, h0]))
    | skip
  case stochrsi =>
    have h0 := hx 0 (Nat.le_of_ble_eq_true rfl)
    simp only [build] at h
    obtain ⟨_, _, h⟩ := ok_bind h
    obtain ⟨_, _, h⟩ := ok_bind h
    split at h
    · split at h
      all_goals
        repeat (obtain ⟨_, _, h⟩ := ok_bind h)
        cases h
        simp only [Bta.Call.run, h0]
    · cases h

end Bta.Api
