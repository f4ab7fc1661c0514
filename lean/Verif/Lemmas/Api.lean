import Verif.Api
import Verif.Props.Call

/-!
# Calls with keywords: only the values of the keywords count
-/

set_option linter.unusedSectionVars false
set_option linter.unusedVariables false

namespace Bta.Api

open Meta Py
open Line (Seed)

/-! ## The keywords after the hooks -/

theorem get?_runHook (h : Hook) (kw : Dict String PyVal) (k : String) :
    get? (runHook kw h) k = (get? kw k).or (get? h k) := by
  induction h generalizing kw with
  | nil => simp [runHook, get?]
  | cons p h ih =>
    show get? (runHook (setdefault kw p.1 p.2) h) k = _
    rw [ih, get?_setdefault]
    obtain ⟨a, b⟩ := p
    by_cases hk : a = k
    · subst hk
      cases hg : get? kw a <;> simp [get?]
    · simp [get?, hk]

theorem get?_hooks (hs : List Hook) (kw : Dict String PyVal) (k : String) :
    get? (hs.foldl runHook kw) k = (get? kw k).or (get? hs.flatten k) := by
  induction hs generalizing kw with
  | nil => simp [get?]
  | cons h hs ih =>
    rw [List.foldl_cons, ih, get?_runHook, List.flatten_cons, get?_append, Option.or_assoc]

theorem nodup_setdefault {d : Dict String PyVal} (h : (keys d).Nodup) (x : String) (v : PyVal) :
    (keys (setdefault d x v)).Nodup := by
  unfold setdefault
  cases hg : get? d x with
  | some w => exact h
  | none =>
    have hx := get?_eq_none_iff.1 hg
    show (keys (d ++ [(x, v)])).Nodup
    unfold keys at *
    rw [List.map_append, List.nodup_append]
    refine ⟨h, by simp, ?_⟩
    intro a ha b hb
    simp only [List.map_cons, List.map_nil, List.mem_singleton] at hb
    subst hb
    rintro rfl
    exact hx ha

theorem nodup_runHook (h : Hook) {d : Dict String PyVal} (hn : (keys d).Nodup) : (keys (runHook d h)).Nodup := by
  induction h generalizing d with
  | nil => exact hn
  | cons p h ih => exact ih (nodup_setdefault hn _ _)

theorem nodup_hooks (hs : List Hook) {d : Dict String PyVal} (hn : (keys d).Nodup) :
    (keys (hs.foldl runHook d)).Nodup := by
  induction hs generalizing d with
  | nil => exact hn
  | cons h hs ih => exact ih (nodup_runHook h hn)

theorem mem_keys_erase {d : Dict String PyVal} {x k : String} (h : k ∈ keys (erase d x)) : k ∈ keys d := by
  induction d with
  | nil => exact h
  | cons p d ih =>
    obtain ⟨a, v⟩ := p
    simp only [erase] at h
    split at h
    · exact List.mem_cons_of_mem _ h
    · rcases List.mem_cons.1 h with h | h
      · exact List.mem_cons.2 (Or.inl h)
      · exact List.mem_cons_of_mem _ (ih h)

theorem nodup_erase {d : Dict String PyVal} (hn : (keys d).Nodup) (x : String) : (keys (erase d x)).Nodup := by
  induction d with
  | nil => exact hn
  | cons p d ih =>
    obtain ⟨a, v⟩ := p
    simp only [keys, List.map_cons, List.nodup_cons] at hn
    simp only [erase]
    split
    · exact hn.2
    · show (a :: keys (erase d x)).Nodup
      rw [List.nodup_cons]
      exact ⟨fun h => hn.1 (mem_keys_erase h), ih hn.2⟩

theorem nodup_talibKwargs (g : Bool) (hs : List Hook) {kw : Dict String PyVal} (hn : (keys kw).Nodup) :
    (keys (talibKwargs g hs kw)).Nodup := by
  unfold talibKwargs
  dsimp only
  split
  · exact nodup_hooks hs (nodup_erase hn _)
  · exact nodup_erase hn _

/-- A keyword which reaches the parameters: the user's, else that of a hook if ta-lib compatibility is on. -/
def eff (g : Bool) (hs : List Hook) (kw : Dict String PyVal) (k : String) : Option PyVal :=
  (if k = "_talib" then none else get? kw k).or (if (talibFlag g kw).1 then get? hs.flatten k else none)

theorem get?_talibKwargs (g : Bool) (hs : List Hook) {kw : Dict String PyVal} (hn : (keys kw).Nodup) (k : String) :
    get? (talibKwargs g hs kw) k = eff g hs kw k := by
  have he : get? (erase kw "_talib") k = if k = "_talib" then none else get? kw k := by
    by_cases hk : k = "_talib"
    · subst hk; simpa using get?_erase_self kw "_talib" hn
    · rw [get?_erase_ne _ _ _ hk, if_neg hk]
  unfold talibKwargs eff
  dsimp only
  have h2 : (talibFlag g kw).2 = erase kw "_talib" := rfl
  split
  · rw [get?_hooks, h2, he]
  · rw [h2, he, Option.or_none]

/-! ## Parameters and what is left over -/

theorem get?_filter_key (d : Dict String PyVal) (f : String → Bool) (k : String) :
    get? (d.filter (fun p => f p.1)) k = if f k then get? d k else none := by
  induction d with
  | nil => simp [get?]
  | cons p d ih =>
    obtain ⟨a, v⟩ := p
    rw [List.filter_cons]
    by_cases hf : f a
    · simp only [hf, if_true, get?, ih]
      by_cases hk : a = k
      · subst hk; simp [hf]
      · simp [hk]
    · have hf' : f a = false := by simpa using hf
      simp only [hf', Bool.false_eq_true, if_false, ih, get?]
      by_cases hk : a = k
      · subst hk; simp [hf']
      · simp [hk]

theorem get?_reverse {d : Dict String PyVal} (hn : (keys d).Nodup) (k : String) : get? d.reverse k = get? d k := by
  cases h : get? d k with
  | some v =>
    apply mem_get?_of_nodup
    · unfold keys at *
      rw [List.map_reverse, List.nodup_reverse]
      exact hn
    · exact List.mem_reverse.2 (get?_eq_some_mem h)
  | none =>
    rw [get?_eq_none_iff] at h ⊢
    unfold keys at *
    rwa [List.map_reverse, List.mem_reverse]

theorem nodup_filter {d : Dict String PyVal} (hn : (keys d).Nodup) (f : String × PyVal → Bool) :
    (keys (d.filter f)).Nodup := by
  unfold keys at *
  exact hn.sublist ((List.filter_sublist).map _)

theorem get?_fromKwargs (defs : Dict String PyVal) (hd : (keys defs).Nodup) (i) {kw : Dict String PyVal}
    (hn : (keys kw).Nodup) (k : String) :
    get? (fromKwargs ⟨defs, i⟩ kw).1 k = (if (get? defs k).isSome then get? kw k else none).or (get? defs k) ∧
    get? (fromKwargs ⟨defs, i⟩ kw).2 k = if (get? defs k).isSome then none else get? kw k := by
  constructor
  · show get? (update (update [] defs) (kw.filter (fun p => (get? defs p.1).isSome))) k = _
    rw [get?_update, get?_update, get?_reverse (nodup_filter hn _), get?_reverse hd,
      get?_filter_key kw (fun a => (get? defs a).isSome)]
    simp [get?]
  · show get? (kw.filter (fun p => !(get? defs p.1).isSome)) k = _
    rw [get?_filter_key kw (fun a => !(get? defs a).isSome)]
    cases (get? defs k).isSome <;> simp

theorem defaults_nodup : ∀ c : Cls, (keys c.defaults).Nodup := by
  intro c; cases c <;> decide +kernel

theorem takes_congr (r : Row) {l l' : List String} (h : ∀ k, k ∈ l ↔ k ∈ l') : takes r 0 l = takes r 0 l' := by
  unfold takes
  split
  · rfl
  · congr 1
    rw [Bool.eq_iff_iff, List.all_eq_true, List.all_eq_true]
    exact ⟨fun hx k hk => hx k ((h k).2 hk), fun hx k hk => hx k ((h k).1 hk)⟩

theorem initCheck_congr (rows : List Row) {l l' : List String} (h : ∀ k, k ∈ l ↔ k ∈ l') :
    initCheck rows 0 l = initCheck rows 0 l' := by
  unfold initCheck
  have : (fun r => takes r 0 l) = fun r => takes r 0 l' := by
    funext r; exact takes_congr r h
  rw [this]

/-- Two views which differ in parameters of `S` only. -/
structure Rel (S : String → Prop) (s s' : Seen) : Prop where
  talib : s.talib = s'.talib
  params : ∀ k, ¬ S k → get? s.params k = get? s'.params k
  rest : ∀ k, get? s.rest k = get? s'.rest k

theorem keys_congr {d d' : Dict String PyVal} (h : ∀ k, get? d k = get? d' k) (k : String) : k ∈ keys d ↔ k ∈ keys d' := by
  rw [mem_keys_iff, mem_keys_iff, h]

theorem flag_congr (g : Bool) {kw kw' : Dict String PyVal} (h : get? kw "_talib" = get? kw' "_talib") :
    (talibFlag g kw).1 = (talibFlag g kw').1 := by
  simp only [talibFlag, h]

theorem eff_congr (g : Bool) (hs : List Hook) {kw kw' : Dict String PyVal} {k : String} (hk : get? kw k = get? kw' k)
    (ht : get? kw "_talib" = get? kw' "_talib") : eff g hs kw k = eff g hs kw' k := by
  unfold eff
  rw [hk, flag_congr g ht]

/-- Calls with keywords which differ in parameters of `S` only see views which differ in these only. -/
theorem resolve_rel (S : String → Prop) (g : Bool) (c : Cls)
    (hS : ∀ k, S k → (get? c.defaults k).isSome ∧ k ≠ "_talib") {kw kw' : Dict String PyVal} (hn : (keys kw).Nodup)
    (hn' : (keys kw').Nodup) (h : ∀ k, ¬ S k → get? kw k = get? kw' k) :
    (∃ e, resolve g c kw = .error e ∧ resolve g c kw' = .error e) ∨
      ∃ s s', resolve g c kw = .ok s ∧ resolve g c kw' = .ok s' ∧ Rel S s s' := by
  have ht : get? kw "_talib" = get? kw' "_talib" := h _ (fun hs => (hS _ hs).2 rfl)
  have hp : ∀ k, ¬ S k → get? (fromKwargs ⟨c.defaults, []⟩ (talibKwargs g c.hooks kw)).1 k =
      get? (fromKwargs ⟨c.defaults, []⟩ (talibKwargs g c.hooks kw')).1 k := by
    intro k hk
    rw [(get?_fromKwargs _ (defaults_nodup c) _ (nodup_talibKwargs g c.hooks hn) k).1,
      (get?_fromKwargs _ (defaults_nodup c) _ (nodup_talibKwargs g c.hooks hn') k).1, get?_talibKwargs g c.hooks hn,
      get?_talibKwargs g c.hooks hn', eff_congr g c.hooks (h k hk) ht]
  have hr : ∀ k, get? (fromKwargs ⟨c.defaults, []⟩ (talibKwargs g c.hooks kw)).2 k =
      get? (fromKwargs ⟨c.defaults, []⟩ (talibKwargs g c.hooks kw')).2 k := by
    intro k
    rw [(get?_fromKwargs _ (defaults_nodup c) _ (nodup_talibKwargs g c.hooks hn) k).2,
      (get?_fromKwargs _ (defaults_nodup c) _ (nodup_talibKwargs g c.hooks hn') k).2, get?_talibKwargs g c.hooks hn,
      get?_talibKwargs g c.hooks hn']
    by_cases hk : S k
    · rw [if_pos (hS k hk).1, if_pos (hS k hk).1]
    · rw [eff_congr g c.hooks (h k hk) ht]
  have hi := initCheck_congr c.rows (keys_congr hr)
  have hf := flag_congr g ht
  unfold resolve
  dsimp only
  rw [hi, hf]
  cases hc : initCheck c.rows 0 (keys (fromKwargs ⟨c.defaults, []⟩ (talibKwargs g c.hooks kw')).2) with
  | error e => exact Or.inl ⟨.py e, rfl, rfl⟩
  | ok u => exact Or.inr ⟨_, _, rfl, rfl, rfl, hp, hr⟩

/-! ## Only the values count -/

variable {V : Type} [PyFloat V]

theorem any_congr {l l' : List String} (h : ∀ k, k ∈ l ↔ k ∈ l') (f : String → Bool) : l.any f = l'.any f := by
  rw [Bool.eq_iff_iff, List.any_eq_true, List.any_eq_true]
  exact ⟨fun ⟨k, hk, hf⟩ => ⟨k, (h k).1 hk, hf⟩, fun ⟨k, hk, hf⟩ => ⟨k, (h k).2 hk, hf⟩⟩

theorem isEmpty_congr {l l' : List String} (h : ∀ k, k ∈ l ↔ k ∈ l') : l.isEmpty = l'.isEmpty := by
  rw [Bool.eq_iff_iff, List.isEmpty_iff, List.isEmpty_iff, List.eq_nil_iff_forall_not_mem, List.eq_nil_iff_forall_not_mem]
  exact ⟨fun hx k hk => hx k ((h k).2 hk), fun hx k hk => hx k ((h k).1 hk)⟩

/-- equal parameters, and keywords with the same values -/
structure Same (s s' : Seen) : Prop where
  talib : s.talib = s'.talib
  params : get? s.params = get? s'.params
  rest : get? s.rest = get? s'.rest
  nodup : (keys s.rest).Nodup ∧ (keys s'.rest).Nodup ∧ (keys s.params).Nodup ∧ (keys s'.params).Nodup

theorem buildAvg_congr (E : Env V) (m : PyVal → Out (Avg V)) {s s' : Seen} (h : Same s s') (c : Cls) :
    buildAvg E m s c = buildAvg E m s' c := by
  have hk : ∀ k, k ∈ keys s.rest ↔ k ∈ keys s'.rest := keys_congr (fun k => by rw [h.rest])
  cases c <;> simp only [buildAvg, h.params, h.rest, any_congr hk, isEmpty_congr hk]

theorem resolve_nodup {g : Bool} {c : Cls} {kw : Dict String PyVal} (hn : (keys kw).Nodup) {s : Seen}
    (h : resolve g c kw = .ok s) : (keys s.rest).Nodup ∧ (keys s.params).Nodup := by
  unfold resolve at h
  dsimp only at h
  cases hc : initCheck c.rows 0 (keys (fromKwargs ⟨c.defaults, []⟩ (talibKwargs g c.hooks kw)).2) with
  | error e => rw [hc] at h; cases h
  | ok u =>
    rw [hc] at h
    cases h
    exact ⟨nodup_filter (nodup_talibKwargs g c.hooks hn) _, nodup_keys_update (nodup_keys_update (by simp [keys]) _) _⟩

/-- the value of a parameter: given by the user, else by a hook of ta-lib compatibility, else the default -/
theorem resolve_params {g : Bool} {c : Cls} {kw : Dict String PyVal} (hn : (keys kw).Nodup) {s : Seen}
    (h : resolve g c kw = .ok s) (k : String) :
    get? s.params k = (if (get? c.defaults k).isSome then eff g c.hooks kw k else none).or (get? c.defaults k) := by
  unfold resolve at h
  dsimp only at h
  cases hc : initCheck c.rows 0 (keys (fromKwargs ⟨c.defaults, []⟩ (talibKwargs g c.hooks kw)).2) with
  | error e => rw [hc] at h; cases h
  | ok u =>
    rw [hc] at h
    cases h
    rw [(get?_fromKwargs _ (defaults_nodup c) _ (nodup_talibKwargs g c.hooks hn) k).1, get?_talibKwargs g c.hooks hn]

theorem resolve_rest {g : Bool} {c : Cls} {kw : Dict String PyVal} (hn : (keys kw).Nodup) {s : Seen}
    (h : resolve g c kw = .ok s) (k : String) :
    get? s.rest k = if (get? c.defaults k).isSome then none else eff g c.hooks kw k := by
  unfold resolve at h
  dsimp only at h
  cases hc : initCheck c.rows 0 (keys (fromKwargs ⟨c.defaults, []⟩ (talibKwargs g c.hooks kw)).2) with
  | error e => rw [hc] at h; cases h
  | ok u =>
    rw [hc] at h
    cases h
    rw [(get?_fromKwargs _ (defaults_nodup c) _ (nodup_talibKwargs g c.hooks hn) k).2, get?_talibKwargs g c.hooks hn]

theorem resolve_same (g : Bool) (c : Cls) {kw kw' : Dict String PyVal} (hn : (keys kw).Nodup) (hn' : (keys kw').Nodup)
    (h : get? kw = get? kw') :
    (∃ e, resolve g c kw = .error e ∧ resolve g c kw' = .error e) ∨
      ∃ s s', resolve g c kw = .ok s ∧ resolve g c kw' = .ok s' ∧ Same s s' := by
  rcases resolve_rel (fun _ => False) g c (fun _ h => h.elim) hn hn' (fun k _ => by rw [h]) with h | ⟨s, s', h1, h2, hr⟩
  · exact Or.inl h
  · refine Or.inr ⟨s, s', h1, h2, hr.talib, funext fun k => hr.params k not_false, funext hr.rest, ?_⟩
    have a := resolve_nodup hn h1
    have b := resolve_nodup hn' h2
    exact ⟨a.1, b.1, a.2, b.2⟩

theorem build_congr (E : Env V) {s s' : Seen} (h : Same s s') (c : Cls) : build E s c = build E s' c := by
  have ha : ∀ m : PyVal → Out (Avg V), ∀ c, buildAvg E m s c = buildAvg E m s' c := fun m c => buildAvg_congr E m h c
  have hu : get? (update s.rest s.params) = get? (update s'.rest s'.params) := by
    funext k
    rw [get?_update, get?_update, get?_reverse h.nodup.2.2.1, get?_reverse h.nodup.2.2.2, h.params, h.rest]
  have hm : build E s .minmaxindex = build E s' .minmaxindex := by
    simp only [build]
    rcases resolve_same E.talib .minindex (nodup_keys_update h.nodup.1 _) (nodup_keys_update h.nodup.2.1 _) hu with
      ⟨e, h1, h2⟩ | ⟨t, t', h1, h2, ht⟩
    · rw [h1, h2]
    · rw [h1, h2]
      simp only [bind, Except.bind, ht.params]
  cases c
  case minmaxindex => exact hm
  all_goals simp only [build, h.params, h.rest, h.talib, ha]

/-- Only the values of the keywords count. -/
theorem call_congr (E : Env V) (c : Cls) {kw kw' : Dict String PyVal} (hn : (keys kw).Nodup) (hn' : (keys kw').Nodup)
    (h : ∀ k, get? kw k = get? kw' k) (x : List (Line V)) : call E c kw x = call E c kw' x := by
  unfold call
  rcases resolve_same E.talib c hn hn' (funext h) with ⟨e, h1, h2⟩ | ⟨s, s', h1, h2, hs⟩
  · rw [h1, h2]
  · rw [h1, h2]
    simp only [bind, Except.bind, build_congr E hs c]

end Bta.Api
