import Verif.Meta.Call
import Verif.Props.Inputs
import Verif.Props.Params
import Verif.Props.Registry

/-!
# The call protocol (C56-C60, C81)
-/

set_option linter.unusedSectionVars false
set_option linter.unusedVariables false

namespace Bta.Meta

open Py

/-! ## C56: order of the initialisers -/

section Inits

variable {F : Type} [DecidableEq F]

theorem lookup_mem {l : List (Option F)} {f : F} (h : lookup l = some f) : some f ∈ l := by
  induction l with
  | nil => cases h
  | cons a l ih =>
    cases a with
    | some g => simp only [lookup, Option.some.injEq] at h; subst h; exact List.mem_cons_self
    | none => exact List.mem_cons_of_mem _ (ih h)

theorem lookups_mem {l : List (Option F)} {f : F} : f ∈ lookups l ↔ some f ∈ l := by
  induction l with
  | nil => simp [lookups]
  | cons a l ih =>
    simp only [lookups, List.mem_append, ih, Option.mem_toList]
    constructor
    · rintro (h | h)
      · exact lookup_mem h
      · exact List.mem_cons_of_mem _ h
    · intro h
      rcases List.mem_cons.1 h with h | h
      · subst h
        exact .inl rfl
      · exact .inr h

theorem fromkeys_dup (x : F) (l : List F) : fromkeys (x :: x :: l) = fromkeys (x :: l) := by
  simp [fromkeys, List.filter_filter]

theorem lookups_head {l : List (Option F)} {f : F} (h : lookup l = some f) : ∃ t, lookups l = f :: t := by
  cases l with
  | nil => cases h
  | cons a l => exact ⟨lookups l, by simp [lookups, h]⟩

theorem fromkeys_lookups (l : List (Option F)) (h : (l.filterMap id).Nodup) : fromkeys (lookups l) = l.filterMap id := by
  induction l with
  | nil => rfl
  | cons a l ih =>
    cases a with
    | some f =>
      simp only [List.filterMap_cons, id_eq, List.nodup_cons] at h
      simp only [lookups, lookup, Option.toList_some, List.singleton_append, fromkeys, ih h.2, List.filterMap_cons, id_eq,
        List.cons.injEq, true_and]
      rw [List.filter_eq_self]
      intro y hy
      simp only [ne_eq, decide_not, Bool.not_eq_eq_eq_not, Bool.not_true, decide_eq_false_iff_not]
      rintro rfl
      exact h.1 hy
    | none =>
      have h' : (l.filterMap id).Nodup := h
      show fromkeys ((lookup l).toList ++ lookups l) = l.filterMap id
      rw [← ih h']
      cases hl : lookup l with
      | none => rfl
      | some f =>
        obtain ⟨t, ht⟩ := lookups_head hl
        rw [ht]
        exact fromkeys_dup f t

/-- **C56**: along any hierarchy, in which the classes have or do not have an initialiser of their own (`some f`/`none`,
most derived first; the initialisers of different classes are different functions), exactly these initialisers run, each
one once, in the order from the root to the most derived class. -/
theorem C56_order (chain : List (Option F)) (h : (chain.filterMap id).Nodup) :
    runOrder chain = (chain.filterMap id).reverse := by
  rw [runOrder, fromkeys_lookups chain h]

/-- **C56**, without any assumption (a function may be shared by several classes): every initialiser runs exactly once. -/
theorem C56_once (chain : List (Option F)) (f : F) :
    (runOrder chain).count f = if some f ∈ chain then 1 else 0 := by
  have hn : (runOrder chain).Nodup := by
    rw [runOrder, List.nodup_reverse]
    exact nodup_fromkeys _
  have hm : f ∈ runOrder chain ↔ some f ∈ chain := by
    rw [runOrder, List.mem_reverse, mem_fromkeys, lookups_mem]
  by_cases hc : some f ∈ chain
  · rw [if_pos hc, List.count_eq_one_of_mem hn (hm.2 hc)]
  · rw [if_neg hc, List.count_eq_zero_of_not_mem (fun h => hc (hm.1 h))]

/-- A hierarchy in which a class in the middle has no initialiser: that of its base does not run twice. -/
example : runOrder [some 3, none, some 2, none, some 1] = [1, 2, 3] ∧
    ([some 3, none, some 2, none, some 1].filterMap id).Nodup := by decide

set_option maxRecDepth 100000 in
/-- The initialisers of `adxr`, and of `rocr`, which has none of its own. -/
example : runOrder ((libChain "adxr").map (fun r => if r.init then some r.name else none)) =
      ["Indicator", "_dm", "_di", "dx", "adx", "adxr"] ∧
    runOrder ((libChain "rocr").map (fun r => if r.init then some r.name else none)) = ["Indicator", "_rocbase"] := by
  decide +kernel

end Inits

/-! ## C60: ta-lib compatibility and keywords -/

theorem get?_erase_ne {α β : Type} [DecidableEq α] (d : Dict α β) (x y : α) (h : y ≠ x) : get? (erase d x) y = get? d y := by
  induction d with
  | nil => rfl
  | cons p d ih =>
    obtain ⟨k, v⟩ := p
    simp only [erase]
    split
    · rename_i hk
      subst hk
      simp [get?, Ne.symm h]
    · simp only [get?, ih]

theorem get?_erase_self {α β : Type} [DecidableEq α] (d : Dict α β) (x : α) (hn : (keys d).Nodup) :
    get? (erase d x) x = none := by
  induction d with
  | nil => rfl
  | cons p d ih =>
    obtain ⟨k, v⟩ := p
    simp only [keys, List.map_cons, List.nodup_cons] at hn
    simp only [erase]
    split
    · rename_i hk
      subst hk
      exact get?_eq_none_iff.2 hn.1
    · rename_i hk
      simp only [get?, if_neg hk]
      exact ih hn.2

theorem runHook_some (h : Hook) (kw : Dict String PyVal) (k : String) (v : PyVal) (hk : get? kw k = some v) :
    get? (runHook kw h) k = some v := by
  induction h generalizing kw with
  | nil => exact hk
  | cons p h ih =>
    show get? (runHook (setdefault kw p.1 p.2) h) k = _
    apply ih
    rw [get?_setdefault, hk]
    split <;> simp_all

theorem runHook_other (h : Hook) (kw : Dict String PyVal) (k : String) (hk : k ∉ keys h) :
    get? (runHook kw h) k = get? kw k := by
  induction h generalizing kw with
  | nil => rfl
  | cons p h ih =>
    simp only [keys, List.map_cons, List.mem_cons, not_or] at hk
    show get? (runHook (setdefault kw p.1 p.2) h) k = _
    rw [ih _ hk.2, get?_setdefault, if_neg (fun e => hk.1 (by simpa using e.symm))]

theorem runHook_sets (h : Hook) (kw : Dict String PyVal) (k : String) (hk : k ∈ keys h) :
    (get? (runHook kw h) k).isSome = true := by
  induction h generalizing kw with
  | nil => simp [keys] at hk
  | cons p h ih =>
    show (get? (runHook (setdefault kw p.1 p.2) h) k).isSome = _
    by_cases hh : k ∈ keys h
    · exact ih _ hh
    · have hp : p.1 = k := by
        simp only [keys, List.map_cons, List.mem_cons] at hk
        exact (hk.resolve_right hh).symm
      rw [runHook_other h _ k hh, get?_setdefault, if_pos hp]
      cases get? kw k <;> rfl

theorem hooks_some (hs : List Hook) (kw : Dict String PyVal) (k : String) (v : PyVal) (hk : get? kw k = some v) :
    get? (hs.foldl runHook kw) k = some v := by
  induction hs generalizing kw with
  | nil => exact hk
  | cons h hs ih => exact ih _ (runHook_some h kw k v hk)

theorem hooks_other (hs : List Hook) (kw : Dict String PyVal) (k : String) (hk : ∀ h ∈ hs, k ∉ keys h) :
    get? (hs.foldl runHook kw) k = get? kw k := by
  induction hs generalizing kw with
  | nil => rfl
  | cons h hs ih =>
    rw [List.foldl_cons, ih _ (fun x hx => hk x (List.mem_cons_of_mem _ hx)), runHook_other _ _ _ (hk h List.mem_cons_self)]

/-- **C60**: in ta-lib mode or not, for all hooks: what the caller passed stays. -/
theorem C60_user_wins (globalFlag : Bool) (hs : List Hook) (kw : Dict String PyVal) (k : String) (v : PyVal)
    (hk : get? kw k = some v) (ht : k ≠ "_talib") : get? (talibKwargs globalFlag hs kw) k = some v := by
  have h1 : get? (erase kw "_talib") k = some v := by rw [get?_erase_ne _ _ _ ht, hk]
  unfold talibKwargs talibFlag
  simp only
  by_cases hf : (((get? kw "_talib").getD (PyVal.bool false)).truthy || globalFlag) = true
  rotate_left
  · rw [if_neg hf]; exact h1
  · rw [if_pos hf]
    exact hooks_some _ _ _ _ h1

/-- **C60**: names no hook mentions are not touched at all. -/
theorem C60_only_defaults (globalFlag : Bool) (hs : List Hook) (kw : Dict String PyVal) (k : String) (ht : k ≠ "_talib")
    (hk : ∀ h ∈ hs, k ∉ keys h) : get? (talibKwargs globalFlag hs kw) k = get? kw k := by
  have h1 : get? (erase kw "_talib") k = get? kw k := get?_erase_ne _ _ _ ht
  unfold talibKwargs talibFlag
  simp only
  by_cases hf : (((get? kw "_talib").getD (PyVal.bool false)).truthy || globalFlag) = true
  rotate_left
  · rw [if_neg hf]; exact h1
  · rw [if_pos hf]
    rw [hooks_other _ _ _ hk, h1]

/-- **C60**: without the flag nothing but `_talib` itself is changed. -/
theorem C60_off (hs : List Hook) (kw : Dict String PyVal)
    (hf : ((get? kw "_talib").getD (.bool false)).truthy = false) :
    talibKwargs false hs kw = erase kw "_talib" := by
  simp [talibKwargs, talibFlag, hf]

/-- **C60**: which values of `_talib` count as not given: those which are false in python. -/
theorem C60_off_values (hs : List Hook) (kw : Dict String PyVal) (v : PyVal)
    (hv : v ∈ [.none, .bool false, .int 0, .num 0, .str "", .tup []]) (h : get? kw "_talib" = some v) :
    talibKwargs false hs kw = erase kw "_talib" := by
  refine C60_off hs kw ?_
  rw [h]
  simp only [List.mem_cons, List.not_mem_nil, or_false] at hv
  rcases hv with rfl | rfl | rfl | rfl | rfl | rfl <;> simp [PyVal.truthy]

/-- Non-vacuity: `_talib=0`. -/
example : get? [("period", PyVal.int 5), ("_talib", PyVal.int 0)] "_talib" = some (PyVal.int 0) := by simp [get?]

/-- **C60** (partial: not for classes with a hook which gives `_talib` itself back, see `C60_given_back`): `_talib` itself
does not reach the indicator. -/
theorem C60_popped_partial (globalFlag : Bool) (hs : List Hook) (kw : Dict String PyVal) (hn : (keys kw).Nodup)
    (hk : ∀ h ∈ hs, "_talib" ∉ keys h) : get? (talibKwargs globalFlag hs kw) "_talib" = none := by
  have h1 := get?_erase_self kw "_talib" hn
  unfold talibKwargs talibFlag
  simp only
  by_cases hf : (((get? kw "_talib").getD (PyVal.bool false)).truthy || globalFlag) = true
  rotate_left
  · rw [if_neg hf]; exact h1
  · rw [if_pos hf]
    rw [hooks_other _ _ _ hk, h1]

/-- **C60** (negation, for `minmaxindex`, see `C60_talib_key_classes`): in ta-lib mode `_talib` does reach an indicator one of
whose hooks gives it back. -/
theorem C60_given_back (hs : List Hook) (kw : Dict String PyVal) (hk : ∃ h ∈ hs, "_talib" ∈ keys h)
    (hf : (((get? kw "_talib").getD (.bool false)).truthy) = true) :
    (get? (talibKwargs false hs kw) "_talib").isSome = true := by
  have keep : ∀ (l : List Hook) (d : Dict String PyVal), (get? d "_talib").isSome = true →
      (get? (l.foldl runHook d) "_talib").isSome = true := by
    intro l d hd
    obtain ⟨v, hv⟩ := Option.isSome_iff_exists.1 hd
    rw [hooks_some l d "_talib" v hv]; rfl
  have main : ∀ (l : List Hook) (d : Dict String PyVal), (∃ h ∈ l, "_talib" ∈ keys h) →
      (get? (l.foldl runHook d) "_talib").isSome = true := by
    intro l
    induction l with
    | nil => rintro d ⟨h, hh, -⟩; cases hh
    | cons h l ih =>
      rintro d ⟨h', hh, hk'⟩
      rw [List.foldl_cons]
      rcases List.mem_cons.1 hh with rfl | hh
      · refine keep l _ ?_
        exact runHook_sets h' d "_talib" hk'
      · exact ih _ ⟨h', hh, hk'⟩
  unfold talibKwargs talibFlag
  simp only [hf, Bool.true_or, if_true]
  exact main hs _ hk

/-- `minmaxindex(data, _talib=True)` -/
example : get? (talibKwargs false [[("_absidx", .bool true), ("_talib", .bool true)]] [("_talib", .bool true)]) "_talib" =
    some (.bool true) := rfl

/-- **C60**: the parameters.  A parameter given by the caller has the value of the caller, in ta-lib mode too. -/
theorem C60_params (ds : List PDecl) (hok : ∀ d ∈ ds, d.Ok) (hnt : ∀ d ∈ ds, d.NoTuple) (globalFlag : Bool) (hs : List Hook)
    (kw : Dict String PyVal) (hkw : (keys (talibKwargs globalFlag hs kw)).Nodup) (n : String) (v dflt : PyVal)
    (hd : Spec.Default n ds.reverse dflt) (hv : get? kw n = some v) (ht : n ≠ "_talib") :
    ∃ c, genChain ds = .ok c ∧ get? (fromKwargs c (talibKwargs globalFlag hs kw)).1 n = some v := by
  obtain ⟨c, hc, h1, _⟩ := C52_resolution_partial ds hok hnt (talibKwargs globalFlag hs kw) hkw
  exact ⟨c, hc, (h1 n v).2 ⟨dflt, hd, .inl (C60_user_wins globalFlag hs kw n v hv ht)⟩⟩

/-- C60, a limit: the global setting cannot be switched off for one call: `_talib=False` is ignored. -/
theorem C60_global_wins (hs : List Hook) (kw : Dict String PyVal) :
    talibKwargs true hs kw = hs.foldl runHook (erase kw "_talib") := by
  simp [talibKwargs, talibFlag]

/-- `bbands`, `stddev` and others: the period of the caller against the default of ta-lib. -/
example : get? (talibKwargs false [[], [("period", .int 5)]] [("_talib", .bool true), ("period", .int 20)]) "period" =
      some (.int 20) ∧
    get? (talibKwargs false [[], [("period", .int 5)]] [("_talib", .bool true), ("devs", .int 2)]) "period" =
      some (.int 5) ∧
    get? (talibKwargs false [[], [("period", .int 5)]] [("devs", .int 2)]) "period" = none := by
  refine ⟨?_, ?_, ?_⟩ <;> rfl

/-! ## Calls: the stack -/

variable {V : Type}

/-- The parts of the state a call can change, without initialisers. -/
theorem invokeWith_stack_ok (w : World) (c : Call V) (g : Glob)
    (run : View V → Glob → Except Err (Dict String (Line V)) × Glob)
    (hrun : ∀ v g o g', run v g = (.ok o, g') → g'.stack = g.stack) (r : Res V) (g' : Glob)
    (h : invokeWith w c g run = (.ok r, g')) : g'.stack = g.stack := by
  unfold invokeWith at h
  simp only at h
  split at h
  · cases h
  · rename_i ls rest k hb
    split at h
    · cases h
    · rename_i outs g2 hr
      split at h
      · cases h
      · cases h
        have := hrun _ _ _ _ hr
        simp only [enter] at this
        simp [this]

theorem exec_stack_ok (w : World) (b : Body V) : ∀ (g : Glob) (o) (g'), exec w b g = (.ok o, g') → g'.stack = g.stack := by
  induction b with
  | ret outs => intro g o g' h; cases h; rfl
  | raise e => intro g o g' h; cases h
  | call c inner next ih1 ih2 =>
    intro g o g' h
    simp only [exec] at h
    split at h
    · cases h
    · rename_i r g1 hi
      have h1 := invokeWith_stack_ok w c g _ (fun v g o g' h => ih1 v g o g' h) r g1 hi
      rw [ih2 r g1 o g' h, h1]

theorem invokeWith_stack_mono (w : World) (c : Call V) (g : Glob)
    (run : View V → Glob → Except Err (Dict String (Line V)) × Glob)
    (hrun : ∀ v g, g.stack ≤ (run v g).2.stack) : g.stack ≤ (invokeWith w c g run).2.stack := by
  unfold invokeWith
  simp only
  split
  · exact Nat.le_refl _
  · rename_i ls rest k hb
    split
    · rename_i e g2 hr
      have := hrun ⟨ls, rest, (talibFlag w.talib c.kw).2, (talibFlag w.talib c.kw).1⟩ (enter w c g k)
      rw [hr] at this
      simp only [enter] at this ⊢
      omega
    · rename_i outs g2 hr
      have := hrun ⟨ls, rest, (talibFlag w.talib c.kw).2, (talibFlag w.talib c.kw).1⟩ (enter w c g k)
      rw [hr] at this
      simp only [enter] at this
      split
      · simp only; omega
      · simp only; omega

theorem exec_stack_mono (w : World) (b : Body V) : ∀ g : Glob, g.stack ≤ (exec w b g).2.stack := by
  induction b with
  | ret outs => intro g; exact Nat.le_refl _
  | raise e => intro g; exact Nat.le_refl _
  | call c inner next ih1 ih2 =>
    intro g
    have h1 := invokeWith_stack_mono w c g (fun v g => exec w (inner v) g) (fun v g => ih1 v g)
    simp only [exec]
    split
    · rename_i e g' hi
      rw [hi] at h1
      exact h1
    · rename_i r g' hi
      rw [hi] at h1
      exact Nat.le_trans h1 (ih2 r g')

theorem history_stack_mono (w : World) (h : List (Call V × (View V → Body V))) : ∀ g : Glob, g.stack ≤ (history w h g).stack := by
  induction h with
  | nil => intro g; exact Nat.le_refl _
  | cons x h ih =>
    intro g
    obtain ⟨c, b⟩ := x
    refine Nat.le_trans ?_ (ih _)
    exact invokeWith_stack_mono w c g _ (fun v g => exec_stack_mono w (b v) g)

/-- **C57**, what holds (all call trees): a call which succeeds leaves the stack of running indicators as it was. -/
theorem C57_success_partial (w : World) (c : Call V) (inner : View V → Body V) (g g' : Glob) (r : Res V)
    (h : invoke w c inner g = (.ok r, g')) : g'.stack = g.stack :=
  invokeWith_stack_ok w c g _ (fun v g o g' h => exec_stack_ok w (inner v) g o g' h) r g' h

/-- **C57**, what holds: a call which fails because of its inputs (wrong number, wrong type, missing columns) changes
nothing, so every later call behaves as if it had not been made. -/
theorem C57_bind_failure_partial (w : World) (c : Call V) (inner : View V → Body V) (g : Glob) (e : Err)
    (h : bindInputs w.cfg w.low (decide (g.stack = 0)) ⟨(w.classes c.cls).inputs, (w.classes c.cls).allow, g.inSlots c.cls⟩
      c.args = .error e) : invoke w c inner g = (.error e, g) := by
  unfold invoke invokeWith
  simp only [h]

/-- The stack after a call which got its inputs but whose initialisers raised. -/
theorem stack_leaks (w : World) (c : Call V) (inner : View V → Body V) (g : Glob) (x) (e : Err)
    (hb : bindInputs w.cfg w.low (decide (g.stack = 0)) ⟨(w.classes c.cls).inputs, (w.classes c.cls).allow, g.inSlots c.cls⟩
      c.args = .ok x) (he : (invoke w c inner g).1 = .error e) : g.stack < (invoke w c inner g).2.stack := by
  obtain ⟨ls, rest, k⟩ := x
  unfold invoke invokeWith at he ⊢
  simp only [hb] at he ⊢
  split
  · rename_i e' g2 hr
    have := exec_stack_mono w (inner ⟨ls, rest, (talibFlag w.talib c.kw).2, (talibFlag w.talib c.kw).1⟩) (enter w c g k)
    rw [hr] at this
    simp only [enter] at this ⊢
    omega
  · rename_i outs g2 hr
    have := exec_stack_mono w (inner ⟨ls, rest, (talibFlag w.talib c.kw).2, (talibFlag w.talib c.kw).1⟩) (enter w c g k)
    rw [hr] at this
    simp only [enter] at this
    split
    · simp only; omega
    · rename_i lines hm
      rw [hr] at he
      simp only [hm] at he
      cases he

theorem bindInputs_notTop (cfg : Config) (low : String → String) (k : InCls) (df : Frame V) (as : List (Arg V))
    (h : (Arg.frame df :: as).length < k.inputs.length) :
    bindInputs cfg low false k (.frame df :: as) = .error .pandasNotTopStack := by
  have hc : ¬ k.inputs.length ≤ (Arg.frame df :: as).length := by omega
  have : fromArgs cfg low false k (.frame df :: as) = .error .pandasNotTopStack := by
    refine (if_neg hc).trans ?_
    rfl
  unfold bindInputs
  rw [this]
  rfl

/-- C57 is violated: let a call get its inputs and raise afterwards (a misspelt keyword suffices, see C81).  Whatever calls
follow, successful or not, from then on every indicator with several inputs rejects every DataFrame, with an error which
says that it was not called from outside of the library. -/
theorem C57_poisoned (w : World) (c : Call V) (inner : View V → Body V) (g : Glob) (x) (e : Err)
    (hb : bindInputs w.cfg w.low (decide (g.stack = 0)) ⟨(w.classes c.cls).inputs, (w.classes c.cls).allow, g.inSlots c.cls⟩
      c.args = .ok x) (he : (invoke w c inner g).1 = .error e)
    (h : List (Call V × (View V → Body V))) (c2 : Call V) (inner2 : View V → Body V) (df : Frame V) (as : List (Arg V))
    (ha : c2.args = .frame df :: as) (hn : c2.args.length < (w.classes c2.cls).inputs.length) :
    (invoke w c2 inner2 (history w ((c, inner) :: h) g)).1 = .error .pandasNotTopStack := by
  have h1 := stack_leaks w c inner g x e hb he
  have h2 := history_stack_mono w h (invoke w c inner g).2
  have h3 : decide ((history w ((c, inner) :: h) g).stack = 0) = false := by
    rw [decide_eq_false_iff_not]
    simp only [history]
    omega
  rw [C57_bind_failure_partial w c2 inner2 _ .pandasNotTopStack]
  rw [h3, ha]
  exact bindInputs_notTop _ _ _ _ _ (by rw [← ha]; exact hn)

/-- C57 is violated: after such a call the preference to get DataFrames is ignored for ever. -/
theorem C57_no_dataframe (w : World) (c : Call V) (inner : View V → Body V) (g : Glob) (x) (e : Err)
    (hb : bindInputs w.cfg w.low (decide (g.stack = 0)) ⟨(w.classes c.cls).inputs, (w.classes c.cls).allow, g.inSlots c.cls⟩
      c.args = .ok x) (he : (invoke w c inner g).1 = .error e)
    (h : List (Call V × (View V → Body V))) (c2 : Call V) (inner2 : View V → Body V) (r : Res V)
    (hr : (invoke w c2 inner2 (history w ((c, inner) :: h) g)).1 = .ok r) : r.df = false := by
  have h1 := stack_leaks w c inner g x e hb he
  have h2 := history_stack_mono w h (invoke w c inner g).2
  have h3 : 0 < (history w ((c, inner) :: h) g).stack := by
    simp only [history]
    omega
  generalize history w ((c, inner) :: h) g = g0 at h3 hr
  unfold invoke invokeWith at hr
  simp only at hr
  split at hr
  · cases hr
  · rename_i ls rest k hb2
    split at hr
    · cases hr
    · rename_i outs g2 hx
      split at hr
      · cases hr
      · have hs := exec_stack_ok w _ _ _ _ hx
        simp only [enter] at hs
        cases hr
        have : ¬ (g2.stack - 1 = 0) := by omega
        simp [this]

/-- Without a failure before, the DataFrame is delivered if it is the preference. -/
theorem C57_dataframe_partial (w : World) (c : Call V) (inner : View V → Body V) (g : Glob) (r : Res V)
    (hg : g.stack = 0) (hr : (invoke w c inner g).1 = .ok r) : r.df = w.retDf := by
  unfold invoke invokeWith at hr
  simp only at hr
  split at hr
  · cases hr
  · split at hr
    · cases hr
    · rename_i outs g2 hx
      split at hr
      · cases hr
      · have hs := exec_stack_ok w _ _ _ _ hx
        simp only [enter] at hs
        cases hr
        simp [hs, hg]

/-! ## Calls: the classes -/

/-- Properties of the state which do not depend on the stack. -/
theorem invokeWith_inv (P : Glob → Prop) (hP : ∀ g n, P g → P { g with stack := n }) (w : World) (c : Call V) (g : Glob)
    (run : View V → Glob → Except Err (Dict String (Line V)) × Glob) (hg : P g)
    (henter : ∀ ls rest k, bindInputs w.cfg w.low (decide (g.stack = 0)) ⟨(w.classes c.cls).inputs,
      (w.classes c.cls).allow, g.inSlots c.cls⟩ c.args = .ok (ls, rest, k) → P (enter w c g k))
    (hrun : ∀ v g, P g → P (run v g).2) : P (invokeWith w c g run).2 := by
  unfold invokeWith
  simp only
  split
  · exact hg
  · rename_i ls rest k hb
    have := hrun ⟨ls, rest, (talibFlag w.talib c.kw).2, (talibFlag w.talib c.kw).1⟩ _ (henter ls rest k hb)
    split
    · rename_i hr
      rw [hr] at this
      exact this
    · rename_i hr
      rw [hr] at this
      split
      · exact this
      · exact hP _ _ this

/-- The slots a call leaves behind. -/
theorem bindInputs_slots (cfg : Config) (low : String → String) (top : Bool) (k : InCls) (args : List (Arg V)) (ls rest k')
    (h : bindInputs cfg low top k args = .ok (ls, rest, k')) :
    k'.slots = k.slots ∨ (k.allow ≠ 0 ∧ args.length < k.inputs.length ∧ k'.slots = k.slots.take k.allow ∧
      ∀ a, args.head? = some a → (∀ df, a ≠ .frame df) ∧ (∀ o, a ≠ .holder o)) := by
  have hk : ∃ b, fromArgs cfg low top k args = .ok b ∧ b.cls = k' := by
    unfold bindInputs at h
    cases hf : fromArgs cfg low top k args with
    | error e => simp [hf, bind, Except.bind] at h
    | ok b =>
      refine ⟨b, rfl, ?_⟩
      simp only [hf, bind, Except.bind] at h
      split at h
      · cases h
      · rename_i ls' hl
        split at h
        · cases h
        · cases h; rfl
  obtain ⟨b, hb, rfl⟩ := hk
  unfold fromArgs at hb
  split at hb
  · cases hb
  · rename_i a as
    split at hb
    · left
      cases hm : mkInputs cfg low ((a :: as).take k.inputs.length) k.inputs with
      | error e => simp [hm, bind, Except.bind] at hb
      | ok d => simp only [hm, bind, Except.bind] at hb; cases hb; rfl
    · rename_i hlen
      split at hb
      · left
        rename_i df
        cases hm : fromFrame cfg low top df k.inputs with
        | error e => simp [hm, bind, Except.bind] at hb
        | ok d => simp only [hm, bind, Except.bind] at hb; cases hb; rfl
      · left
        rename_i outs
        cases hm : fromHolder outs k.inputs with
        | error e => simp [hm, bind, Except.bind] at hb
        | ok d => simp only [hm, bind, Except.bind] at hb; cases hb; rfl
      · rename_i hf ho
        split at hb
        · cases hb
        · rename_i hal
          right
          cases hm : mkInputs cfg low ((a :: as).take k.allow) k.inputs with
          | error e => simp [hm, bind, Except.bind] at hb
          | ok d =>
            simp only [hm, bind, Except.bind] at hb
            cases hb
            refine ⟨hal, by omega, rfl, ?_⟩
            intro a' ha'
            simp only [List.head?_cons, Option.some.injEq] at ha'
            subst ha'
            exact ⟨hf, ho⟩

/-- A call which does not touch the classes: it does not take the `allowinputs` way and does not ask for outputs to be
appended. -/
def _root_.Spec.Plain (w : World) (c : Call V) : Prop :=
  ((w.classes c.cls).allow = 0 ∨ (w.classes c.cls).inputs.length ≤ c.args.length ∨
    (∃ df as, c.args = .frame df :: as) ∨ (∃ o as, c.args = .holder o :: as)) ∧
  ((w.classes c.cls).appends = [] ∨ (talibFlag w.talib c.kw).1 = false)

/-- A tree of such calls. -/
inductive _root_.Spec.PlainTree (w : World) : Body V → Prop
  | ret (o) : Spec.PlainTree w (.ret o)
  | raise (e) : Spec.PlainTree w (.raise e)
  | call (c inner next) (hc : Spec.Plain w c) (hi : ∀ v, Spec.PlainTree w (inner v)) (hn : ∀ r, Spec.PlainTree w (next r)) :
      Spec.PlainTree w (.call c inner next)

theorem updSlots_self (f : String → List String) (c : String) : updSlots f c (f c) = f := by
  funext n
  unfold updSlots
  split
  · rename_i h; rw [h]
  · rfl

theorem enter_plain (w : World) (c : Call V) (g : Glob) (hc : Spec.Plain w c) (ls rest k)
    (hb : bindInputs w.cfg w.low (decide (g.stack = 0)) ⟨(w.classes c.cls).inputs, (w.classes c.cls).allow, g.inSlots c.cls⟩
      c.args = .ok (ls, rest, k)) : (enter w c g k).inSlots = g.inSlots ∧ (enter w c g k).outSlots = g.outSlots := by
  have hs : k.slots = g.inSlots c.cls := by
    rcases bindInputs_slots _ _ _ _ _ _ _ _ hb with h | ⟨h1, h2, _, h3⟩
    · exact h
    · exfalso
      rcases hc.1 with h | h | ⟨df, as, h⟩ | ⟨o, as, h⟩
      · exact h1 h
      · simp only at h2; omega
      · exact (h3 (.frame df) (by rw [h]; rfl)).1 df rfl
      · exact (h3 (.holder o) (by rw [h]; rfl)).2 o rfl
  unfold enter
  simp only [hs, updSlots_self, true_and]
  rcases hc.2 with h | h
  · rw [h, List.append_nil, updSlots_self]
    split <;> rfl
  · rw [h]; rfl

theorem invokeWith_plain (w : World) (c : Call V) (g : Glob)
    (run : View V → Glob → Except Err (Dict String (Line V)) × Glob) (hc : Spec.Plain w c)
    (hrun : ∀ v g, (run v g).2.inSlots = g.inSlots ∧ (run v g).2.outSlots = g.outSlots) :
    (invokeWith w c g run).2.inSlots = g.inSlots ∧ (invokeWith w c g run).2.outSlots = g.outSlots :=
  invokeWith_inv (fun g' => g'.inSlots = g.inSlots ∧ g'.outSlots = g.outSlots) (fun _ _ h => h) w c g run ⟨rfl, rfl⟩
    (fun ls rest k hb => enter_plain w c g hc ls rest k hb)
    (fun v g' h => ⟨(hrun v g').1.trans h.1, (hrun v g').2.trans h.2⟩)

theorem exec_plain (w : World) (b : Body V) (hb : Spec.PlainTree w b) :
    ∀ g : Glob, (exec w b g).2.inSlots = g.inSlots ∧ (exec w b g).2.outSlots = g.outSlots := by
  induction b with
  | ret outs => intro g; exact ⟨rfl, rfl⟩
  | raise e => intro g; exact ⟨rfl, rfl⟩
  | call c inner next ih1 ih2 =>
    intro g
    cases hb with
    | call _ _ _ hc hi hn =>
      have h1 := invokeWith_plain w c g (fun v g => exec w (inner v) g) hc (fun v g => ih1 v (hi v) g)
      simp only [exec]
      split
      · rename_i e g' hx
        rw [hx] at h1
        exact h1
      · rename_i r g' hx
        rw [hx] at h1
        have h2 := ih2 r (hn r) g'
        exact ⟨h2.1.trans h1.1, h2.2.trans h1.2⟩

/-- Histories of plain calls which succeed, or fail when their inputs are bound. -/
inductive _root_.Spec.Regular (w : World) : List (Call V × (View V → Body V)) → Glob → Prop
  | nil (g) : Spec.Regular w [] g
  | ok (c b h g r) (hc : Spec.Plain w c) (hb : ∀ v, Spec.PlainTree w (b v)) (hr : (invoke w c b g).1 = .ok r)
      (ht : Spec.Regular w h (invoke w c b g).2) : Spec.Regular w ((c, b) :: h) g
  | rejected (c b h g e)
      (he : bindInputs w.cfg w.low (decide (g.stack = 0)) ⟨(w.classes c.cls).inputs, (w.classes c.cls).allow,
        g.inSlots c.cls⟩ c.args = .error e)
      (ht : Spec.Regular w h g) : Spec.Regular w ((c, b) :: h) g

theorem regular_history (w : World) (h : List (Call V × (View V → Body V))) (g : Glob) (hr : Spec.Regular w h g) :
    history w h g = g := by
  induction hr with
  | nil g => rfl
  | ok c b h g r hc hb hr ht ih =>
    have h1 : (invoke w c b g).2 = g := by
      have hp := invokeWith_plain w c g (fun v g => exec w (b v) g) hc (fun v g => exec_plain w (b v) (hb v) g)
      have hs := C57_success_partial w c b g (invoke w c b g).2 r (Prod.ext hr rfl)
      have e1 : (invoke w c b g).2.inSlots = g.inSlots := hp.1
      have e2 : (invoke w c b g).2.outSlots = g.outSlots := hp.2
      generalize (invoke w c b g).2 = g' at hs e1 e2
      cases g'
      cases g
      simp_all
    simp only [history]
    rw [ih, h1]
  | rejected c b h g e he ht ih =>
    simp only [history]
    rw [C57_bind_failure_partial w c b g e he]
    exact ih

/-- **C58**, what holds: after any history of calls which do not take the `allowinputs` way, do not append outputs, and
succeed or are rejected because of their inputs, every call has the very outcome it would have had at first. -/
theorem C58_history_partial (w : World) (h : List (Call V × (View V → Body V))) (g : Glob) (hr : Spec.Regular w h g)
    (c : Call V) (inner : View V → Body V) : invoke w c inner (history w h g) = invoke w c inner g := by
  rw [regular_history w h g hr]

/-! ### What goes wrong with `allowinputs` -/

theorem bindInputs_rest_cls (w : World) (c : Call V) (g : Glob) (ls rest k)
    (hb : bindInputs w.cfg w.low (decide (g.stack = 0)) ⟨(w.classes c.cls).inputs, (w.classes c.cls).allow, g.inSlots c.cls⟩
      c.args = .ok (ls, rest, k)) :
    k.slots = g.inSlots c.cls ∨ ((w.classes c.cls).allow ≠ 0 ∧ k.slots = (g.inSlots c.cls).take (w.classes c.cls).allow) := by
  rcases bindInputs_slots _ _ _ _ _ _ _ _ hb with h | ⟨h1, _, h2, _⟩
  · exact .inl h
  · exact .inr ⟨h1, h2⟩

/-- The property of the slots of one class: cut to what `allowinputs` says. -/
def Cut (w : World) (c : String) (s : List String) (g : Glob) : Prop := g.inSlots c = s ∧ s.length ≤ (w.classes c).allow

theorem invokeWith_cut (w : World) (c : Call V) (g : Glob)
    (run : View V → Glob → Except Err (Dict String (Line V)) × Glob) (n : String) (s : List String)
    (hg : Cut w n s g) (hrun : ∀ v g, Cut w n s g → Cut w n s (run v g).2) : Cut w n s (invokeWith w c g run).2 := by
  refine invokeWith_inv (Cut w n s) (fun _ _ h => h) w c g run hg ?_ hrun
  intro ls rest k hb
  refine ⟨?_, hg.2⟩
  simp only [enter, updSlots]
  split
  · rename_i hn
    rcases bindInputs_rest_cls w c g ls rest k hb with h | ⟨_, h⟩
    · rw [h, ← hn, hg.1]
    · rw [h, ← hn, hg.1, List.take_of_length_le (by rw [hn] at hg; exact hn ▸ hg.2)]
  · exact hg.1

theorem exec_cut (w : World) (b : Body V) (n : String) (s : List String) :
    ∀ g : Glob, Cut w n s g → Cut w n s (exec w b g).2 := by
  induction b with
  | ret outs => intro g hg; exact hg
  | raise e => intro g hg; exact hg
  | call c inner next ih1 ih2 =>
    intro g hg
    have h1 := invokeWith_cut w c g (fun v g => exec w (inner v) g) n s hg (fun v g h => ih1 v g h)
    simp only [exec]
    split
    · rename_i hx
      rw [hx] at h1
      exact h1
    · rename_i r g' hx
      rw [hx] at h1
      exact ih2 r g' h1

theorem history_cut (w : World) (h : List (Call V × (View V → Body V))) (n : String) (s : List String) :
    ∀ g : Glob, Cut w n s g → Cut w n s (history w h g) := by
  induction h with
  | nil => intro g hg; exact hg
  | cons x h ih =>
    intro g hg
    obtain ⟨c, b⟩ := x
    exact ih _ (invokeWith_cut w c g _ n s hg (fun v g h => exec_cut w (b v) n s g h))

/-- Binding of two series to a class cut to one input: the second one is not looked at. -/
theorem bindInputs_cut (cfg : Config) (low : String → String) (top : Bool) (i1 i2 : String) (allow : Nat) (h12 : i1 ≠ i2)
    (xs ys : List V) :
    bindInputs cfg low top ⟨[i1, i2], allow, [i1]⟩ [.series xs, .series ys] =
      .ok ([Line.ofSeries xs], [], ⟨[i1, i2], allow, [i1]⟩) := by
  have h1 : fromArgs cfg low top ⟨[i1, i2], allow, [i1]⟩ [.series xs, .series ys] =
      .ok ⟨[(i1, Line.ofSeries xs), (i2, Line.ofSeries ys)], [], ⟨[i1, i2], allow, [i1]⟩⟩ := rfl
  have h2 : inputLines (⟨[(i1, Line.ofSeries xs), (i2, Line.ofSeries ys)], [], ⟨[i1, i2], allow, [i1]⟩⟩ : Bound V) =
      .ok [Line.ofSeries xs] := by
    simp [inputLines, get?, pure, Except.pure, bind, Except.bind]
  unfold bindInputs
  rw [h1]
  simp only [bind, Except.bind]
  rw [h2]

/-- Binding of one series to an indicator with two inputs and `allowinputs = 1`. -/
theorem bindInputs_allow (cfg : Config) (low : String → String) (top : Bool) (i1 i2 : String) (s : List String) (xs : List V) :
    bindInputs cfg low top ⟨[i1, i2], 1, i1 :: s⟩ [.series xs] = .ok ([Line.ofSeries xs], [], ⟨[i1, i2], 1, [i1]⟩) := by
  have h1 : fromArgs cfg low top ⟨[i1, i2], 1, i1 :: s⟩ [.series xs] =
      .ok ⟨[(i1, Line.ofSeries xs)], [], ⟨[i1, i2], 1, [i1]⟩⟩ := rfl
  have h2 : inputLines (⟨[(i1, Line.ofSeries xs)], [], ⟨[i1, i2], 1, [i1]⟩⟩ : Bound V) = .ok [Line.ofSeries xs] := by
    simp [inputLines, get?, pure, Except.pure, bind, Except.bind]
  unfold bindInputs
  rw [h1]
  simp only [bind, Except.bind]
  rw [h2]

/-- C58 is violated: once an indicator which works on two inputs but accepts one (`allowinputs = 1`: mama and the Hilbert
transform family) has been called with one series, then, whatever is called in between, its second input is ignored for
ever: called with two series the result is that of the first series alone, for all data. -/
theorem C58_allowinputs (w : World) (cls i1 i2 : String) (h12 : i1 ≠ i2) (hc : w.classes cls = ⟨[i1, i2], 1, (w.classes cls).appends⟩)
    (g : Glob) (hg : g.inSlots cls = [i1, i2]) (xs : List V) (kw : Dict String PyVal) (inner : View V → Body V)
    (h : List (Call V × (View V → Body V))) (as bs : List V) (kw2 : Dict String PyVal) (inner2 : View V → Body V) :
    let g' := history w ((⟨cls, [.series xs], kw⟩, inner) :: h) g
    invoke w ⟨cls, [.series as, .series bs], kw2⟩ inner2 g' = invoke w ⟨cls, [.series as], kw2⟩ inner2 g' := by
  intro g'
  have hi : (w.classes cls).inputs = [i1, i2] := by rw [hc]
  have ha : (w.classes cls).allow = 1 := by rw [hc]
  have hcut : Cut w cls [i1] g' := by
    show Cut w cls [i1] (history w h (invoke w ⟨cls, [.series xs], kw⟩ inner g).2)
    apply history_cut
    have hb := bindInputs_allow w.cfg w.low (decide (g.stack = 0)) i1 i2 [i2] xs
    have h1 := exec_cut w (inner ⟨[Line.ofSeries xs], [], (talibFlag w.talib kw).2, (talibFlag w.talib kw).1⟩) cls [i1]
      (enter w ⟨cls, [.series xs], kw⟩ g ⟨[i1, i2], 1, [i1]⟩) ⟨by simp [enter, updSlots], by simp [ha]⟩
    unfold invoke invokeWith
    simp only [hi, ha, hg, hb]
    split
    · rename_i hr
      rw [hr] at h1
      exact h1
    · rename_i hr
      rw [hr] at h1
      split
      · exact h1
      · exact h1
  unfold invoke invokeWith
  simp only [hi, ha, hcut.1]
  rw [bindInputs_cut _ _ _ _ _ _ h12, bindInputs_allow _ _ _ _ _ []]
  rfl

/-- At first, the second input is there: the initialisers see two lines. -/
theorem C58_fresh_two (cfg : Config) (low : String → String) (top : Bool) (i1 i2 : String) (allow : Nat) (h12 : i1 ≠ i2)
    (xs ys : List V) :
    bindInputs cfg low top ⟨[i1, i2], allow, [i1, i2]⟩ [.series xs, .series ys] =
      .ok ([Line.ofSeries xs, Line.ofSeries ys], [], ⟨[i1, i2], allow, [i1, i2]⟩) := by
  have h1 : fromArgs cfg low top ⟨[i1, i2], allow, [i1, i2]⟩ [.series xs, .series ys] =
      .ok ⟨[(i1, Line.ofSeries xs), (i2, Line.ofSeries ys)], [], ⟨[i1, i2], allow, [i1, i2]⟩⟩ := rfl
  have h2 : inputLines (⟨[(i1, Line.ofSeries xs), (i2, Line.ofSeries ys)], [], ⟨[i1, i2], allow, [i1, i2]⟩⟩ : Bound V) =
      .ok [Line.ofSeries xs, Line.ofSeries ys] := by
    simp [inputLines, get?, h12, pure, Except.pure, bind, Except.bind]
  unfold bindInputs
  rw [h1]
  simp only [bind, Except.bind]
  rw [h2]

/-! ### What goes wrong with `stochrsi` in ta-lib mode -/

theorem enter_outSlots (w : World) (c : Call V) (g : Glob) (k : InCls) (n d : String) (hg : d ∈ g.outSlots n) :
    d ∈ (enter w c g k).outSlots n := by
  simp only [enter]
  split
  · unfold updSlots
    split
    · rename_i hn
      rw [← hn]
      exact List.mem_append_left _ hg
    · exact hg
  · exact hg

theorem invokeWith_outSlots (w : World) (c : Call V) (g : Glob)
    (run : View V → Glob → Except Err (Dict String (Line V)) × Glob) (n d : String) (hg : d ∈ g.outSlots n)
    (hrun : ∀ v g, d ∈ g.outSlots n → d ∈ (run v g).2.outSlots n) : d ∈ (invokeWith w c g run).2.outSlots n :=
  invokeWith_inv (fun g' => d ∈ g'.outSlots n) (fun _ _ h => h) w c g run hg
    (fun ls rest k hb => enter_outSlots w c g k n d hg) hrun

theorem exec_outSlots (w : World) (b : Body V) (n d : String) : ∀ g : Glob, d ∈ g.outSlots n → d ∈ (exec w b g).2.outSlots n := by
  induction b with
  | ret outs => intro g hg; exact hg
  | raise e => intro g hg; exact hg
  | call c inner next ih1 ih2 =>
    intro g hg
    have h1 := invokeWith_outSlots w c g (fun v g => exec w (inner v) g) n d hg (fun v g h => ih1 v g h)
    simp only [exec]
    split
    · rename_i hx
      rw [hx] at h1
      exact h1
    · rename_i r g' hx
      rw [hx] at h1
      exact ih2 r g' h1

theorem history_outSlots (w : World) (h : List (Call V × (View V → Body V))) (n d : String) :
    ∀ g : Glob, d ∈ g.outSlots n → d ∈ (history w h g).outSlots n := by
  induction h with
  | nil => intro g hg; exact hg
  | cons x h ih =>
    intro g hg
    obtain ⟨c, b⟩ := x
    exact ih _ (invokeWith_outSlots w c g _ n d hg (fun v g h => exec_outSlots w (b v) n d g h))

theorem mapM_get?_none {β : Type} (outs : Dict String β) (l : List String) (d : String) (hd : d ∈ l)
    (h : get? outs d = none) : l.mapM (get? outs) = none := by
  induction l with
  | nil => cases hd
  | cons a l ih =>
    rcases List.mem_cons.1 hd with rfl | hd
    · simp [List.mapM_cons, h]
    · rw [List.mapM_cons, ih hd]
      cases get? outs a <;> rfl

/-- C58 is violated: once an indicator whose ta-lib hook appends an output (stochrsi: `d`) has been called in ta-lib mode,
then, whatever is called in between, every later call which does not set this output (every call of stochrsi without
ta-lib mode) fails, for all data. -/
theorem C58_appended_output (w : World) (c : Call V) (d : String) (hd : d ∈ (w.classes c.cls).appends)
    (hf : (talibFlag w.talib c.kw).1 = true) (g : Glob) (x)
    (hb : bindInputs w.cfg w.low (decide (g.stack = 0)) ⟨(w.classes c.cls).inputs, (w.classes c.cls).allow, g.inSlots c.cls⟩
      c.args = .ok x) (inner : View V → Body V)
    (h : List (Call V × (View V → Body V))) (c2 : Call V) (hc2 : c2.cls = c.cls) (inner2 : View V → Body V)
    (hset : ∀ v g o g', exec w (inner2 v) g = (.ok o, g') → get? o d = none) (r : Res V) :
    (invoke w c2 inner2 (history w ((c, inner) :: h) g)).1 ≠ .ok r := by
  have hm : d ∈ (history w ((c, inner) :: h) g).outSlots c.cls := by
    show d ∈ (history w h (invoke w c inner g).2).outSlots c.cls
    apply history_outSlots
    obtain ⟨ls, rest, k⟩ := x
    have h1 : d ∈ (enter w c g k).outSlots c.cls := by simp [enter, hf, updSlots, hd]
    have h2 := exec_outSlots w (inner ⟨ls, rest, (talibFlag w.talib c.kw).2, (talibFlag w.talib c.kw).1⟩) c.cls d _ h1
    unfold invoke invokeWith
    simp only [hb]
    split
    · rename_i hr
      rw [hr] at h2
      exact h2
    · rename_i hr
      rw [hr] at h2
      split
      · exact h2
      · exact h2
  generalize history w ((c, inner) :: h) g = g0 at hm
  intro hr
  unfold invoke invokeWith at hr
  simp only at hr
  split at hr
  · cases hr
  · rename_i ls rest k hb2
    split at hr
    · cases hr
    · rename_i outs g2 hx
      have h3 : d ∈ g2.outSlots c2.cls := by
        have := exec_outSlots w (inner2 ⟨ls, rest, (talibFlag w.talib c2.kw).2, (talibFlag w.talib c2.kw).1⟩) c2.cls d
          (enter w c2 g0 k) (enter_outSlots w c2 g0 k c2.cls d (by rw [hc2]; exact hm))
        rw [hx] at this
        exact this
      rw [mapM_get?_none outs _ d h3 (hset _ _ _ _ hx)] at hr
      cases hr

/-! ## C59: threads -/

/-- C59 is violated: in every thread but the one which imported the library every call raises AttributeError, whatever the
schedule and the arguments. -/
theorem C59_other_threads (w : World) (t0 : Nat) (l : List (Nat × Call V × (View V → Body V))) (g : MGlob)
    (hg : ∀ t, t ≠ t0 → g.stackOf t = none) (t : Nat) (r : Except Err (Res V)) (ht : t ≠ t0)
    (hr : (t, r) ∈ (schedule w l g).1) : r = .error .attributeError := by
  induction l generalizing g with
  | nil => cases hr
  | cons x l ih =>
    obtain ⟨s, c, b⟩ := x
    simp only [schedule, List.mem_cons, Prod.mk.injEq] at hr
    rcases hr with ⟨rfl, rfl⟩ | hr
    · simp [mcall, hg t ht]
    · refine ih (mcall w s c b g).2 ?_ hr
      intro t ht
      unfold mcall
      split
      · exact hg t ht
      · rename_i n hs
        simp only
        split
        · rename_i hts
          subst hts
          rw [hg t ht] at hs
          cases hs
        · exact hg t ht

/-- The results of consecutive calls in one thread. -/
def results (w : World) : List (Call V × (View V → Body V)) → Glob → List (Except Err (Res V))
  | [], _ => []
  | (c, b) :: h, g => (invoke w c b g).1 :: results w h (invoke w c b g).2

/-- **C59**, what holds: for every schedule, the thread which imported the library gets the results it would get if there
were no other threads. -/
theorem C59_importer_partial (w : World) (t0 : Nat) (l : List (Nat × Call V × (View V → Body V))) (g : MGlob) (n : Nat)
    (h0 : g.stackOf t0 = some n) (hg : ∀ t, t ≠ t0 → g.stackOf t = none) :
    ((schedule w l g).1.filter (fun p => p.1 = t0)).map Prod.snd =
      results w ((l.filter (fun p => p.1 = t0)).map Prod.snd) ⟨n, g.inSlots, g.outSlots⟩ := by
  induction l generalizing g n with
  | nil => rfl
  | cons x l ih =>
    obtain ⟨s, c, b⟩ := x
    by_cases hs : s = t0
    · subst hs
      have hm : mcall w s c b g = ((invoke w c b ⟨n, g.inSlots, g.outSlots⟩).1,
          ⟨fun t => if t = s then some (invoke w c b ⟨n, g.inSlots, g.outSlots⟩).2.stack else g.stackOf t,
            (invoke w c b ⟨n, g.inSlots, g.outSlots⟩).2.inSlots, (invoke w c b ⟨n, g.inSlots, g.outSlots⟩).2.outSlots⟩) := by
        simp [mcall, h0]
      simp only [schedule, hm, List.filter_cons, decide_true, if_true, List.map_cons, results, List.cons.injEq, true_and]
      exact ih _ _ (by simp) (fun t ht => by simp [ht, hg t ht])
    · have hm : mcall w s c b g = (.error .attributeError, g) := by simp [mcall, hg s hs]
      simp only [schedule, hm, List.filter_cons, hs, decide_false]
      exact ih g n h0 hg

/-! The hypotheses hold after `import btalib` in any thread. -/

/-- C59 is violated by the library as it is imported by the thread `t0`: for every schedule of calls, the other threads only get
AttributeErrors. -/
theorem C59_imported (w : World) (t0 : Nat) (i o : String → List String) (l : List (Nat × Call V × (View V → Body V))) (t : Nat)
    (r : Except Err (Res V)) (ht : t ≠ t0) (hr : (t, r) ∈ (schedule w l (MGlob.imported t0 i o)).1) :
    r = .error .attributeError :=
  C59_other_threads w t0 l _ (by intro t ht; simp [MGlob.imported, ht]) t r ht hr

/-- **C59**, what holds of the library as it is imported by the thread `t0`: this thread gets what it gets on its own. -/
theorem C59_imported_partial (w : World) (t0 : Nat) (i o : String → List String) (l : List (Nat × Call V × (View V → Body V))) :
    ((schedule w l (MGlob.imported t0 i o)).1.filter (fun p => p.1 = t0)).map Prod.snd =
      results w ((l.filter (fun p => p.1 = t0)).map Prod.snd) ⟨0, i, o⟩ :=
  C59_importer_partial w t0 l _ 0 (by simp [MGlob.imported]) (by intro t ht; simp [MGlob.imported, ht])

/-! ## Concrete cases -/

namespace Ex

/-- Three classes: `typprice` with three inputs, `mama` with two and `allowinputs`, `stochrsi`. -/
def world : World where
  cfg := defaultConfig
  low := id
  classes := fun c => if c = "mama" then ⟨["high", "low"], 1, []⟩ else if c = "stochrsi" then ⟨["close"], 0, ["d"]⟩
    else ⟨["high", "low", "close"], 0, []⟩
  talib := false
  retDf := true

def g0 : Glob := ⟨0, fun c => (world.classes c).inputs, fun c => if c = "mama" then ["mama"] else
  if c = "stochrsi" then ["stochrsi"] else ["tp"]⟩

def frame : Frame Int := ⟨[("high", [3, 5]), ("low", [1, 2]), ("close", [2, 4])]⟩

/-- An initialiser which sets its only output to the sum of its inputs. -/
def sums (o : String) (v : View Int) : Body Int :=
  .ret [(o, ⟨v.lines.foldl (fun acc l => List.zipWith (· + ·) acc l.series) [0, 0], 1⟩)]

/-- One that raises after having evaluated another indicator. -/
def bad (v : View Int) : Body Int := .call ⟨"mama", v.lines.take 2 |>.map .line, []⟩ (sums "mama") (fun _ => .raise .typeError)

/-- The DataFrame is accepted at first, and not after a failed call. -/
example : ((invoke world ⟨"typprice", [.frame frame], []⟩ (sums "tp") g0).1.toOption.map
      (fun r => (r.outs.map (·.series), r.df)) = some ([[6, 11]], true)) ∧
    ((invoke world ⟨"typprice", [.frame frame], []⟩ (sums "tp")
      (history world [(⟨"typprice", [.frame frame], []⟩, bad)] g0)).1.toOption.map (fun r => r.df) = none) := by decide +kernel

/-- The hypotheses of `C57_poisoned` are met. -/
example (h : List (Call Int × (View Int → Body Int))) :
    (invoke world ⟨"typprice", [.frame frame], []⟩ (sums "tp")
      (history world ((⟨"typprice", [.frame frame], []⟩, bad) :: h) g0)).1 = .error .pandasNotTopStack :=
  C57_poisoned world ⟨"typprice", [.frame frame], []⟩ bad g0
    ([⟨[3, 5], 1⟩, ⟨[1, 2], 1⟩, ⟨[2, 4], 1⟩], [], ⟨["high", "low", "close"], 0, ["high", "low", "close"]⟩) .typeError rfl rfl
    h _ _ frame [] rfl (by decide)

/-- The second input of `mama` before and after a call with one series. -/
example : ((invoke world ⟨"mama", [.series [1, 2], .series [10, 20]], []⟩ (sums "mama") g0).1.toOption.map
      (fun r => r.outs.map (·.series)) = some [[11, 22]]) ∧
    ((invoke world ⟨"mama", [.series [1, 2], .series [10, 20]], []⟩ (sums "mama")
      (history world [(⟨"mama", [.series [7, 7]], []⟩, sums "mama")] g0)).1.toOption.map
      (fun r => r.outs.map (·.series)) = some [[1, 2]]) := by decide +kernel

/-- A regular history. -/
example : Spec.Regular world [(⟨"typprice", [.frame frame], []⟩, sums "tp"), (⟨"typprice", [], []⟩, sums "tp")] g0 := by
  refine .ok _ _ _ _ ⟨[⟨[6, 11], 1⟩], true⟩ ⟨.inl rfl, .inl rfl⟩ (fun v => .ret _) rfl ?_
  exact .rejected _ _ _ _ .oneInputNeeded rfl (.nil _)

end Ex

end Bta.Meta
