import Verif.Props.Registry
import Verif.Props.Call

/-!
# The classes of the library: aliases and groups (C61), names used by the initialisers (C62),
arguments which are left over (C81), and which classes the theorems about the call protocol (C58, C60) speak of
-/

set_option linter.unusedSectionVars false
set_option linter.unusedVariables false

namespace Bta.Meta

open Py

variable {V : Type}

/-- The aliases of the library which belong to another indicator. -/
def _root_.Spec.hijacked : List (String × String × String) :=
  [("wclprice", "WCLPrice", "medprice"), ("wclprice", "WeightedClosePrice", "medprice"),
   ("wclprice", "WCLPRICE", "medprice"), ("wclprice", "weightedcloseprice", "medprice"),
   ("truehigh", "TR", "truerange"), ("truehigh", "TrueRange", "truerange"),
   ("truehigh", "trange", "truerange"), ("truehigh", "TRANGE", "truerange"),
   ("truelow", "TR", "truerange"), ("truelow", "TrueRange", "truerange"),
   ("truelow", "trange", "truerange"), ("truelow", "TRANGE", "truerange"),
   ("sar", "SAR", "sarext"), ("sar", "psar", "sarext"), ("sar", "ParabolicStopAndReverse", "sarext")]

set_option maxRecDepth 100000 in
theorem alias_table : library.flatMap (fun r => r.alias.filterMap (fun a =>
      match get? (package libraryModules) a with
      | some (.cls c) => if c = r.name then none else some (r.name, a, c)
      | some (.mod m) => some (r.name, a, "module " ++ m)
      | none => some (r.name, a, "nothing"))) = Spec.hijacked := by decide +kernel

/-- **C61**, what holds for the library: all aliases of all indicators but the fifteen in the list stand for the
indicator which declares them. -/
theorem C61_alias_partial (r : Row) (hr : r ∈ library) (a : String) (ha : a ∈ r.alias)
    (hx : ∀ c, (r.name, a, c) ∉ Spec.hijacked) : get? (package libraryModules) a = some (.cls r.name) := by
  rw [← alias_table] at hx
  simp only [List.mem_flatMap, List.mem_filterMap, not_exists, not_and] at hx
  have h := fun c => hx c r hr a ha
  cases hg : get? (package libraryModules) a with
  | none => rw [hg] at h; exact absurd rfl (h _)
  | some v => cases v with
    | mod m => rw [hg] at h; exact absurd rfl (h _)
    | cls c =>
      rw [hg] at h
      by_cases hc : c = r.name
      · rw [hc]
      · exact absurd (if_neg hc) (h c)

/-- C61 is violated by the fifteen: they are declared by one indicator and stand for another one. -/
theorem C61_hijacked (n a c : String) (h : (n, a, c) ∈ Spec.hijacked) :
    (∃ r ∈ library, r.name = n ∧ a ∈ r.alias) ∧ get? (package libraryModules) a = some (.cls c) ∧ c ≠ n := by
  have h' := h
  rw [← alias_table] at h
  simp only [List.mem_flatMap, List.mem_filterMap] at h
  obtain ⟨r, hr, b, hb, he⟩ := h
  have hno : c ≠ "nothing" ∧ ∀ m, c ≠ "module " ++ m := by
    simp only [Spec.hijacked, List.mem_cons, Prod.mk.injEq, List.not_mem_nil, or_false] at h'
    have : c = "medprice" ∨ c = "truerange" ∨ c = "sarext" := by
      rcases h' with h|h|h|h|h|h|h|h|h|h|h|h|h|h|h <;> simp [h.2.2]
    have hm : ∀ m : String, ("module " ++ m).toList.head? = some 'm' ∧ ("module " ++ m).toList[1]? = some 'o' := by
      intro m
      rw [String.toList_append]
      exact ⟨rfl, rfl⟩
    rcases this with rfl | rfl | rfl
    · refine ⟨by decide, fun m e => ?_⟩
      have := (hm m).2
      rw [← e] at this
      revert this
      decide +kernel
    · refine ⟨by decide, fun m e => ?_⟩
      have := (hm m).1
      rw [← e] at this
      revert this
      decide +kernel
    · refine ⟨by decide, fun m e => ?_⟩
      have := (hm m).1
      rw [← e] at this
      revert this
      decide +kernel
  split at he
  · rename_i c' hg
    by_cases hc : c' = r.name
    · rw [if_pos hc] at he; cases he
    · rw [if_neg hc] at he
      simp only [Option.some.injEq, Prod.mk.injEq] at he
      obtain ⟨rfl, rfl, rfl⟩ := he
      exact ⟨⟨r, hr, rfl, hb⟩, hg, hc⟩
  · simp only [Option.some.injEq, Prod.mk.injEq] at he
    exact absurd he.2.2.symm (hno.2 _)
  · simp only [Option.some.injEq, Prod.mk.injEq] at he
    exact absurd he.2.2.symm hno.1

set_option maxRecDepth 100000 in
/-- **C61**: every class name stands for the class (no alias and no submodule takes it away). -/
theorem C61_name (r : Row) (hr : r ∈ library) : get? (package libraryModules) r.name = some (.cls r.name) := by
  revert r
  decide +kernel

/-- A concrete case of `C61_alias_partial`. -/
example : get? (package libraryModules) "RSI" = some (.cls "rsi") :=
  C61_alias_partial row_rsi (by decide +kernel) "RSI" (by decide) (by
    intro c h
    simp [Spec.hijacked, row_rsi] at h)

set_option maxRecDepth 100000 in
/-- C61 is violated: exactly `cmo`, `smacc` and `mom` are registered under no group although they declare one, under the
name `groups`, which is not read. -/
theorem C61_ungrouped :
    (library.filter (fun r => isPrivate r.name = false ∧
        ∀ p ∈ (registry library).groups, r.name ∉ p.2)).map (fun r => (r.name, r.groups)) =
      [("cmo", some ["momentum"]), ("smacc", some ["overlap"]), ("mom", some ["momentum"])] := by decide +kernel

set_option maxRecDepth 100000 in
/-- The hypotheses of the group theorems are met by the library, and it is found through them that `adxr` is under
momentum although the group is declared five classes above. -/
theorem library_names_nodup : (library.map (·.name)).Nodup := by decide +kernel

set_option maxRecDepth 100000 in
example : "adxr" ∈ (get? (registry library).groups "momentum").getD [] :=
  (C61_group_listed library library_names_nodup _ _).2 ⟨⟨row_adxr, by decide +kernel, rfl⟩, by decide +kernel, by decide +kernel⟩

set_option maxRecDepth 100000 in
theorem names_table : ∀ r ∈ library, r.name ≠ "truehigh" → chkNames (libChain r.name) = true := by decide +kernel

/-- **C62**, what holds: the initialisers of every indicator of the library except `truehigh` find, for all data and in
all branches, every input and output they read, and leave no output unset: all the outputs are delivered. -/
theorem C62_names_partial (r : Row) (hr : r ∈ library) (hx : r.name ≠ "truehigh") (ins : Dict String V)
    (hin : ∀ s ∈ (inGen (libChain r.name)).lines, (get? ins s).isSome) (env : Nat → Bool × V) :
    ∃ vs, runNames (libChain r.name) ins env = .ok vs ∧ vs.length = (outGen (libChain r.name)).lines.length :=
  chkNames_sound _ (names_table r hr hx) ins hin env

set_option maxRecDepth 100000 in
theorem truehigh_chain : libChain "truehigh" = [row_truehigh, indicatorRow] := by decide +kernel

/-- C62 is violated: `truehigh` raises AttributeError for all data, because it reads an input (`high`) it does not
declare (`low`, `close`). -/
theorem C62_truehigh (ins : Dict String V) (hin : keys ins = (inGen (libChain "truehigh")).lines) (env : Nat → Bool × V) :
    runNames (libChain "truehigh") ins env = .error .attributeError := by
  rw [truehigh_chain] at hin ⊢
  have hl : (inGen [row_truehigh, indicatorRow]).lines = ["low", "close"] := by decide +kernel
  have hr : (inGen [row_truehigh, indicatorRow]).resolve "high" = some "high" := by decide +kernel
  have hc : (inGen [row_truehigh, indicatorRow]).resolve "close" = some "close" := by decide +kernel
  have ha : ([row_truehigh, indicatorRow].reverse.flatMap (·.acc)) = row_truehigh.acc := by decide +kernel
  have hh : get? ins "high" = none := by
    rw [get?_eq_none_iff, hin, hl]
    decide
  unfold runNames
  rw [ha]
  have : ∃ l, row_truehigh.acc = .iread "close" :: .iread "high" :: l ∨ row_truehigh.acc = .iread "high" :: l := by
    exact ⟨_, by exact .inl rfl⟩
  obtain ⟨l, h | h⟩ := this
  · rw [h]
    have hcl : ∃ v, (inGen [row_truehigh, indicatorRow]).getattr ins "close" = .ok v := by
      refine getattr_ok _ _ _ ["close"] (by rw [hc]; decide) ?_
      intro s hs
      simp only [List.mem_singleton] at hs
      subst hs
      have : "close" ∈ keys ins := by rw [hin, hl]; decide
      by_contra hcon
      simp only [Bool.not_eq_true, Option.isSome_eq_false_iff, Option.isNone_iff_eq_none] at hcon
      exact (get?_eq_none_iff.1 hcon) this
    obtain ⟨v, hv⟩ := hcl
    have hg : (inGen [row_truehigh, indicatorRow]).getattr ins "high" = .error .attributeError := by
      simp [LGen.getattr, hr, hh]
    simp [runAccs, runAcc, hv, hg, Except.bind, Except.map]
  · rw [h]
    simp [runAccs, runAcc, Except.bind, Except.map, LGen.getattr, hr, hh]

/-- Concrete: the directional movement index, six classes deep. -/
example : ∃ vs, runNames (libChain "adxr") [("high", 3), ("low", 1), ("close", 2)] (fun i => (i % 2 = 0, i)) = .ok vs ∧
    vs.length = 1 := by
  have h : (outGen (libChain "adxr")).lines.length = 1 := by decide +kernel
  rw [← h]
  exact C62_names_partial row_adxr (by decide +kernel) (by decide) _ (by decide +kernel) _

/-! ## Arguments which are left over -/

set_option maxRecDepth 100000 in
theorem strict_table : ∀ r ∈ library, r.name ≠ "ewma" → r.name ≠ "minmaxindex" →
    ∃ x ∈ libChain r.name, x.init = true ∧ x.anykw = false ∧ x.name ≠ "Indicator" := by decide +kernel

/-- **C81**: a keyword which is not known is never ignored: for every indicator of the library but `ewma` (which hands its
keywords on to pandas) and `minmaxindex` (which hands them on to `minindex`), a keyword which is left over after the
parameters have been taken out and is no argument of an initialiser of the hierarchy raises TypeError, whatever else is
passed. -/
theorem C81_unknown_keyword_partial (r : Row) (hr : r ∈ library) (h1 : r.name ≠ "ewma") (h2 : r.name ≠ "minmaxindex")
    (npos : Nat) (kws : List String) (k : String) (hk : k ∈ kws) (hn : ∀ x ∈ libChain r.name, k ∉ x.kws) :
    initCheck (libChain r.name) npos kws = .error .typeError := by
  obtain ⟨x, hx, hi, ha, hI⟩ := strict_table r hr h1 h2
  unfold initCheck
  rw [if_neg]
  intro hall
  rw [List.all_eq_true] at hall
  have := hall x (List.mem_filter.2 ⟨List.mem_reverse.2 hx, hi⟩)
  simp only [takes, if_neg hI, Bool.and_eq_true, List.all_eq_true] at this
  have hc := this.2 k hk
  simp only [ha, Bool.false_and, Bool.or_false, decide_eq_true_eq] at hc
  exact hn x hx (List.mem_of_mem_drop hc)

set_option maxRecDepth 100000 in
theorem noarg_table : ∀ r ∈ library, r.name ∉ ["ema", "gdema", "mad", "stochrsi"] →
    ∃ x ∈ libChain r.name, x.init = true ∧ x.kws = [] ∧ x.name ≠ "Indicator" := by decide +kernel

/-- **C81**: a positional argument after the inputs is rejected, by every indicator of the library but four. -/
theorem C81_extra_positional_partial (r : Row) (hr : r ∈ library) (h : r.name ∉ ["ema", "gdema", "mad", "stochrsi"])
    (npos : Nat) (hp : 1 ≤ npos) (kws : List String) : initCheck (libChain r.name) npos kws = .error .typeError := by
  obtain ⟨x, hx, hi, ha, hI⟩ := noarg_table r hr h
  unfold initCheck
  rw [if_neg]
  intro hall
  rw [List.all_eq_true] at hall
  have := hall x (List.mem_filter.2 ⟨List.mem_reverse.2 hx, hi⟩)
  simp only [takes, if_neg hI, Bool.and_eq_true, decide_eq_true_eq, ha, List.length_nil] at this
  omega

set_option maxRecDepth 100000 in
/-- C81 is violated by the four: `ema(data, 20)` does not fail and does not set the period, the 20 is taken for the internal
argument (`poffset`, `_gd`, `mean`, `_pfast`). -/
theorem C81_taken (n : String) (h : n ∈ ["ema", "gdema", "mad", "stochrsi"]) :
    initCheck (libChain n) 1 [] = .ok () ∧
      ∃ r ∈ libChain n, r.kws ∈ [["poffset"], ["_gd"], ["mean"], ["_pfast", "_ma"]] ∧ "period" ∉ r.kws := by
  simp only [List.mem_cons, List.not_mem_nil, or_false] at h
  rcases h with rfl | rfl | rfl | rfl <;> exact ⟨rfl, by decide +kernel⟩

set_option maxRecDepth 100000 in
/-- Concrete: `rsi(data, perod=20)`. -/
example : initCheck (libChain "rsi") 0 ["perod"] = .error .typeError :=
  C81_unknown_keyword_partial row_rsi (by decide +kernel) (by decide) (by decide) 0 ["perod"] "perod" (by simp)
    (by decide +kernel)

/-! ## The classes C58 and C60 speak of -/

set_option maxRecDepth 100000 in
/-- C58: these are the classes with `allowinputs`, all of them with the inputs high and low: the hypotheses of
`C58_allowinputs` describe them. -/
theorem C58_allowinputs_classes :
    (library.filter (fun r => r.allow ≠ 0)).map (fun r => (r.name, (inGen (libChain r.name)).lines, r.allow)) =
      ["mama", "ht_trendline", "ht_dcperiod", "ht_dcphase", "ht_phasor", "ht_sine", "ht_trendmode"].map
        (fun n => (n, ["high", "low"], 1)) := by decide +kernel

set_option maxRecDepth 100000 in
/-- C60: `minmaxindex` is the only class with a hook which gives `_talib` back. -/
theorem C60_talib_key_classes :
    (library.filter (fun r => (libChain r.name).any (fun x => decide ("_talib" ∈ x.sets)))).map (·.name) = ["minmaxindex"] := by
  decide +kernel

end Bta.Meta
