import Verif.Lemmas.Level3
import Mathlib.Analysis.Real.Sqrt

/-!
# C103: the level of prices

`Spec.raiseIn`, `Spec.levelOut` (Spec/Level.lean) say what is added to the inputs and outputs of a call if an amount is added to all
prices; `Spec.raised` is a line with an amount added.  The lines are arbitrary: any length, missing values and infinities anywhere.
-/

set_option linter.unusedSectionVars false
set_option linter.unusedVariables false

namespace Bta
open Line

variable {K : Type} [Field K] [LinearOrder K] [IsStrictOrderedRing K]

/-- **C103** whatever the data: with an amount `k` added to all prices a call gives the same lines with the amounts of its outputs
added, and raises if and only if it raised before, with the same exception. -/
theorem C103_level (k : K) (x : ℕ → Line (Ext K)) (c : Call (Ext K)) {ks : List K}
    (hc : Spec.levelOut k c = some ks) (hp : Spec.levelParams c) :
    c.run (fun i => Spec.raised (Spec.raiseIn k c i) (x i)) = (c.run x).map (List.zipWith Spec.raised ks) :=
  Lv.call x c ks hc hp

/-- the indicators which look at differences of prices only: oscillators, ranges, dispersions, indices, signals -/
def _root_.Spec.levelFree (c : Call (Ext K)) : Prop := ∀ k : K, Spec.levelOut k c = some [0] ∨
  Spec.levelOut k c = some [0, 0] ∨ Spec.levelOut k c = some [0, 0, 0]

theorem Lv.call_len (c : Call (Ext K)) (x : ℕ → Line (Ext K)) {k : K} {ks : List K} (hc : Spec.levelOut k c = some ks)
    {r : List (Line (Ext K))} (hr : c.run x = .ok r) : r.length = ks.length := by
  have o : ∀ {l m : List K}, some l = some m → l = m := fun h => Option.some.inj h
  have l1 : ∀ {y : Except Err (Line (Ext K))}, oneE y = .ok r → r.length = 1 := by
    intro y h; cases y with
    | error e => exact nomatch h
    | ok l => injection h with h; subst h; rfl
  have l2 : ∀ {y : Except Err (Line (Ext K) × Line (Ext K))}, twoE y = .ok r → r.length = 2 := by
    intro y h; cases y with
    | error e => exact nomatch h
    | ok l => injection h with h; subst h; rfl
  have l3 : ∀ {y : Except Err (Line (Ext K) × Line (Ext K) × Line (Ext K))}, threeE y = .ok r → r.length = 3 := by
    intro y h; cases y with
    | error e => exact nomatch h
    | ok l => injection h with h; subst h; rfl
  have k1 : ∀ {y : Line (Ext K)}, Bta.one y = .ok r → r.length = 1 := by
    intro y h; injection h with h; subst h; rfl
  have k2 : ∀ {y z : Line (Ext K)}, (Except.ok [y, z] : Except Err (List (Line (Ext K)))) = .ok r → r.length = 2 := by
    intro y z h; injection h with h; subst h; rfl
  cases c with
  | avg m p => cases m <;> first | exact nomatch (show (none : Option (List K)) = some ks from hc) | (obtain rfl := o hc; exact l1 hr)
  | avgprice d => cases d <;> first | (obtain rfl := o hc; exact k1 hr) | exact nomatch (show (none : Option (List K)) = some ks from hc)
  | typprice d => cases d <;> first | (obtain rfl := o hc; exact k1 hr) | exact nomatch (show (none : Option (List K)) = some ks from hc)
  | wclprice w d =>
    cases w <;> cases d <;> first | (obtain rfl := o hc; exact k1 hr) | exact nomatch (show (none : Option (List K)) = some ks from hc)
  | medprice d => cases d <;> first | (obtain rfl := o hc; exact k1 hr) | exact nomatch (show (none : Option (List K)) = some ks from hc)
  | _ =>
    first
      | exact nomatch (show (none : Option (List K)) = some ks from hc)
      | (obtain rfl := o hc
         first
          | exact k1 hr
          | exact l1 hr
          | exact k2 hr
          | exact l2 hr
          | exact l3 hr)

/-- **C103** such indicators give the very same lines, whatever the level of the prices -/
theorem C103_level_free (k : K) (x : ℕ → Line (Ext K)) (c : Call (Ext K)) (hc : Spec.levelFree c) (hp : Spec.levelParams c) :
    c.run (fun i => Spec.raised (Spec.raiseIn k c i) (x i)) = c.run x := by
  have key : ∀ ks : List K, Spec.levelOut k c = some ks → (∀ w ∈ ks, w = 0) →
      c.run (fun i => Spec.raised (Spec.raiseIn k c i) (x i)) = c.run x := by
    intro ks h1 h2
    rw [C103_level k x c h1 hp]
    cases hr : c.run x with
    | error e => rfl
    | ok r =>
      have hl := Lv.call_len c x h1 hr
      show Except.ok _ = Except.ok _
      congr 1
      refine List.ext_getElem (by simp [hl]) fun i h3 h4 => ?_
      rw [List.getElem_zipWith, h2 _ (List.getElem_mem _), Lv.zero]
  rcases hc k with h | h | h
  · exact key _ h (by simp)
  · exact key _ h (by simp)
  · exact key _ h (by simp)

/-- Bollinger bands go up with the prices, whatever is taken for the square root, ... -/
example (root : Ext ℚ → Ext ℚ) (x : ℕ → Line (Ext ℚ)) :
    (Call.bbands root .sma (.fin 2) 20).run (fun i => Spec.raised 7 (x i)) =
      ((Call.bbands root .sma (.fin 2) 20).run x).map (List.zipWith Spec.raised [7, 7, 7]) :=
  C103_level 7 x (.bbands root .sma (.fin 2) 20) rfl trivial

/-- ... and so does the parabolic stop-and-reverse; ... -/
example (x : ℕ → Line (Ext ℚ)) :
    (Call.sar (.fin (2 / 100)) (.fin (2 / 10))).run (fun i => Spec.raised 7 (x i)) =
      ((Call.sar (.fin (2 / 100)) (.fin (2 / 10))).run x).map (List.zipWith Spec.raised [7]) :=
  C103_level 7 x (.sar (.fin (2 / 100)) (.fin (2 / 10))) rfl trivial

/-- ... the relative strength index is the same, ... -/
example (x : ℕ → Line (Ext ℚ)) :
    (Call.rsi (.smma .avg) 1 14).run (fun i => Spec.raised 7 (x i)) = (Call.rsi (.smma .avg) 1 14).run x :=
  C103_level_free 7 x (.rsi (.smma .avg) 1 14) (fun _ => Or.inl rfl) trivial

/-- ... and so is the moving average convergence/divergence. -/
example (x : ℕ → Line (Ext ℚ)) :
    (Call.macd (.ema .avg 0) (.ema .avg 0) (.ema .avg 0) 12 26 9).run (fun i => Spec.raised 7 (x i)) =
      (Call.macd (.ema .avg 0) (.ema .avg 0) (.ema .avg 0) 12 26 9).run x :=
  C103_level_free 7 x (.macd (.ema .avg 0) (.ema .avg 0) (.ema .avg 0) 12 26 9) (fun _ => Or.inr (Or.inr rfl))
    ⟨⟨by norm_num, trivial⟩, by norm_num, trivial⟩

/-- the accumulation/distribution line too, with the volume as it is -/
example (x : ℕ → Line (Ext ℚ)) :
    Call.ad.run (fun i => Spec.raised (if i ≤ 2 then 7 else 0) (x i)) = Call.ad.run x :=
  C103_level_free 7 x .ad (fun _ => Or.inl rfl) trivial

/-! ## The others -/

/-- by how much the values of the first output differ, where both are numbers -/
def gaps : Except Err (List (Line (Ext ℚ))) → Except Err (List (Line (Ext ℚ))) → List ℚ
  | .ok (l :: _), .ok (l' :: _) => (List.zip l.series l'.series).filterMap fun
    | (.fin a, .fin b) => some (b - a)
    | _ => none
  | _, _ => []

theorem gaps_raised (r : Except Err (List (Line (Ext ℚ)))) (ks : List ℚ) :
    ∃ w, ∀ g ∈ gaps r (r.map (List.zipWith Spec.raised ks)), g = w := by
  cases r with
  | error e => exact ⟨0, by simp [gaps]⟩
  | ok ls =>
    cases ls with
    | nil => exact ⟨0, by simp [gaps]⟩
    | cons l t =>
      cases ks with
      | nil => exact ⟨0, by simp [gaps, Except.map]⟩
      | cons w ws =>
        refine ⟨w, fun g hg => ?_⟩
        have hg' : g ∈ (List.zip l.series (l.series.map (Ext.up w))).filterMap (fun
            | (Ext.fin a, Ext.fin b) => some (b - a)
            | _ => none) := hg
        rw [List.mem_filterMap] at hg'
        obtain ⟨⟨a, b⟩, hm, he⟩ := hg'
        rw [List.zip_map_right, List.mem_map] at hm
        obtain ⟨⟨c, d⟩, hm, h2⟩ := hm
        have hcd : c = d := by
          obtain ⟨i, hi, h⟩ := List.getElem_of_mem hm
          rw [List.getElem_zip] at h
          injection h with h3 h4
          exact h3.symm.trans h4
        subst hcd
        injection h2 with h3 h4
        dsimp only [id, Prod.map] at h3 h4
        subst h3; subst h4
        cases c with
        | fin z => simp only [Ext.up, Option.some.injEq] at he; rw [← he]; ring
        | _ => exact absurd he (by simp)

theorem not_level {r r' : Except Err (List (Line (Ext ℚ)))} {a b : ℚ} (ha : a ∈ gaps r r') (hb : b ∈ gaps r r') (hab : a ≠ b) :
    ∀ ks, r' ≠ r.map (List.zipWith Spec.raised ks) := by
  intro ks e
  subst e
  obtain ⟨w, h⟩ := gaps_raised r ks
  exact hab ((h a ha).trans (h b hb).symm)

/-- bars for the negative results: high, low, close, volume -/
def bars103 : ℕ → Line (Ext ℚ)
  | 0 => ⟨[.fin 11, .fin 13, .fin 12, .fin 15, .fin 14, .fin 13], 1⟩
  | 1 => ⟨[.fin 9, .fin 10, .fin 8, .fin 12, .fin 11, .fin 9], 1⟩
  | 2 => ⟨[.fin 10, .fin 12, .fin 9, .fin 14, .fin 12, .fin 10], 1⟩
  | _ => ⟨[.fin 100, .fin 200, .fin 300, .fin 100, .fin 200, .fin 200], 1⟩

/-- two gaps which are not the same -/
def uneven (c : Call (Ext ℚ)) : Bool :=
  match gaps (c.run bars103) (c.run fun i => Spec.raised (Spec.raiseIn 5 c i) (bars103 i)) with
  | [] => false
  | a :: t => t.any (· ≠ a)

theorem uneven_not {c : Call (Ext ℚ)} (h : uneven c = true) :
    ∀ ks, c.run (fun i => Spec.raised (Spec.raiseIn 5 c i) (bars103 i)) ≠ (c.run bars103).map (List.zipWith Spec.raised ks) := by
  unfold uneven at h
  split at h
  · exact nomatch h
  · next a t e =>
    rw [List.any_eq_true] at h
    obtain ⟨b, hb, hab⟩ := h
    refine not_level (a := b) (b := a) (by rw [e]; exact List.mem_cons_of_mem _ hb) (by rw [e]; exact List.mem_cons_self) (by simpa using hab)

/-- **C103** those left out do depend on the level: products and quotients, rates of change, percentages of price, money flow, `beta`
and `sarext` (which changes the sign of its values in downtrends) are raised by no fixed amount. -/
theorem C103_not_level : ∀ c ∈ ([.mult, .div, .avg (.trix .sma) 1, .ppo true .sma .sma 1 2 1, .roc 1, .rocp 1, .rocr 1, .rocr100 1,
      .natr .sma 1 2, .mfi 2, .beta true 1 3,
      .sarext ⟨.fin 0, .fin (2 / 100), .fin (2 / 10), .fin (2 / 100), .fin (2 / 10), .fin 0⟩] : List (Call (Ext ℚ))),
    ∀ ks, c.run (fun i => Spec.raised (Spec.raiseIn 5 c i) (bars103 i)) ≠ (c.run bars103).map (List.zipWith Spec.raised ks) := by
  intro c hc
  simp only [List.mem_cons, List.not_mem_nil, or_false] at hc
  rcases hc with rfl | rfl | rfl | rfl | rfl | rfl | rfl | rfl | rfl | rfl | rfl | rfl <;>
    exact uneven_not (by decide +kernel)

end Bta
