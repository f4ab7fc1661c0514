import Verif.Line

/-!
# What a line delivers

Vocabulary in which the properties of indicators are stated.  Bars are numbered from 0; a line with minimum period `m`
delivers from bar `m - 1` on.
-/

namespace Bta

variable {α : Type}

/-- The line has `n` bars and minimum period `m ≥ 1`, and its value at each bar `i ≥ m - 1` is `g i`.
Nothing is said about the bars before. -/
structure RepW (l : Line α) (n m : ℕ) (g : ℕ → α) : Prop where
  len : l.series.length = n
  mp : l.minperiod = (m : Int)
  pos : 1 ≤ m
  val : ∀ i, m ≤ i + 1 → i < n → l.series[i]? = some (g i)

/-- In addition all bars before the minimum period hold `fill`. -/
structure Rep (fill : α) (l : Line α) (n m : ℕ) (g : ℕ → α) : Prop extends RepW l n m g where
  pre : ∀ i, i + 1 < m → i < n → l.series[i]? = some fill

section
variable {K : Type} [Field K] [LinearOrder K] [IsStrictOrderedRing K]

/-- Input of an indicator: `n` bars, minimum period `m`, finite values `x i` from there on (any values before). -/
abbrev Holds (l : Line (Ext K)) (n m : ℕ) (x : ℕ → K) : Prop := RepW l n m (fun i => .fin (x i))

/-- Output of an indicator: `n` bars, minimum period `m`, NaN before, and the value at bar `i` from there on is `g i`
(which may be infinite or NaN). -/
abbrev Delivers (l : Line (Ext K)) (n m : ℕ) (g : ℕ → Ext K) : Prop := Rep .nan l n m g

/-- Output of an indicator: NaN before the minimum period, the number `x i` at bar `i` from there on. -/
abbrev Shows (l : Line (Ext K)) (n m : ℕ) (x : ℕ → K) : Prop := Rep .nan l n m (fun i => .fin (x i))

/-- The result of a calculation: it does not raise, and its result has the property. -/
def Gives {ε β : Type} (c : Except ε β) (P : β → Prop) : Prop := ∃ r, c = .ok r ∧ P r

end
end Bta
