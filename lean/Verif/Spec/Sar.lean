import Verif.Spec.Basic

/-!
# Wilder's parabolic stop and reverse

In plain mathematics, for highs `H` and lows `L` which start in bar `f`.  `AF` and `AM` are the acceleration step and the
greatest acceleration, possibly different for long (`true`) and short (`false`) positions.
-/

namespace Spec

variable {K : Type} [Field K] [LinearOrder K]

/-- position after a bar: direction, stop for the next bar, extreme price reached, acceleration -/
structure Stop (K : Type) where
  long : Bool
  stop : K
  ext : K
  af : K

/-- the first position is short if the low fell, and fell by more than the high rose -/
def stopAuto (AF : Bool → K) (H L : ℕ → K) (f : ℕ) : Stop K :=
  if L (f + 1) < L f ∧ H (f + 1) - H f < L f - L (f + 1) then ⟨false, H f, L (f + 1), AF false⟩
  else ⟨true, L f, H (f + 1), AF true⟩

/-- the price reaches the stop in bar `i` -/
def Hit (H L : ℕ → K) (i : ℕ) (s : Stop K) : Prop := if s.long then L i ≤ s.stop else s.stop ≤ H i

instance (H L : ℕ → K) (i : ℕ) (s : Stop K) : Decidable (Hit H L i s) := by unfold Hit; infer_instance

/-- the position after bar `i` (`q` is the bar before) -/
def stopNext (AF AM : Bool → K) (H L : ℕ → K) (q i : ℕ) (s : Stop K) : Stop K :=
  if Hit H L i s then
    if s.long then ⟨false, max (max (s.ext + AF false * (L i - s.ext)) (H i)) (H q), L i, AF false⟩
    else ⟨true, min (min (s.ext + AF true * (H i - s.ext)) (L i)) (L q), H i, AF true⟩
  else
    if s.long then
      let a := if s.ext < H i then min (s.af + AF true) (AM true) else s.af
      ⟨true, min (min (s.stop + a * (max s.ext (H i) - s.stop)) (L i)) (L q), max s.ext (H i), a⟩
    else
      let a := if L i < s.ext then min (s.af + AF false) (AM false) else s.af
      ⟨false, max (max (s.stop + a * (min s.ext (L i) - s.stop)) (H i)) (H q), min s.ext (L i), a⟩

/-- the position before bar `f + 1 + k`; in the first iteration the bar itself takes the place of the bar before -/
def stopAt (s0 : Stop K) (AF AM : Bool → K) (H L : ℕ → K) (f : ℕ) : ℕ → Stop K
  | 0 => s0
  | k + 1 => stopNext AF AM H L (f + 1 + (k - 1)) (f + 1 + k) (stopAt s0 AF AM H L f k)

/-- what is reported for bar `i`: the stop, or after a reversal the extreme of the position which was closed -/
def stopShown (H L : ℕ → K) (i : ℕ) (s : Stop K) : K := if Hit H L i s then s.ext else s.stop

/-- where the stop is put in the bar of a reversal when an offset `o` (a fraction of the stop which was hit) is asked for: the
extreme of the closed position, moved away from the price -/
def stopRev (o : K) (s : Stop K) : K := if s.long then s.ext + s.stop * o else s.ext - s.stop * o

/-- `stopNext` with an offset on reversals -/
def stopNextOff (o : K) (AF AM : Bool → K) (H L : ℕ → K) (q i : ℕ) (s : Stop K) : Stop K :=
  if Hit H L i s then stopNext AF AM H L q i { s with ext := stopRev o s } else stopNext AF AM H L q i s

/-- `stopAt` with an offset on reversals -/
def stopAtOff (o : K) (s0 : Stop K) (AF AM : Bool → K) (H L : ℕ → K) (f : ℕ) : ℕ → Stop K
  | 0 => s0
  | k + 1 => stopNextOff o AF AM H L (f + 1 + (k - 1)) (f + 1 + k) (stopAtOff o s0 AF AM H L f k)

/-- `stopShown` with an offset on reversals -/
def stopShownOff (o : K) (H L : ℕ → K) (i : ℕ) (s : Stop K) : K := if Hit H L i s then stopRev o s else s.stop

end Spec
