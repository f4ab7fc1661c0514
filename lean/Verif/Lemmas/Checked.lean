import Verif.Line

/-! # Calculations preceded by a check -/

namespace Bta

theorem checked_ok {α : Type} {e : Except Err Unit} {y : Except Err α} {r : α} (h : (e >>= fun _ => y) = .ok r) : y = .ok r := by
  cases e with
  | error e => cases h
  | ok _ => exact h

end Bta
