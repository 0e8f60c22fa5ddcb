import Verif.Model.Nested
import Verif.Spec.Bus

/-! # How many frames callbacks ask for -/

set_option autoImplicit false

namespace RR32

namespace Spec

/-- No more frames than `c` have been sent, and for every callback that was called meanwhile what it may send. -/
def InBudget (B : LogEntry → Nat) (c : Nat) (w v : World) : Prop :=
  ∃ new, v.log = w.log ++ new ∧ (Bus.sent new).length ≤ c + (new.map B).sum

/-- The calls that a callback makes itself put at most this many frames on the bus (`frameLimit`). -/
def Budgeted (P : Program) (B : LogEntry → Nat) : Prop := ∀ w e, ((P w e).map frameLimit).sum ≤ B e

end Spec

end RR32
