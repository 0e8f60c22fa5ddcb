import Verif.Model.Output
import Verif.Spec.Strings

/-!
# What can be printed

A text is printed by reading memory up to a NUL. These conditions say, from the outside, when everything that a call prints in a logging
configuration lies in memory that may be read.
-/

set_option autoImplicit false

namespace RR32.Spec

/-- The entries given to consumers of the library, among what has happened, can be printed: section, key and value end with a NUL. It
matters if they are printed. -/
def EntriesPrintable (g : LogConfig) (w : World) (happened : List LogEntry) : Prop :=
  g.events = true → ∀ n s k v, .consumer ⟨n, .consume s k v⟩ ∈ happened → w.consumers n ≠ .app →
    Terminated s.mem ∧ Terminated k.mem ∧ Terminated v.mem

/-- A received frame whose payload is printed is not longer than the object it is in. -/
def FramePrintable (g : LogConfig) (w : World) (op : Op) : Prop :=
  ∀ f, op = .handle f → g.all = true → f.id.getCommand = kRequestConfigData ∨ f.id.getCommand = kConfigDataStream ∧ w.processing = true →
    f.data.dlc.toNat ≤ 9

end RR32.Spec
