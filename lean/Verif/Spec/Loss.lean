import Verif.Spec.Stream

/-!
# Streams on a bus that loses, repeats and mixes up packets

What a receiver heard since it started to listen, and when that is a whole stream.
-/

set_option autoImplicit false

namespace RR32.Spec

/-- The packets so far leave a stream open: there is none yet, or a first packet and data packets that have not reached the announced
length. A length that is no multiple of 8 is never reached. -/
def Pending : List Data → Prop
  | [] => True
  | first :: ds => IsFirst first ∧ AreData ds ∧ ∀ k ≤ ds.length, 8 * k ≠ announcedLength first

/-- The packets are one stream, from its first packet to its last, with the announced checksum. The checksum of a stream without data is
not checked (see C43). -/
def Whole : List Data → Prop
  | [] => False
  | first :: ds => IsFirst first ∧ AreData ds ∧ announcedLength first = 8 * ds.length ∧ (ds = [] ∨ IsCrcOf (announcedCrc first) (payload ds))

end RR32.Spec
