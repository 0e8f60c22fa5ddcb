import Verif.Spec.Receive
import Verif.Spec.Stream

/-!
# A document on the wire

The frames a master sends for a document: the first frame announces length and checksum, the others carry eight bytes each. The last
line of the document may be followed by anything that is not a complete line (`tail`), in particular by padding.
-/

set_option autoImplicit false

namespace RR32.Spec

/-- The frames of a well-formed stream with a document in it. -/
structure WireStream (first : CanFrame) (rest : List CanFrame) (items : List Item) (tail : Tail) : Prop where
  command : ∀ f ∈ first :: rest, commandOf f = 0x21
  isFirst : IsFirst first.data
  data : AreData (rest.map (·.data))
  nonempty : rest ≠ []
  length : announcedLength first.data = 8 * rest.length
  crc : IsCrcOf (announcedCrc first.data) (payload (rest.map (·.data)))
  wellFormed : ∀ i ∈ items, i.WellFormed
  fits : ∀ i ∈ items, i.Fits
  tailWellFormed : tail.WellFormed
  tailFits : tail.Fits
  payload : payload (rest.map (·.data)) = render items ++ tail.render

end RR32.Spec
