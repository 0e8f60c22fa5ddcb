import Verif.Model.Messages
import Verif.Spec.Poly
import Verif.Spec.Text

/-!
# Configuration data streams

What a stream is on the wire (big-endian length and checksum in the first packet, eight bytes in every other one), and what a receiver
is told about it.
-/

set_option autoImplicit false

namespace RR32.Spec

/-- The length a first packet announces: a big-endian number. -/
def announcedLength (d : Data) : Nat := d.b0.toNat * 2 ^ 24 + d.b1.toNat * 2 ^ 16 + d.b2.toNat * 2 ^ 8 + d.b3.toNat

/-- The checksum a first packet announces: a big-endian number. -/
def announcedCrc (d : Data) : BitVec 16 := BitVec.ofNat 16 (d.b4.toNat * 2 ^ 8 + d.b5.toNat)

/-- The bytes a sequence of data packets carries. -/
def payload (ds : List Data) : List Byte := ds.flatMap (fun d => [d.b0, d.b1, d.b2, d.b3, d.b4, d.b5, d.b6, d.b7])

/-- A first packet. -/
def IsFirst (d : Data) : Prop := d.dlc.toNat = 6 ∨ d.dlc.toNat = 7

/-- A sequence of data packets. -/
def AreData (ds : List Data) : Prop := ∀ d ∈ ds, d.dlc.toNat = 8

/-- `c` is the checksum of a message. -/
def IsCrcOf (c : BitVec 16) (m : List Byte) : Prop := bitsPoly (msbBits c) = crcPoly m

/-- What a receiver is told. -/
inductive Notice where
  | entry (e : Entry)
  | complete
  | aborted
  deriving DecidableEq, Repr

/-- The notices that end a stream. -/
def Notice.isEnd : Notice → Bool
  | .entry _ => false
  | .complete => true
  | .aborted => true

end RR32.Spec
