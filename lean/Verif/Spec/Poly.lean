import Mathlib.Algebra.Polynomial.Div
import Mathlib.Data.ZMod.Basic

/-!
# Cyclic redundancy check as polynomial division

Messages are polynomials over the field with two elements, most significant bit first. Nothing here mentions the program.
-/

set_option autoImplicit false

namespace RR32.Spec

open Polynomial

/-- The bits of a word, most significant first. -/
def msbBits {n : Nat} (v : BitVec n) : List Bool := (List.range n).map v.getMsbD

/-- The bits of a message. -/
def messageBits (m : List (BitVec 8)) : List Bool := m.flatMap msbBits

/-- Bits, most significant first, as a polynomial over GF(2). -/
noncomputable def bitsPoly : List Bool → (ZMod 2)[X]
  | [] => 0
  | b :: bs => (if b then X ^ bs.length else 0) + bitsPoly bs

/-- The generator x¹⁶ + x¹² + x⁵ + 1. -/
noncomputable def generator : (ZMod 2)[X] := X ^ 16 + X ^ 12 + X ^ 5 + 1

/-- CRC-16/CCITT-FALSE: the remainder of the message times x¹⁶ plus sixteen ones in front of its first bit. -/
noncomputable def crcPoly (m : List (BitVec 8)) : (ZMod 2)[X] :=
  (bitsPoly (messageBits m) * X ^ 16 + bitsPoly (List.replicate 16 true) * X ^ (8 * m.length)) %ₘ generator

/-- The positions at which two messages differ, marked. -/
def difference (a b : List Bool) : List Bool := List.zipWith xor a b

end RR32.Spec
