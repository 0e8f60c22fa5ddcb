import Verif.Model.Constants

/-! # Address ranges of the rail protocols (lib/RR32Can/Constants.h:142-176), as plain numbers -/

set_option autoImplicit false

namespace RR32.Spec

/-- First address of the accessory range of a protocol family (0 for none). -/
def accessoryStart : RailProtocol → Nat
  | .MM1 | .MM2 | .MFX => 0x3000
  | .SX1 | .SX2 => 0x2800
  | .DCC => 0x3800
  | .UNKNOWN => 0xFF00

/-- The family that stands for a protocol on the accessory side: the bus cannot tell the others apart. -/
def accessoryFamily : RailProtocol → RailProtocol
  | .MM1 | .MM2 | .MFX => .MM1
  | .SX1 | .SX2 => .SX1
  | .DCC => .DCC
  | .UNKNOWN => .UNKNOWN

/-- The family that owns an accessory address. -/
def accessoryOwner (n : Nat) : RailProtocol :=
  if 0x2800 ≤ n ∧ n ≤ 0x2BFF then .SX1
  else if 0x3000 ≤ n ∧ n ≤ 0x33FF then .MM1
  else if 0x3800 ≤ n ∧ n ≤ 0x3FFF then .DCC
  else .UNKNOWN

/-- The number of a turnout within its protocol, counted from 1; also for addresses without a tag. -/
def turnoutNumber (n : Nat) : Option Nat :=
  match accessoryOwner n with
  | .SX1 => some (n - 0x2800 + 1)
  | .MM1 => some (n - 0x3000 + 1)
  | .DCC => some (n - 0x3800 + 1)
  | _ => if n < 1024 then some (n + 1) else none

/-- First and last locomotive address of a protocol. -/
def locoRange : RailProtocol → Nat × Nat
  | .MM1 | .MM2 => (0x0000, 0x03FF)
  | .MFX => (0x4000, 0x7FFF)
  | .SX1 => (0x0800, 0x0BFF)
  | .SX2 => (0x8000, 0xBFFF)
  | .DCC => (0xC000, 0xFFFF)
  | .UNKNOWN => (0xFF00, 0xFFFF)

/-- The map of all addresses, in order: engines and functions in the formats of Motorola and SX1, engines of Motorola in the upper area,
accessories of SX1, Motorola and DCC, and engines of MFX, SX2 and DCC. -/
def addressMap : List (Nat × Nat) :=
  [(0x0000, 0x03FF), (0x0800, 0x0BFF), (0x2000, 0x23FF), (0x2800, 0x2BFF), (0x3000, 0x33FF), (0x3800, 0x3FFF), (0x4000, 0x7FFF),
    (0x8000, 0xBFFF), (0xC000, 0xFFFF)]

end RR32.Spec
