import Verif.Model.Constants

/-! # Addresses and directions (lib/RR32Can/types/*.h, lib/RR32Can/types/*.cpp) -/

set_option autoImplicit false

namespace RR32

/-- `EngineDirection`, lib/RR32Can/types/LocomotiveTypes.h:9. A scoped enum over `int`: `static_cast` from a byte can produce any
of 256 values, so it is a 32-bit value with named constants. -/
abbrev EngineDirection := U32
/-- lib/RR32Can/types/LocomotiveTypes.h:9 -/
def EngineDirection.UNCHANGED : EngineDirection := 0#32
/-- lib/RR32Can/types/LocomotiveTypes.h:9 -/
def EngineDirection.FORWARD : EngineDirection := 1#32
/-- lib/RR32Can/types/LocomotiveTypes.h:9 -/
def EngineDirection.REVERSE : EngineDirection := 2#32
/-- lib/RR32Can/types/LocomotiveTypes.h:9 -/
def EngineDirection.CHANGE_DIRECTION : EngineDirection := 3#32
/-- lib/RR32Can/types/LocomotiveTypes.h:9 -/
def EngineDirection.UNKNOWN : EngineDirection := 4#32

/-- `SensorState`, lib/RR32Can/types/BaseTypes.h:36. -/
abbrev SensorState := U32
/-- lib/RR32Can/types/BaseTypes.h:36 -/
def SensorState.OPEN : SensorState := 0#32
/-- lib/RR32Can/types/BaseTypes.h:36 -/
def SensorState.CLOSED : SensorState := 1#32

/-- `TurnoutDirection`, lib/RR32Can/types/TurnoutTypes.h:12-13: underlying type `uint8_t`, the integral conversions of lines 15-21
are the identity. -/
abbrev TurnoutDirection := Byte
/-- lib/RR32Can/types/TurnoutTypes.h:13 -/
def TurnoutDirection.RED : TurnoutDirection := 0#8
/-- lib/RR32Can/types/TurnoutTypes.h:13 -/
def TurnoutDirection.GREEN : TurnoutDirection := 1#8
/-- lib/RR32Can/types/TurnoutTypes.h:13 -/
def TurnoutDirection.YELLOW : TurnoutDirection := 2#8
/-- lib/RR32Can/types/TurnoutTypes.h:13 -/
def TurnoutDirection.WHITE : TurnoutDirection := 3#8

/-- `switchDirection`, lib/RR32Can/types/LocomotiveTypes.cpp:6-14. -/
def switchDirection (direction : EngineDirection) : EngineDirection :=
  if direction = EngineDirection.FORWARD then EngineDirection.REVERSE
  else if direction = EngineDirection.REVERSE then EngineDirection.FORWARD
  else EngineDirection.UNKNOWN

/-- `MachineTurnoutAddress`, lib/RR32Can/types/TurnoutTypes.h:30-40,57-78. -/
structure MachineTurnoutAddress where
  addr : U32
  deriving DecidableEq, Repr

/-- `HumanTurnoutAddress`, lib/RR32Can/types/TurnoutTypes.h:45-52. -/
structure HumanTurnoutAddress where
  addr : U32
  deriving DecidableEq, Repr

/-- `MachineLocomotiveAddress`, lib/RR32Can/types/LocomotiveTypes.h:20-30,46-65. -/
structure MachineLocomotiveAddress where
  addr : U32
  deriving DecidableEq, Repr

/-- `HumanLocomotiveAddress`, lib/RR32Can/types/LocomotiveTypes.h:36-43. -/
structure HumanLocomotiveAddress where
  addr : U32
  deriving DecidableEq, Repr

/-- `HumanTurnoutAddress(MachineTurnoutAddress)`, lib/RR32Can/types/TurnoutTypes.cpp:6. -/
def HumanTurnoutAddress.ofMachine (other : MachineTurnoutAddress) : HumanTurnoutAddress := ⟨other.addr + 1#32⟩

/-- `MachineTurnoutAddress(HumanTurnoutAddress)`, lib/RR32Can/types/TurnoutTypes.cpp:8-9. -/
def MachineTurnoutAddress.ofHuman (other : HumanTurnoutAddress) : MachineTurnoutAddress := ⟨other.addr - 1#32⟩

/-- `HumanLocomotiveAddress(MachineLocomotiveAddress)`, lib/RR32Can/types/LocomotiveTypes.cpp:16-17. -/
def HumanLocomotiveAddress.ofMachine (other : MachineLocomotiveAddress) : HumanLocomotiveAddress := ⟨other.addr + 1#32⟩

/-- `MachineLocomotiveAddress(HumanLocomotiveAddress)`, lib/RR32Can/types/LocomotiveTypes.cpp:19-20. -/
def MachineLocomotiveAddress.ofHuman (other : HumanLocomotiveAddress) : MachineLocomotiveAddress := ⟨other.addr - 1#32⟩

/-- `getAccessoryLocIdMask`, lib/RR32Can/types/TurnoutTypes.cpp:11-28. -/
def getAccessoryLocIdMask (proto : RailProtocol) : MachineTurnoutAddress :=
  match proto with
  | .MM1 | .MM2 | .MFX => ⟨kMMAccessoryAddrStart⟩
  | .SX1 | .SX2 => ⟨kSX1AccessoryAddrStart⟩
  | .DCC => ⟨kDCCAccessoryAddrStart⟩
  | .UNKNOWN => ⟨0xFF00#32⟩

/-- `getLocomotiveLocIdMask`, lib/RR32Can/types/LocomotiveTypes.cpp:22-41. -/
def getLocomotiveLocIdMask (proto : RailProtocol) : MachineLocomotiveAddress :=
  match proto with
  | .MM1 | .MM2 => ⟨kMMEngineFunctionAddrStart⟩
  | .MFX => ⟨kMFXAddrStart⟩
  | .SX1 | .SX2 => ⟨kSX1AddrStart⟩
  | .DCC => ⟨kDCCAddrStart⟩
  | .UNKNOWN => ⟨0xFF00#32⟩

/-- `operator|` and `operator|=`, lib/RR32Can/types/TurnoutTypes.h:65,80-82. -/
def MachineTurnoutAddress.or (left right : MachineTurnoutAddress) : MachineTurnoutAddress := ⟨left.addr ||| right.addr⟩

/-- `operator|` and `operator|=`, lib/RR32Can/types/LocomotiveTypes.h:54,67-70. -/
def MachineLocomotiveAddress.or (left right : MachineLocomotiveAddress) : MachineLocomotiveAddress :=
  ⟨left.addr ||| right.addr⟩

/-- `MachineTurnoutAddress::getNumericAddress`, lib/RR32Can/types/TurnoutTypes.h:73. -/
def MachineTurnoutAddress.getNumericAddress (a : MachineTurnoutAddress) : MachineTurnoutAddress := ⟨a.addr &&& 0x03FF#32⟩

/-- `MachineLocomotiveAddress::getNumericAddress`, lib/RR32Can/types/LocomotiveTypes.h:60. -/
def MachineLocomotiveAddress.getNumericAddress (a : MachineLocomotiveAddress) : MachineLocomotiveAddress :=
  ⟨a.addr &&& 0x03FF#32⟩

/-- `MachineTurnoutAddress::setProtocol`, lib/RR32Can/types/TurnoutTypes.h:74-77. -/
def MachineTurnoutAddress.setProtocol (a : MachineTurnoutAddress) (protocol : RailProtocol) : MachineTurnoutAddress :=
  a.getNumericAddress.or (getAccessoryLocIdMask protocol)

/-- `MachineLocomotiveAddress::setProtocol`, lib/RR32Can/types/LocomotiveTypes.h:61-64. -/
def MachineLocomotiveAddress.setProtocol (a : MachineLocomotiveAddress) (protocol : RailProtocol) :
    MachineLocomotiveAddress :=
  a.getNumericAddress.or (getLocomotiveLocIdMask protocol)

/-- `operator<=`, lib/RR32Can/types/TurnoutTypes.h:67. -/
def MachineTurnoutAddress.le (a b : MachineTurnoutAddress) : Bool := a.addr ≤ b.addr

/-- `operator<`, lib/RR32Can/types/TurnoutTypes.h:68. -/
def MachineTurnoutAddress.lt (a b : MachineTurnoutAddress) : Bool := a.addr < b.addr

/-- `operator<=`, lib/RR32Can/types/LocomotiveTypes.h:55. -/
def MachineLocomotiveAddress.le (a b : MachineLocomotiveAddress) : Bool := a.addr ≤ b.addr

/-- `operator==`, lib/RR32Can/types/TurnoutTypes.h:63; `operator!=` (line 64) is its negation. -/
def MachineTurnoutAddress.eq (a b : MachineTurnoutAddress) : Bool := a.addr == b.addr

end RR32
