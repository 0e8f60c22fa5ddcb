import Verif.Model.Types

/-! # Locomotives (lib/RR32Can/Locomotive.h, lib/RR32Can/Locomotive.cpp) -/

set_option autoImplicit false

namespace RR32

/-- `AvailabilityStatus`, lib/RR32Can/Locomotive.h:20. -/
inductive Availability where
  | EMPTY | NAME_KNOWN | FULL_DETAILS
  deriving DecidableEq, Repr

/-- `LocomotiveShortInfo`, lib/RR32Can/Locomotive.h:18,64-65; `name` is the memory of `name_`. -/
structure ShortInfo where
  availability : Availability
  name : List Byte
  deriving DecidableEq, Repr

namespace ShortInfo

/-- `eraseName`, lib/RR32Can/Locomotive.h:67. -/
def eraseName (s : ShortInfo) : ShortInfo := { s with name := List.replicate (kEngineNameLength + 1) 0#8 }

/-- The constructor, lib/RR32Can/Locomotive.h:22. -/
def construct : ShortInfo := { availability := .EMPTY, name := List.replicate (kEngineNameLength + 1) 0#8 }

/-- `reset`, lib/RR32Can/Locomotive.h:26-29. -/
def reset (s : ShortInfo) : ShortInfo := { s with availability := .EMPTY }.eraseName

/-- `setName`, lib/RR32Can/Locomotive.h:31-35; the argument is the memory object the pointer points to. -/
def setName (s : ShortInfo) (name : List Byte) : Res ShortInfo := do
  let s := { s.reset with availability := .NAME_KNOWN }
  let mem ← strncpy s.name name kEngineNameLength
  .ok { s with name := mem }

/-- `setNameConditional`, lib/RR32Can/Locomotive.h:42-49. -/
def setNameConditional (s : ShortInfo) (name : List Byte) : Res (ShortInfo × Bool) := do
  if s.availability = .EMPTY then
    let s ← s.setName name
    return (s, true)
  else
    let same ← strncmpEq kEngineNameLength name s.name
    if same then return (s, false)
    else
      let s ← s.setName name
      return (s, true)

/-- `isNameKnown`, lib/RR32Can/Locomotive.h:55. -/
def isNameKnown (s : ShortInfo) : Bool := s.availability != .EMPTY

/-- `isNameOnlyKnown`, lib/RR32Can/Locomotive.h:57. -/
def isNameOnlyKnown (s : ShortInfo) : Bool := s.availability == .NAME_KNOWN

/-- `isFree`, lib/RR32Can/Locomotive.h:59. -/
def isFree (s : ShortInfo) : Bool := s.availability == .EMPTY

/-- The memory reads of `print`, lib/RR32Can/Locomotive.cpp:11-19 (the text is in `Model/Console`). -/
def print (s : ShortInfo) : Res Unit := do
  if s.availability = .EMPTY then return ()
  else
    let _ ← cstr s.name
    return ()

end ShortInfo

/-- `LocomotiveData`, lib/RR32Can/Locomotive.h:73,142-146. -/
structure LocomotiveData where
  uid : U32 := 0#32
  velocity : U16 := 0#16
  direction : EngineDirection := EngineDirection.UNKNOWN
  address : MachineLocomotiveAddress := ⟨0#32⟩
  functionBits : U32 := 0#32
  deriving DecidableEq, Repr

namespace LocomotiveData

/-- `reset`, lib/RR32Can/Locomotive.h:86-93. -/
def reset (_ : LocomotiveData) : LocomotiveData :=
  { uid := 0#32, velocity := 0#16, direction := EngineDirection.UNKNOWN, address := ⟨0#32⟩, functionBits := 0#32 }

/-- lib/RR32Can/Locomotive.h:95 -/
def setUid (l : LocomotiveData) (uid : U32) : LocomotiveData := { l with uid := uid }

/-- lib/RR32Can/Locomotive.h:99 -/
def getUidMasked (l : LocomotiveData) : U32 := l.uid &&& 0xFFFF#32

/-- lib/RR32Can/Locomotive.h:101 -/
def setVelocity (l : LocomotiveData) (velocity : U16) : LocomotiveData := { l with velocity := velocity }

/-- lib/RR32Can/Locomotive.h:104 -/
def setDirection (l : LocomotiveData) (direction : EngineDirection) : LocomotiveData := { l with direction := direction }

/-- `changeDirection`, lib/RR32Can/Locomotive.h:106-112. -/
def changeDirection (l : LocomotiveData) : LocomotiveData :=
  if l.direction = EngineDirection.FORWARD then { l with direction := EngineDirection.REVERSE }
  else if l.direction = EngineDirection.REVERSE then { l with direction := EngineDirection.FORWARD }
  else l

/-- lib/RR32Can/Locomotive.h:114 -/
def setAddress (l : LocomotiveData) (address : MachineLocomotiveAddress) : LocomotiveData := { l with address := address }

/-- The shift `mask <<= function` on a 32-bit 1, undefined for a shift of 32 or more; lib/RR32Can/Locomotive.h:120-121,130-131. -/
def functionMask (function : Byte) : Res U32 :=
  if function.toNat < 32 then .ok (1#32 <<< function.toNat) else .error .badShift

/-- `setFunction`, lib/RR32Can/Locomotive.h:119-127. -/
def setFunction (l : LocomotiveData) (function : Byte) (onOff : Bool) : Res LocomotiveData := do
  let mask ← functionMask function
  if onOff then .ok { l with functionBits := l.functionBits ||| mask }
  else .ok { l with functionBits := l.functionBits &&& ~~~mask }

/-- `getFunction`, lib/RR32Can/Locomotive.h:129-137. -/
def getFunction (l : LocomotiveData) (function : Byte) : Res Bool := do
  let mask ← functionMask function
  .ok ((l.functionBits &&& mask) != 0#32)

end LocomotiveData

/-- `Locomotive`, lib/RR32Can/Locomotive.h:152,177; `protocol` is the memory of `protocol_`. -/
structure Locomotive where
  info : ShortInfo
  data : LocomotiveData
  protocol : List Byte
  deriving DecidableEq, Repr

namespace Locomotive

/-- lib/RR32Can/Locomotive.h:156 -/
def kProtocolNameMaxLength : Nat := 8

/-- `reset`, lib/RR32Can/Locomotive.h:162-167. -/
def reset (l : Locomotive) : Locomotive :=
  { info := l.info.reset, data := l.data.reset, protocol := List.replicate kProtocolNameMaxLength 0#8 }

/-- The constructor, lib/RR32Can/Locomotive.h:160; `garbage` is the indeterminate initial content of `protocol_`. -/
def construct (garbage : List Byte) : Locomotive :=
  reset { info := ShortInfo.construct, data := {}, protocol := garbage }

/-- `setName` on a `Locomotive`: the inherited function, with the virtual `reset` of lines 162-167; lib/RR32Can/Locomotive.h:31-35. -/
def setName (l : Locomotive) (name : List Byte) : Res Locomotive := do
  let l := l.reset
  let s := { l.info with availability := .NAME_KNOWN }
  let mem ← strncpy s.name name kEngineNameLength
  .ok { l with info := { s with name := mem } }

/-- `setNameConditional` on a `Locomotive`, lib/RR32Can/Locomotive.h:42-49. -/
def setNameConditional (l : Locomotive) (name : List Byte) : Res (Locomotive × Bool) := do
  if l.info.availability = .EMPTY then
    let l ← l.setName name
    return (l, true)
  else
    let same ← strncmpEq kEngineNameLength name l.info.name
    if same then return (l, false)
    else
      let l ← l.setName name
      return (l, true)

/-- `setAvailability`, lib/RR32Can/Locomotive.h:54. -/
def setAvailability (l : Locomotive) (a : Availability) : Locomotive := { l with info := { l.info with availability := a } }

/-- `isFullDetailsKnown`, lib/RR32Can/Locomotive.h:169. -/
def isFullDetailsKnown (l : Locomotive) : Bool := l.info.availability == .FULL_DETAILS

/-- `setProtocolString`, lib/RR32Can/Locomotive.h:173. -/
def setProtocolString (l : Locomotive) (protocolString : List Byte) : Res Locomotive := do
  let mem ← strncpy l.protocol protocolString kProtocolNameMaxLength
  .ok { l with protocol := mem }

/-- The memory reads of `print`, lib/RR32Can/Locomotive.cpp:26-32 (the text is in `Model/Console`). -/
def print (l : Locomotive) : Res Unit := do
  l.info.print
  if l.info.availability = .FULL_DETAILS then
    let _ ← cstr l.protocol
    return ()
  else return ()

end Locomotive

end RR32
