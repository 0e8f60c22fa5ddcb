import Verif.Model.CLib

/-! # Crc (lib/RR32CanEngineDb/util/Crc.h, lib/RR32CanEngineDb/util/Crc.cpp) -/

set_option autoImplicit false

namespace RR32

/-- `Crc`, lib/RR32CanEngineDb/util/Crc.h:12,34-35. -/
structure Crc where
  accumulator : U16
  reference : U16
  deriving DecidableEq, Repr

namespace Crc

/-- lib/RR32CanEngineDb/util/Crc.h:18 -/
def polynomial : U16 := 0x1021#16
/-- lib/RR32CanEngineDb/util/Crc.h:19 -/
def initialValue : U16 := 0xFFFF#16

/-- `reset`, lib/RR32CanEngineDb/util/Crc.h:21-24: sets both fields, whatever they were. -/
def reset : Crc := { accumulator := initialValue, reference := initialValue }

/-- One turn of the loop, lib/RR32CanEngineDb/util/Crc.cpp:8-13. -/
def shiftBit (a : U16) : U16 := if (a &&& 0x8000#16) ≠ 0#16 then (a <<< 1) ^^^ polynomial else a <<< 1

/-- The loop `for (int i = 0; i < 8; ++i)`, lib/RR32CanEngineDb/util/Crc.cpp:7-14. -/
def shiftLoop : Nat → U16 → U16
  | 0, a => a
  | n + 1, a => shiftLoop n (shiftBit a)

/-- `updateCrc`, lib/RR32CanEngineDb/util/Crc.cpp:5-15. -/
def updateCrc (c : Crc) (input : Byte) : Crc :=
  { c with accumulator := shiftLoop 8 (c.accumulator ^^^ (input.zeroExtend 16 <<< 8)) }

/-- `getCrc`, lib/RR32CanEngineDb/util/Crc.h:26. -/
def getCrc (c : Crc) : U16 := c.accumulator

/-- `loadReference`, lib/RR32CanEngineDb/util/Crc.h:28. -/
def loadReference (c : Crc) (referenceCrc : U16) : Crc := { c with reference := referenceCrc }

/-- `getReference`, lib/RR32CanEngineDb/util/Crc.h:29. -/
def getReference (c : Crc) : U16 := c.reference

/-- `isCrcValid`, lib/RR32CanEngineDb/util/Crc.h:31. -/
def isCrcValid (c : Crc) : Bool := c.accumulator == c.reference

end Crc

end RR32
