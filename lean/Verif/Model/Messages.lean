import Verif.Model.Types

/-! # CAN identifier, payload and message views (lib/RR32Can/messages, lib/RR32Can/util/utils.h) -/

set_option autoImplicit false

namespace RR32

/-- `computeSenderHash`, lib/RR32Can/util/utils.h:12-17. -/
def computeSenderHash (uid : U32) : U16 :=
  let uid := ((uid >>> 3) &&& 0xFFFFFF00#32) ||| (uid &&& 0x7F#32)
  let lowBytes : U16 := uid.truncate 16
  let highBytes : U16 := (uid >>> 16).truncate 16
  lowBytes ^^^ highBytes

/-- `Identifier`, lib/RR32Can/messages/Identifier.h:18,97-98. -/
structure Identifier where
  raw : U32
  deriving DecidableEq, Repr

namespace Identifier

/-- lib/RR32Can/messages/Identifier.h:22 -/
def kHashBitMask : U32 := 0xFFFF#32
/-- lib/RR32Can/messages/Identifier.h:23 -/
def kResponseBitMask : U32 := 1#32 <<< 16
/-- lib/RR32Can/messages/Identifier.h:24 -/
def kCommandBitMask : U32 := 0xFF#32 <<< 17

/-- `isResponse`, lib/RR32Can/messages/Identifier.h:34. -/
def isResponse (i : Identifier) : Bool := (i.raw &&& kResponseBitMask) != 0#32

/-- `setResponse`, lib/RR32Can/messages/Identifier.h:35-41. -/
def setResponse (i : Identifier) (response : Bool) : Identifier :=
  if response then ⟨i.raw ||| kResponseBitMask⟩ else ⟨i.raw &&& ~~~kResponseBitMask⟩

/-- `getPriority`, lib/RR32Can/messages/Identifier.h:43. -/
def getPriority (i : Identifier) : Byte := ((i.raw >>> 25) &&& 0x0F#32).truncate 8

/-- `getCommand`, lib/RR32Can/messages/Identifier.h:46. -/
def getCommand (i : Identifier) : Byte := ((i.raw >>> 17) &&& 0xFF#32).truncate 8

/-- `setCommand`, lib/RR32Can/messages/Identifier.h:48-56. -/
def setCommand (i : Identifier) (command : Byte) : Identifier :=
  let commandByte : U32 := command.zeroExtend 32 <<< 17
  ⟨(i.raw &&& ~~~kCommandBitMask) ||| commandByte⟩

/-- `getHash`, lib/RR32Can/messages/Identifier.h:58. -/
def getHash (i : Identifier) : U16 := (i.raw &&& kHashBitMask).truncate 16

/-- `setHash`, lib/RR32Can/messages/Identifier.h:88-92. -/
def setHash (i : Identifier) (hash : U16) : Identifier :=
  ⟨(i.raw &&& ~~~kHashBitMask) ||| hash.zeroExtend 32⟩

/-- `Identifier(Command, uint16_t)`, lib/RR32Can/messages/Identifier.h:29-32. -/
def mk' (command : Byte) (hash : U16) : Identifier := ((⟨0#32⟩ : Identifier).setCommand command).setHash hash

/-- `operator==`, lib/RR32Can/messages/Identifier.h:60. -/
def eq (a b : Identifier) : Bool := a.raw == b.raw

/-- `GetIdentifier(uint32_t)`, lib/RR32Can/messages/Identifier.h:65. -/
def ofU32 (packetId : U32) : Identifier := ⟨packetId⟩

/-- `GetIdentifier(uint8_t[4])`, lib/RR32Can/messages/Identifier.cpp:16-20. -/
def ofBytes (b0 b1 b2 b3 : Byte) : Identifier :=
  ofU32 ((b0.zeroExtend 32 <<< 24) ||| (b1.zeroExtend 32 <<< 16) ||| (b2.zeroExtend 32 <<< 8) ||| b3.zeroExtend 32)

/-- `computeAndSetHash`, lib/RR32Can/messages/Identifier.h:75. -/
def computeAndSetHash (i : Identifier) (deviceUuid : U32) : Identifier := i.setHash (computeSenderHash deviceUuid)

/-- `makeIdentifier`, lib/RR32Can/messages/Identifier.h:81. -/
def makeIdentifier (i : Identifier) : U32 := i.raw

end Identifier

/-- `Data`, lib/RR32Can/messages/Data.h:21-27: the length and the nine bytes of the array. -/
structure Data where
  dlc : Byte := 0#8
  b0 : Byte := 0#8
  b1 : Byte := 0#8
  b2 : Byte := 0#8
  b3 : Byte := 0#8
  b4 : Byte := 0#8
  b5 : Byte := 0#8
  b6 : Byte := 0#8
  b7 : Byte := 0#8
  b8 : Byte := 0#8
  deriving DecidableEq, Repr

namespace Data

/-- lib/RR32Can/messages/Data.h:22 -/
def kDataBufferLength : Nat := CanDataMaxLength + 1

/-- The array `data` as a memory object, lib/RR32Can/messages/Data.h:27,47-55. -/
def bytes (d : Data) : List Byte := [d.b0, d.b1, d.b2, d.b3, d.b4, d.b5, d.b6, d.b7, d.b8]

/-- Storing back the memory object `data` after a C library call wrote to it. -/
def withBytes (d : Data) (l : List Byte) : Data :=
  { dlc := d.dlc, b0 := l.getD 0 0, b1 := l.getD 1 0, b2 := l.getD 2 0, b3 := l.getD 3 0, b4 := l.getD 4 0,
    b5 := l.getD 5 0, b6 := l.getD 6 0, b7 := l.getD 7 0, b8 := l.getD 8 0 }

/-- `operator==`, lib/RR32Can/messages/Data.h:29-35. -/
def eq (a b : Data) : Res Bool :=
  if a.dlc ≠ b.dlc then .ok false else memcmpEq a.dlc.toNat a.bytes b.bytes

/-- The bytes `printAsHex` and `printAsText` read, one per loop turn, lib/RR32Can/messages/Data.cpp:7-17. The text that is printed
from them is in `Model/Console`. -/
def printed (d : Data) : Res (List Byte) :=
  (List.range d.dlc.toNat).mapM (fun i => peek d.bytes i)

/-- `reset`, lib/RR32Can/messages/Data.h:57-60. -/
def reset (_ : Data) : Data := {}

/-- `getLocid`, lib/RR32Can/messages/Data.h:62-66. -/
def getLocid (d : Data) : U32 :=
  d.b3.zeroExtend 32 ||| (d.b2.zeroExtend 32 <<< 8) ||| (d.b1.zeroExtend 32 <<< 16) ||| (d.b0.zeroExtend 32 <<< 24)

/-- `setLocid`, lib/RR32Can/messages/Data.h:68-73. -/
def setLocid (d : Data) (locid : U32) : Data :=
  { d with b0 := (locid >>> 24).truncate 8, b1 := (locid >>> 16).truncate 8, b2 := (locid >>> 8).truncate 8,
           b3 := locid.truncate 8 }

end Data

/-- `CanFrame`, lib/RR32Can/messages/CanFrame.h:12-15. -/
structure CanFrame where
  id : Identifier
  data : Data := {}
  deriving DecidableEq, Repr

/-- `operator==`, lib/RR32Can/messages/CanFrame.h:17 (`&&` does not evaluate its right side if the left is false). -/
def CanFrame.eq (a b : CanFrame) : Res Bool :=
  if a.id.eq b.id then a.data.eq b.data else .ok false

/-! A message view (`BaseMessage` and its children, lib/RR32Can/messages/BaseMessage.h:11-24) is a reference to a `Data`; its
methods are functions on that `Data`. -/

/-- `BaseMessage::length`, lib/RR32Can/messages/BaseMessage.h:15. -/
def BaseMessage.length (d : Data) : Byte := d.dlc

/-- `BaseMessage::initData`, lib/RR32Can/messages/BaseMessage.h:21. -/
def BaseMessage.initData (_ : Data) : Data := {}

namespace SystemMessage

/-- lib/RR32Can/messages/SystemMessage.h:15-18 -/
def initData (d : Data) : Data := { BaseMessage.initData d with dlc := 5#8 }

/-- lib/RR32Can/messages/SystemMessage.h:20 -/
def getSubcommand (d : Data) : Byte := d.b4

/-- lib/RR32Can/messages/SystemMessage.h:21 -/
def setSubcommand (d : Data) (command : Byte) : Data := { d with b4 := command }

/-- lib/RR32Can/messages/SystemMessage.h:23 -/
def getLocid (d : Data) : U32 := d.getLocid

/-- lib/RR32Can/messages/SystemMessage.h:24 -/
def setLocid (d : Data) (locid : U32) : Data := d.setLocid locid

end SystemMessage

namespace TurnoutPacket

/-- lib/RR32Can/messages/TurnoutPacket.h:21-24 -/
def initData (d : Data) : Data := { BaseMessage.initData d with dlc := 6#8 }

/-- lib/RR32Can/messages/TurnoutPacket.h:26 -/
def getLocid (d : Data) : MachineTurnoutAddress := ⟨d.getLocid⟩

/-- lib/RR32Can/messages/TurnoutPacket.h:27 -/
def setLocid (d : Data) (locid : MachineTurnoutAddress) : Data := d.setLocid locid.addr

/-- lib/RR32Can/messages/TurnoutPacket.h:29 -/
def getPower (d : Data) : Bool := d.b5 != 0#8

/-- lib/RR32Can/messages/TurnoutPacket.h:30 -/
def setPower (d : Data) (power : Bool) : Data := { d with b5 := if power then 1#8 else 0#8 }

/-- lib/RR32Can/messages/TurnoutPacket.h:32 -/
def getDirection (d : Data) : TurnoutDirection := d.b4

/-- lib/RR32Can/messages/TurnoutPacket.h:33 -/
def setDirection (d : Data) (direction : TurnoutDirection) : Data := { d with b4 := direction }

/-- lib/RR32Can/messages/TurnoutPacket.h:38 -/
def AddressAsHumanValue (d : Data) : HumanTurnoutAddress := HumanTurnoutAddress.ofMachine (getLocid d)

/-- `getRailProtocol`, lib/RR32Can/messages/TurnoutPacket.h:52-63. -/
def getRailProtocol (d : Data) : RailProtocol :=
  let locid := getLocid d
  if MachineTurnoutAddress.le ⟨kSX1AccessoryAddrStart⟩ locid && locid.le ⟨kSX1AccessoryAddrStop⟩ then .SX1
  else if MachineTurnoutAddress.le ⟨kMMAccessoryAddrStart⟩ locid && locid.le ⟨kMMAccessoryAddrStop⟩ then .MM1
  else if MachineTurnoutAddress.le ⟨kDCCAccessoryAddrStart⟩ locid && locid.le ⟨kDCCccessoryAddrStop⟩ then .DCC
  else .UNKNOWN

/-- `operator==`, lib/RR32Can/messages/TurnoutPacket.cpp:36-39. -/
def eq (a b : Data) : Bool :=
  (getLocid a).eq (getLocid b) && getDirection a == getDirection b && getPower a == getPower b

end TurnoutPacket

namespace S88Event

/-- `Subtype`, lib/RR32Can/messages/S88Event.h:14. -/
inductive Subtype where
  | REQUEST | EVENT | RESPONSE
  deriving DecidableEq, Repr

/-- lib/RR32Can/messages/S88Event.h:17 -/
def initData (d : Data) : Data := BaseMessage.initData d

/-- lib/RR32Can/messages/S88Event.h:19-28 -/
def getSubtype (d : Data) : Subtype :=
  if BaseMessage.length d = 4#8 then .REQUEST
  else if BaseMessage.length d = 5#8 then .EVENT
  else .RESPONSE

/-- lib/RR32Can/messages/S88Event.h:30-42 -/
def setSubtype (d : Data) (subtype : Subtype) : Data :=
  match subtype with
  | .REQUEST => { d with dlc := 4#8 }
  | .EVENT => { d with dlc := 5#8 }
  | .RESPONSE => { d with dlc := 8#8 }

/-- lib/RR32Can/messages/S88Event.h:44-47 -/
def getDeviceId (d : Data) : MachineTurnoutAddress :=
  let addr : U16 := (d.b0.zeroExtend 16 <<< 8) ||| d.b1.zeroExtend 16
  ⟨addr.zeroExtend 32⟩

/-- lib/RR32Can/messages/S88Event.h:49-53 -/
def setDeviceId (d : Data) (addr : MachineTurnoutAddress) : Data :=
  { d with b1 := addr.addr.truncate 8, b0 := (addr.addr >>> 8).truncate 8 }

/-- lib/RR32Can/messages/S88Event.h:55-58 -/
def getContactId (d : Data) : MachineTurnoutAddress :=
  let addr : U16 := (d.b2.zeroExtend 16 <<< 8) ||| d.b3.zeroExtend 16
  ⟨addr.zeroExtend 32⟩

/-- lib/RR32Can/messages/S88Event.h:60-64 -/
def setContactId (d : Data) (addr : MachineTurnoutAddress) : Data :=
  { d with b3 := addr.addr.truncate 8, b2 := (addr.addr >>> 8).truncate 8 }

/-- lib/RR32Can/messages/S88Event.h:66-69 -/
def setStates (d : Data) (oldState newState : SensorState) : Data :=
  { d with b4 := oldState.truncate 8, b5 := newState.truncate 8 }

/-- lib/RR32Can/messages/S88Event.h:71 -/
def getOldState (d : Data) : SensorState := d.b4.zeroExtend 32

/-- lib/RR32Can/messages/S88Event.h:72 -/
def getNewState (d : Data) : SensorState := d.b5.zeroExtend 32

/-- lib/RR32Can/messages/S88Event.h:74-77 -/
def setTime (d : Data) (time : U16) : Data :=
  { d with b7 := (time &&& 0xFF#16).truncate 8, b6 := (time >>> 8).truncate 8 }

/-- lib/RR32Can/messages/S88Event.h:79-82 -/
def getTime (d : Data) : U16 := (d.b6.zeroExtend 16 <<< 8) ||| d.b7.zeroExtend 16

end S88Event

end RR32
