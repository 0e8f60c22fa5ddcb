import Verif.Model.Messages

/-! # Address helpers and frame builders (lib/RR32Can/util/constexpr.h) -/

set_option autoImplicit false

namespace RR32.Util

/-- lib/RR32Can/util/constexpr.h:20-22 -/
def MM2 (addr : MachineTurnoutAddress) : MachineTurnoutAddress := addr.or ⟨kMMAccessoryAddrStart⟩
/-- lib/RR32Can/util/constexpr.h:24-26 -/
def DCC (addr : MachineTurnoutAddress) : MachineTurnoutAddress := addr.or ⟨kDCCAccessoryAddrStart⟩
/-- lib/RR32Can/util/constexpr.h:28-30 -/
def SX1 (addr : MachineTurnoutAddress) : MachineTurnoutAddress := addr.or ⟨kSX1AccessoryAddrStart⟩
/-- lib/RR32Can/util/constexpr.h:32-35 -/
def MM2_Turnout (addr : U32) : MachineTurnoutAddress := MM2 ⟨addr⟩
/-- lib/RR32Can/util/constexpr.h:37-40 -/
def DCC_Turnout (addr : U32) : MachineTurnoutAddress := DCC ⟨addr⟩
/-- lib/RR32Can/util/constexpr.h:42-45 -/
def SX1_Turnout (addr : U32) : MachineTurnoutAddress := SX1 ⟨addr⟩

/-- `DecoderBaseAddress`, lib/RR32Can/util/constexpr.h:47-50 (`~0b11` is the `int` −4, converted to `uint32_t`). -/
def DecoderBaseAddress (addr : U32) : MachineTurnoutAddress := ⟨addr &&& ~~~3#32⟩

/-- lib/RR32Can/util/constexpr.h:57-59 -/
def MM2L (addr : MachineLocomotiveAddress) : MachineLocomotiveAddress := addr.or ⟨kMMEngineAddrStart⟩
/-- lib/RR32Can/util/constexpr.h:61-63 -/
def DCCL (addr : MachineLocomotiveAddress) : MachineLocomotiveAddress := addr.or ⟨kDCCAddrStart⟩
/-- lib/RR32Can/util/constexpr.h:65-67 -/
def SX1L (addr : MachineLocomotiveAddress) : MachineLocomotiveAddress := addr.or ⟨kSX1AddrStart⟩
/-- lib/RR32Can/util/constexpr.h:69-71 -/
def MFXL (addr : MachineLocomotiveAddress) : MachineLocomotiveAddress := addr.or ⟨kMFXAddrStart⟩
/-- lib/RR32Can/util/constexpr.h:73-76 -/
def MM2_Loco (addr : U32) : MachineLocomotiveAddress := MM2L ⟨addr⟩
/-- lib/RR32Can/util/constexpr.h:78-81 -/
def DCC_Loco (addr : U32) : MachineLocomotiveAddress := DCCL ⟨addr⟩
/-- lib/RR32Can/util/constexpr.h:83-86 -/
def SX1_Loco (addr : U32) : MachineLocomotiveAddress := SX1L ⟨addr⟩
/-- lib/RR32Can/util/constexpr.h:88-91 -/
def MFX_Loco (addr : U32) : MachineLocomotiveAddress := MFXL ⟨addr⟩

/-- `Turnout`, lib/RR32Can/util/constexpr.h:96-106. -/
def Turnout (response : Bool) (address : MachineTurnoutAddress) (direction : TurnoutDirection) (power : Bool) : CanFrame :=
  let frame : CanFrame := { id := (Identifier.mk' kAccessorySwitch 0#16).setResponse response }
  let d := TurnoutPacket.initData frame.data
  let d := TurnoutPacket.setLocid d address
  let d := TurnoutPacket.setDirection d direction
  let d := TurnoutPacket.setPower d power
  { frame with data := d }

/-- `S88Event` with four arguments, lib/RR32Can/util/constexpr.h:108-119. -/
def S88Event (device contact : MachineTurnoutAddress) (oldState newState : SensorState) : CanFrame :=
  let frame : CanFrame := { id := Identifier.mk' kS88Event 0#16 }
  let d := S88Event.initData frame.data
  let d := S88Event.setSubtype d .RESPONSE
  let d := S88Event.setDeviceId d device
  let d := S88Event.setContactId d contact
  let d := S88Event.setContactId d contact
  let d := S88Event.setStates d oldState newState
  { frame with data := d }

/-- `S88Event` with three arguments, lib/RR32Can/util/constexpr.h:121-126. -/
def S88EventNew (device contact : MachineTurnoutAddress) (newState : SensorState) : CanFrame :=
  let oldState := if newState = SensorState.OPEN then SensorState.CLOSED else SensorState.OPEN
  S88Event device contact oldState newState

/-- `System_Stop`, lib/RR32Can/util/constexpr.h:128-135. -/
def System_Stop (response : Bool) : CanFrame :=
  let frame : CanFrame := { id := (Identifier.mk' kSystemCommand 0#16).setResponse response }
  { frame with data := SystemMessage.setSubcommand (SystemMessage.initData frame.data) kSubcommandSystemStop }

/-- `System_Go`, lib/RR32Can/util/constexpr.h:137-144. -/
def System_Go (response : Bool) : CanFrame :=
  let frame : CanFrame := { id := (Identifier.mk' kSystemCommand 0#16).setResponse response }
  { frame with data := SystemMessage.setSubcommand (SystemMessage.initData frame.data) kSubcommandSystemGo }

/-- `System_Halt`, lib/RR32Can/util/constexpr.h:146-153. -/
def System_Halt (response : Bool) : CanFrame :=
  let frame : CanFrame := { id := (Identifier.mk' kSystemCommand 0#16).setResponse response }
  { frame with data := SystemMessage.setSubcommand (SystemMessage.initData frame.data) kSubcommandSystemHalt }

/-- `System_GetStatus`, lib/RR32Can/util/constexpr.h:155-161. -/
def System_GetStatus : CanFrame :=
  { id := (Identifier.mk' kSystemCommand 0#16).setResponse false, data := { ({} : Data) with dlc := 4#8 } }

/-- `System_LocoEmStop`, lib/RR32Can/util/constexpr.h:163-172. -/
def System_LocoEmStop (response : Bool) (address : MachineLocomotiveAddress) : CanFrame :=
  let frame : CanFrame := { id := (Identifier.mk' kSystemCommand 0#16).setResponse response }
  let d := { SystemMessage.initData frame.data with dlc := 5#8 }
  let d := SystemMessage.setLocid d address.addr
  let d := SystemMessage.setSubcommand d kSubcommandLocoEmergencyStop
  { frame with data := d }

/-- `LocoSpeed`, lib/RR32Can/util/constexpr.h:174-186. -/
def LocoSpeed (response : Bool) (uid : U32) (velocity : U16) : CanFrame :=
  let frame : CanFrame := { id := (Identifier.mk' kLocoSpeed 0#16).setResponse response }
  let d := { frame.data with dlc := 6#8 }
  let d := d.setLocid uid
  let limitedVelocity := if velocity > kMaxEngineVelocity then kMaxEngineVelocity else velocity
  let d := { d with b4 := (limitedVelocity >>> 8).truncate 8, b5 := limitedVelocity.truncate 8 }
  { frame with data := d }

/-- `LocoDirection`, lib/RR32Can/util/constexpr.h:194-201. -/
def LocoDirection (response : Bool) (uid : U32) (direction : EngineDirection) : CanFrame :=
  let frame : CanFrame := { id := (Identifier.mk' kLocoDirection 0#16).setResponse response }
  let d := { frame.data with dlc := 5#8 }
  let d := d.setLocid uid
  { frame with data := { d with b4 := direction.truncate 8 } }

/-- `LocoFunction`, lib/RR32Can/util/constexpr.h:203-217. -/
def LocoFunction (response : Bool) (uid : U32) (function : Byte) (onOff : Bool) : CanFrame :=
  let frame : CanFrame := { id := (Identifier.mk' kLocoFunction 0#16).setResponse response }
  let d := { frame.data with dlc := 6#8 }
  let d := d.setLocid uid
  let d := { d with b4 := function }
  { frame with data := { d with b5 := if onOff then 1#8 else 0#8 } }

/-- `limitToCANDataLength`, lib/RR32Can/util/constexpr.h:219-222, at `T = uint8_t`. -/
def limitToCANDataLength (val : Byte) : Byte := if val > 8#8 then 8#8 else val

/-- `Config_Data_Stream(uint32_t, uint16_t)`, lib/RR32Can/util/constexpr.h:232-241. -/
def Config_Data_Stream_First (streamLength : U32) (crc : U16) : CanFrame :=
  { id := Identifier.mk' kConfigDataStream 0#16,
    data := { dlc := 6#8, b0 := (streamLength >>> 24).truncate 8, b1 := (streamLength >>> 16).truncate 8,
              b2 := (streamLength >>> 8).truncate 8, b3 := streamLength.truncate 8, b4 := (crc >>> 8).truncate 8,
              b5 := (crc &&& 0xFF#16).truncate 8 } }

/-- `Config_Data_Stream(const char[9])`, lib/RR32Can/util/constexpr.h:243-247 (`memcpy` of eight bytes). -/
def Config_Data_Stream_Data (text : List Byte) : Res CanFrame :=
  if CanDataMaxLength ≤ text.length then do
    let d : Data := { dlc := 8#8 }
    let mem ← poke d.bytes (text.take CanDataMaxLength)
    .ok { id := Identifier.mk' kConfigDataStream 0#16, data := d.withBytes mem }
  else .error .oobRead

/-- `Request_Config_Data(const char*, uint8_t)`, lib/RR32Can/util/constexpr.h:249-253. -/
def Request_Config_Data_Len (text : List Byte) (msgLen : Byte) : Res CanFrame := do
  let d : Data := { dlc := limitToCANDataLength msgLen }
  let mem ← strncpy d.bytes text Data.kDataBufferLength
  .ok { id := Identifier.mk' kRequestConfigData 0#16, data := d.withBytes mem }

/-- `Request_Config_Data(const char*)`, lib/RR32Can/util/constexpr.h:255-257. -/
def Request_Config_Data (text : List Byte) : Res CanFrame := do
  let n ← strlen text
  Request_Config_Data_Len text (BitVec.ofNat 8 n)

end RR32.Util
