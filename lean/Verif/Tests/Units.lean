import Verif.Model.Crc
import Verif.Model.Util

/-!
# The repository's unit tests, run on the model: constants, checksum, types, messages

Each theorem is one `TEST` of the file named above it, with the same inputs and the same expected values, evaluated by the kernel.
They prove nothing about all inputs; they check that the model computes what the project's own tests demand of the code.
-/

set_option autoImplicit false

namespace RR32.Tests

/-! ## test/RR32Can/ConstantsTest.cpp -/

/-- test/RR32Can/ConstantsTest.cpp:7-11 -/
theorem Constants_AccessoryMM :
    getAccessoryLocIdMask .MM1 = ⟨kMMAccessoryAddrStart⟩ ∧ getAccessoryLocIdMask .MM2 = ⟨kMMAccessoryAddrStart⟩ ∧
    getAccessoryLocIdMask .MFX = ⟨kMMAccessoryAddrStart⟩ := by decide +kernel

/-- test/RR32Can/ConstantsTest.cpp:13-16 -/
theorem Constants_AccessorySX :
    getAccessoryLocIdMask .SX1 = ⟨kSX1AccessoryAddrStart⟩ ∧ getAccessoryLocIdMask .SX2 = ⟨kSX1AccessoryAddrStart⟩ := by decide +kernel

/-- test/RR32Can/ConstantsTest.cpp:18 -/
theorem Constants_AccessoryDCC : getAccessoryLocIdMask .DCC = ⟨kDCCAccessoryAddrStart⟩ := by decide +kernel

/-! ## test/RR32Can/CrcTest.cpp -/

/-- test/RR32Can/CrcTest.cpp:7-12 -/
theorem Crc_empty : Crc.reset.isCrcValid = true ∧ Crc.reset.accumulator = 0xFFFF#16 := by decide +kernel

/-- test/RR32Can/CrcTest.cpp:14-24 -/
theorem Crc_loadReference :
    (Crc.reset.loadReference 5).isCrcValid = false ∧ (Crc.reset.loadReference 5).accumulator = 0xFFFF#16 := by decide +kernel

/-- test/RR32Can/CrcTest.cpp:26-36 -/
theorem Crc_reset :
    (Crc.reset.updateCrc 5).isCrcValid = false ∧ (Crc.reset.updateCrc 5).accumulator ≠ 0xFFFF#16 := by decide +kernel

/-- test/RR32Can/CrcTest.cpp:41-54 -/
def crcData : List Byte :=
  [0x5B, 0x6C, 0x6F, 0x6B, 0x5D, 0x0A, 0x20, 0x20, 0x20, 0x2E, 0x6E, 0x61, 0x6D, 0x65, 0x3D, 0x39,
   0x38, 0x20, 0x31, 0x30, 0x30, 0x31, 0x0A, 0x20, 0x5B, 0x6C, 0x6F, 0x6B, 0x5D, 0x0A, 0x20, 0x20,
   0x20, 0x2E, 0x6E, 0x61, 0x6D, 0x65, 0x3D, 0x42, 0x52, 0x20, 0x38, 0x36, 0x20, 0x35, 0x38, 0x32,
   0x0A, 0x20, 0x20, 0x20, 0x20, 0x20, 0x20, 0x20, 0x5B, 0x6E, 0x75, 0x6D, 0x6C, 0x6F, 0x6B, 0x73,
   0x5D, 0x0A, 0x20, 0x20, 0x20, 0x20, 0x20, 0x20, 0x20, 0x2E, 0x77, 0x65, 0x72, 0x74, 0x3D, 0x31,
   0x32, 0x0A, 0x20, 0x20, 0x20, 0x20, 0x20, 0x20]

/-- The loop of the test: the checksum, and the answers of `isCrcValid` after each byte. -/
def crcLoop : List Byte → Crc → List Bool → Crc × List Bool
  | [], c, l => (c, l)
  | b :: bs, c, l =>
      match c.updateCrc b with
      | ⟨a, r⟩ => crcLoop bs ⟨a, r⟩ (l ++ [(⟨a, r⟩ : Crc).isCrcValid])

set_option maxRecDepth 20000 in
/-- test/RR32Can/CrcTest.cpp:38-71: the sum is right after the last byte and after no byte before it. -/
theorem Crc_data1 :
    crcLoop crcData (Crc.reset.loadReference 0xDEC2) [] = (⟨0xDEC2, 0xDEC2⟩, List.replicate 87 false ++ [true]) := by decide +kernel

/-! ## test/RR32Can/TypesTest.cpp -/

/-- test/RR32Can/TypesTest.cpp:19-31, for turnouts and for engines -/
theorem Types_HumanMachineAddressConversion :
    MachineTurnoutAddress.ofHuman ⟨1⟩ = ⟨0⟩ ∧ HumanTurnoutAddress.ofMachine ⟨0⟩ = ⟨1⟩ ∧
    MachineLocomotiveAddress.ofHuman ⟨1⟩ = ⟨0⟩ ∧ HumanLocomotiveAddress.ofMachine ⟨0⟩ = ⟨1⟩ := by decide +kernel

/-- test/RR32Can/TypesTest.cpp:33-37, for turnouts and for engines -/
theorem Types_AddressWithProtocol :
    (⟨0xC042⟩ : MachineTurnoutAddress).getNumericAddress = ⟨66⟩ ∧ (⟨0xC042⟩ : MachineLocomotiveAddress).getNumericAddress = ⟨66⟩ := by
  decide +kernel

/-- test/RR32Can/TypesTest.cpp:39-51 -/
theorem Types_TurnoutAddress_AddProtocol :
    (⟨66⟩ : MachineTurnoutAddress).setProtocol .MM2 = ⟨0x3042⟩ ∧ (⟨66⟩ : MachineTurnoutAddress).setProtocol .DCC = ⟨0x3842⟩ := by decide +kernel

/-- test/RR32Can/TypesTest.cpp:53-61 -/
theorem Types_LocomotiveAddress_AddProtocol :
    (⟨66⟩ : MachineLocomotiveAddress).setProtocol .MM2 = ⟨66⟩ ∧
    ((⟨66⟩ : MachineLocomotiveAddress).setProtocol .MM2).setProtocol .DCC = ⟨0xC042⟩ := by decide +kernel

/-! ## test/RR32Can/MessagesTest.cpp -/

/-- test/RR32Can/MessagesTest.cpp:8-16 -/
theorem Messages_Identifier_Accessory_Request :
    let id := Identifier.ofU32 0x00163F15
    id.getPriority = 0 ∧ id.getCommand = kAccessorySwitch ∧ id.isResponse = false ∧ id.getHash = 16149 := by decide +kernel

/-- test/RR32Can/MessagesTest.cpp:18-26 -/
theorem Messages_Identifier_Accessory_Response :
    let id := Identifier.ofU32 0x0017271C
    id.getPriority = 0 ∧ id.getCommand = kAccessorySwitch ∧ id.isResponse = true ∧ id.getHash = 10012 := by decide +kernel

/-- test/RR32Can/MessagesTest.cpp:38-50 -/
theorem Messages_MachineTurnoutAddrEqual :
    MachineTurnoutAddress.eq ⟨6⟩ ⟨6⟩ = true ∧ MachineTurnoutAddress.eq ⟨4⟩ ⟨5⟩ = false ∧ MachineTurnoutAddress.eq ⟨4⟩ ⟨6⟩ = false ∧
    MachineTurnoutAddress.eq ⟨5⟩ ⟨6⟩ = false := by decide +kernel

/-- test/RR32Can/MessagesTest.cpp:28-36. `operator==` of human addresses compares their only member
(lib/RR32Can/types/TurnoutTypes.h:50). -/
theorem Messages_HumanTurnoutAddrEqual :
    (⟨5⟩ : HumanTurnoutAddress) = ⟨5⟩ ∧ (⟨5⟩ : HumanTurnoutAddress) ≠ ⟨6⟩ := by decide +kernel

/-- test/RR32Can/MessagesTest.cpp:52-67: the machine address on the right is converted. -/
theorem Messages_MixedTurnoutAddrEqual :
    (⟨4⟩ : HumanTurnoutAddress) ≠ .ofMachine ⟨4⟩ ∧ (⟨5⟩ : HumanTurnoutAddress) ≠ .ofMachine ⟨5⟩ ∧
    (⟨6⟩ : HumanTurnoutAddress) ≠ .ofMachine ⟨6⟩ ∧
    (⟨5⟩ : HumanTurnoutAddress) = .ofMachine ⟨4⟩ ∧ (⟨6⟩ : HumanTurnoutAddress) = .ofMachine ⟨5⟩ := by decide +kernel

/-- A turnout packet as the tests build it. -/
def turnout (address : MachineTurnoutAddress) (direction : TurnoutDirection) (power : Bool) : Data :=
  TurnoutPacket.setPower (TurnoutPacket.setDirection (TurnoutPacket.setLocid (TurnoutPacket.initData {}) address) direction) power

/-- test/RR32Can/MessagesTest.cpp:69-101 -/
theorem Messages_TurnoutPacket :
    (let d := turnout (.ofHuman ⟨11⟩) .GREEN true
     d.dlc = 6 ∧ d.bytes = [0, 0, 0, 10, 1, 1, 0, 0, 0] ∧ TurnoutPacket.getLocid d = .ofHuman ⟨11⟩ ∧
      TurnoutPacket.getDirection d = .GREEN ∧ TurnoutPacket.getPower d = true) ∧
    (let d := turnout (.ofHuman ⟨1⟩) .YELLOW false
     d.dlc = 6 ∧ d.bytes = [0, 0, 0, 0, 2, 0, 0, 0, 0] ∧ TurnoutPacket.getLocid d = .ofHuman ⟨1⟩ ∧
      TurnoutPacket.getDirection d = .YELLOW ∧ TurnoutPacket.getPower d = false) := by decide +kernel

/-- test/RR32Can/MessagesTest.cpp:103-118 -/
theorem Messages_TurnoutPacket_AddrProto :
    ∀ a ∈ [((0x3012 : U32), RailProtocol.MM1), (0x3812, .DCC), (0x2812, .SX1)],
      let d := TurnoutPacket.setLocid (TurnoutPacket.initData {}) (.ofHuman ⟨a.1⟩)
      TurnoutPacket.getRailProtocol d = a.2 ∧ (TurnoutPacket.getLocid d).getNumericAddress = .ofHuman ⟨0x12⟩ := by decide +kernel

/-- test/RR32Can/MessagesTest.cpp:120-162 -/
theorem Messages_TurnoutPacket_Serialize :
    (let d := turnout ((MachineTurnoutAddress.ofHuman ⟨13⟩).or ⟨kMMAccessoryAddrStart⟩) .WHITE true
     d.dlc = 6 ∧ d.bytes = [0, 0, 0x30, 12, 3, 1, 0, 0, 0]) ∧
    (let d := turnout ((MachineTurnoutAddress.ofHuman ⟨1⟩).or ⟨kMMAccessoryAddrStart⟩) .RED false
     d.dlc = 6 ∧ d.bytes = [0, 0, 0x30, 0, 0, 0, 0, 0, 0]) ∧
    (let d := turnout ((MachineTurnoutAddress.ofHuman ⟨320⟩).or ⟨kMMAccessoryAddrStart⟩) .GREEN true
     d.dlc = 6 ∧ d.bytes = [0, 0, 0x31, 0x3F, 1, 1, 0, 0, 0]) := by decide +kernel

/-- test/RR32Can/MessagesTest.cpp:164-216 -/
theorem Messages_TurnoutPacket_Deserialize :
    (let d : Data := { dlc := 6, b2 := 0x30, b3 := 12, b4 := 3, b5 := 1 }
     TurnoutPacket.getLocid d = (⟨kMMAccessoryAddrStart⟩ : MachineTurnoutAddress).or (.ofHuman ⟨13⟩) ∧
      TurnoutPacket.getPower d = true ∧ TurnoutPacket.getDirection d = .WHITE) ∧
    (let d : Data := { dlc := 6, b2 := 0x30 }
     TurnoutPacket.getLocid d = (⟨kMMAccessoryAddrStart⟩ : MachineTurnoutAddress).or (.ofHuman ⟨1⟩) ∧
      TurnoutPacket.getPower d = false ∧ TurnoutPacket.getDirection d = .RED) ∧
    (let d : Data := { dlc := 6, b2 := 0x31, b3 := 0x3F, b4 := 1, b5 := 1 }
     TurnoutPacket.getLocid d = (⟨kMMAccessoryAddrStart⟩ : MachineTurnoutAddress).or (.ofHuman ⟨320⟩) ∧
      TurnoutPacket.getPower d = true ∧ TurnoutPacket.getDirection d = .GREEN) := by decide +kernel

end RR32.Tests
