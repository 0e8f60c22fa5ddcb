import Verif.Model.Station
import Verif.Model.Consumers

/-!
# Console text (the `printf`s of the library)

The functions here return the bytes that a function of the library writes to the console, for the template configuration
lib/RR32Can/_RR32Can_config.h (all logging off). What these functions do otherwise is modelled in the other modules. The text of
`Setting turnout ...` is compiled in with `LOG_CAN_OUT_MSG` only.
-/

set_option autoImplicit false

namespace RR32

/-- The digits of `%x` (`upper = false`) and `%X`. -/
def hexPrint (upper : Bool) (n : Nat) : List Byte := (Nat.toDigits 16 n).map fun c => ch (if upper then c.toUpper else c)

/-- `%#0wx` and `%#0wX`: `0x` in front of a number other than 0, filled with zeros behind the prefix to at least `w` characters.
`%#02x` at lib/RR32Can/messages/Data.cpp:9, lib/RR32Can/Station.cpp:346, others at lib/RR32Can/messages/Identifier.cpp:23,
lib/RR32Can/Locomotive.cpp:22. -/
def hexZeros (upper : Bool) (w n : Nat) : List Byte :=
  let digits := hexPrint upper n
  let head := if n = 0 then [] else [ch '0', ch (if upper then 'X' else 'x')]
  head ++ List.replicate (w - head.length - digits.length) (ch '0') ++ digits

/-- `%#wx`: as before, but filled with spaces in front. lib/RR32Can/messages/TurnoutPacket.cpp:9, lib/RR32Can/Locomotive.cpp:22. -/
def hexSpaces (w n : Nat) : List Byte :=
  let text := hexZeros false 0 n
  List.replicate (w - text.length) (ch ' ') ++ text

/-- `%d` and `%i` of a `uint32_t`: the bits are taken for an `int`. lib/RR32Can/messages/TurnoutPacket.cpp:9,
lib/RR32Can/Locomotive.cpp:22. -/
def intText (n : U32) : List Byte := if n.toNat < 2 ^ 31 then decText n.toNat else ch '-' :: decText (2 ^ 32 - n.toNat)

namespace Data

/-- `printAsHex`, lib/RR32Can/messages/Data.cpp:7-11. -/
def printAsHex (d : Data) : Res (List Byte) := do
  let bytes ← d.printed
  .ok (bytes.flatMap fun b => ch ' ' :: hexZeros false 2 b.toNat)

/-- `printAsText`, lib/RR32Can/messages/Data.cpp:13-17. -/
def printAsText (d : Data) : Res (List Byte) := do
  let bytes ← d.printed
  .ok bytes

end Data

/-- `Identifier::printAll`, lib/RR32Can/messages/Identifier.cpp:22-25. -/
def Identifier.printAll (i : Identifier) : List Byte :=
  str "Prio: " ++ hexZeros true 4 i.getPriority.toNat ++ str ", Command: " ++ hexZeros true 4 i.getCommand.toNat ++
    str ", Response: " ++ hexZeros true 4 i.isResponse.toNat ++ str ", Hash: " ++ hexZeros true 6 i.getHash.toNat

namespace TurnoutPacket

/-- The text for the position, lib/RR32Can/messages/TurnoutPacket.cpp:12-25. -/
def positionText (position : TurnoutDirection) : List Byte :=
  if position = TurnoutDirection.RED then str "(off, round, red)"
  else if position = TurnoutDirection.GREEN then str "(on, straight, green)"
  else if position = TurnoutDirection.YELLOW then str "(yellow, left)"
  else if position = TurnoutDirection.WHITE then str "(white)"
  else []

/-- `printAll`, lib/RR32Can/messages/TurnoutPacket.cpp:7-34. -/
def printAll (d : Data) : List Byte :=
  let position := getDirection d
  let power := getPower d
  str "Turnout: " ++ hexSpaces 10 (getLocid d).addr.toNat ++ str ", Human Value: " ++ intText (AddressAsHumanValue d).addr ++
    str ", Position: " ++ decText position.toNat ++ str " " ++ positionText position ++
    str " Power: " ++ decText power.toNat ++ str " " ++
    (if !power then str "(off, button release)" else str "(on, button press)")

end TurnoutPacket

/-- `LocomotiveShortInfo::print`, lib/RR32Can/Locomotive.cpp:11-19. -/
def ShortInfo.printText (s : ShortInfo) : Res (List Byte) := do
  if s.availability = .EMPTY then .ok (str "  EngineShortInfo: " ++ str "Empty.\n")
  else
    let name ← cstr s.name
    .ok (str "  EngineShortInfo: " ++ str "'" ++ name ++ str "'")

/-- `LocomotiveData::print`, lib/RR32Can/Locomotive.cpp:21-24. -/
def LocomotiveData.printText (l : LocomotiveData) : List Byte :=
  str "UID: " ++ hexSpaces 10 l.uid.toNat ++ str " Addr: " ++ intText l.address.addr ++ str " V: " ++ decText l.velocity.toNat ++
    str " Dir: " ++ decText (l.direction.truncate 8 : Byte).toNat ++ str ", F: " ++ hexZeros false 4 l.functionBits.toNat ++
    str "\n"

/-- `Locomotive::print`, lib/RR32Can/Locomotive.cpp:26-32. -/
def Locomotive.printText (l : Locomotive) : Res (List Byte) := do
  let head ← l.info.printText
  if l.info.availability = .FULL_DETAILS then
    let protocol ← cstr l.protocol
    .ok (head ++ l.data.printText ++ str " Proto: " ++ protocol ++ str "\n")
  else .ok head

/-- The text of `LocoConsumer::setStreamComplete` with an engine, lib/RR32CanEngineDb/LocoConsumer.cpp:63-67. -/
def LocoConsumer.completeText (engine : Locomotive) : Res (List Byte) := do
  let text ← (engine.setAvailability .FULL_DETAILS).printText
  .ok (str "Downloaded Engine: " ++ text ++ str "\n")

/-- `LocoListConsumer::printAll`, lib/RR32CanEngineDb/LocoListConsumer.cpp:55-60. -/
def LocoListConsumer.printAll (c : LocoListConsumer) : Res (List Byte) := do
  match c.numEnginesKnownByMaster with
  | none => .error .uninitRead
  | some n =>
      let infos ← c.engineInfo.mapM ShortInfo.printText
      .ok (str "EngineBrowser: " ++ decText n.toNat ++ str " total engines.\n" ++ infos.flatten)

/-- The text of `LocoListConsumer::consumeConfigData`, lib/RR32CanEngineDb/LocoListConsumer.cpp:15-40. -/
def LocoListConsumer.consumeText (c : LocoListConsumer) (sect value : BufferManager) : Res (List Byte) := do
  if ← sect.strncmp kEngineNames then
    match c.findFirstFreeEntry with
    | none => .ok (str "No free Engine buffer found.\n")
    | some _ =>
        let name ← cstr value.mem
        .ok (str "Storing Engine " ++ name ++ str "\n")
  else if ← sect.strncmp LocoListConsumer.kSectionNumEngines then .ok []
  else
    let name ← cstr sect.mem
    .ok (str "Received config data for uninteresting section '" ++ name ++ str "'.\n")

namespace Station

/-- The text for the subcommand, lib/RR32Can/Station.cpp:59-102. The emergency stop (lines 78-83) prints nothing. -/
def subcommandText (sub : Byte) : List Byte :=
  if sub = kSubcommandSystemGo then str "GO!\n"
  else if sub = kSubcommandSystemHalt then str "Halt!\n"
  else if sub = kSubcommandSystemStop then str "STOP!\n"
  else if sub = kSubcommandLocoEmergencyStop then []
  else if sub = kSubcommandSystemIdentifier then str "Identifier.\n"
  else if sub = kSubcommandSystemOverload then str "OVERLOAD!\n"
  else if sub = kSubcommandSystemReset then str "Reset.\n"
  else if sub = kSubcommandSystemStatus then str "Status.\n"
  else str "unknown.\n"

/-- The text of `HandleSystemCommand`, lib/RR32Can/Station.cpp:55-108. -/
def systemText (msg : Data) : List Byte :=
  str "System Command. " ++
    (if BaseMessage.length msg ≥ 5#8 then str " Subcommand: " ++ subcommandText (SystemMessage.getSubcommand msg)
     else str "Invalid command.\n")

/-- The text of `HandleConfigDataStream`, lib/RR32Can/Station.cpp:38-53. What the stream parser prints is not part of it. -/
def configDataText (s : Station) (processing : Bool) (data : Data) : Res (List Byte) :=
  if s.callbacks.configData.isSome && processing then .ok []
  else do
    let text ← data.printAsText
    .ok (str "Ignoring ConfigData Stream: " ++ text)

/-- The text of `HandlePacket`, lib/RR32Can/Station.cpp:286-351. -/
def packetText (s : Station) (processing : Bool) (canFrame : CanFrame) : Res (List Byte) :=
  let command := canFrame.id.getCommand
  if command = kSystemCommand then .ok (systemText canFrame.data)
  else if command = kPing then .ok []
  else if command = kAccessorySwitch then
    .ok (str "Accessory Switch. Details: " ++ TurnoutPacket.printAll canFrame.data ++ str "\n")
  else if command = kLocoDirection then .ok []
  else if command = kLocoSpeed then .ok []
  else if command = kLocoFunction then .ok []
  else if command = kRequestConfigData then .ok []
  else if command = kConfigDataStream then s.configDataText processing canFrame.data
  else if command = kDebugText then do
    let text ← canFrame.data.printAsText
    .ok (str "Debug Text: '" ++ text ++ str "'\n")
  else do
    let text ← canFrame.data.printAsHex
    .ok (str "Unknown or not implemented. Dump: " ++ hexZeros false 2 command.toNat ++ str "\n" ++ text ++ str "\n")

/-- The text of `SendAccessoryPacket` with `LOG_CAN_OUT_MSG`, lib/RR32Can/Station.cpp:262-276. -/
def accessoryText (turnoutAddress : MachineTurnoutAddress) (protocol : RailProtocol) (direction : TurnoutDirection)
    (power : Byte) : List Byte :=
  let payload := TurnoutPacket.initData {}
  let turnoutAddress := turnoutAddress.or (getAccessoryLocIdMask protocol)
  let payload := TurnoutPacket.setLocid payload turnoutAddress
  let payload := TurnoutPacket.setDirection payload direction
  let payload := TurnoutPacket.setPower payload (power != 0#8)
  str "Setting turnout " ++ decText ((TurnoutPacket.getLocid payload).addr &&& ~~~0x3000#32).toNat ++ str " to position " ++
    (if TurnoutPacket.getDirection payload = TurnoutDirection.RED then str "RED " else str "GREEN") ++ str " " ++
    (if TurnoutPacket.getPower payload then str "(ON) " else str "(OFF)") ++ str "\n"

end Station

/-- The text of `ConfigDataStreamParser::addMessage`, lib/RR32CanEngineDb/util/ConfigDataStreamParser.cpp:13-110; what the consumer
prints is not part of it. -/
def StreamParser.messageText (p : StreamParser) (data : Data) : List Byte :=
  match p.state with
  | .IDLE => str "Received uninteresting config data (IDLE).\n"
  | .STREAM_DONE => str "Received uninteresting config data (STREAM_DONE).\n"
  | .WAITING_FIRST_PACKET =>
      if data.dlc = 6#8 ∨ data.dlc = 7#8 then []
      else if data.dlc ≥ 8#8 then str "Oversized first packet! Aborting parse.\n"
      else str "Undersized first packet! Aborting parse.\n"
  | .WAITING_DATA_PACKET => if data.dlc ≠ 8#8 then str "Undersized data packet! Aborting parse.\n" else []

end RR32
