import Verif.Model.Console
import Verif.Model.World

/-!
# What the whole program prints

`World.step` once more, with everything that the library writes to the console, in order, for every logging configuration.
`Model/Console.lean` has the text of the single functions in the template configuration; the text that other configurations add is here.
What callbacks of the application print is not part of it.

`LOG_PING` is left out: with it switched on lib/RR32Can/Station.cpp:301 does not compile, there is no `data` in that function.
`LOG_CAN_IN_MSG` and the other switches of the template are not used by the library.
-/

set_option autoImplicit false

namespace RR32

/-- Which of the conditional `printf`s are compiled in. -/
structure LogConfig where
  /-- `LOG_CONFIG_DATA_STREAM_LEVEL >= LOG_CONFIG_DATA_STREAM_LEVEL_EVENTS` -/
  events : Bool
  /-- `LOG_CONFIG_DATA_STREAM_LEVEL >= LOG_CONFIG_DATA_STREAM_LEVEL_PACKETS` -/
  packets : Bool
  /-- `LOG_CONFIG_DATA_STREAM_LEVEL >= LOG_CONFIG_DATA_STREAM_LEVEL_ALL` -/
  all : Bool
  /-- `LOG_DUMP_CONFIG_DATA_STREAM == STD_ON` -/
  dump : Bool
  /-- `LOG_CAN_RAW_MSG_IN == STD_ON` -/
  rawIn : Bool
  /-- `LOG_CAN_OUT_MSG == STD_ON` -/
  out : Bool
  deriving DecidableEq, Repr

namespace LogConfig

/-- lib/RR32Can/_RR32Can_config.h:22-42 -/
def template : LogConfig := { events := false, packets := false, all := false, dump := false, rawIn := false, out := false }

/-- test/RR32Can_config.h:6-12: the level and its names are not defined there, so that the preprocessor compares 0 with 0. -/
def tests : LogConfig := { events := true, packets := true, all := true, dump := false, rawIn := false, out := false }

end LogConfig

/-- Text that is printed if a switch is on. -/
def printIf (on : Bool) (text : Res (List Byte)) : Res (List Byte) := if on then text else .ok []

/-- `printf("...(\"%s\", \"%s\", \"%s\")\n", section.data(), key.data(), value.data())`, lib/RR32CanEngineDb/LocoConsumer.cpp:26,
LocoListConsumer.cpp:17. -/
def entryText (head : String) (sect key value : BufferManager) : Res (List Byte) := do
  let s ← cstr sect.mem
  let k ← cstr key.mem
  let v ← cstr value.mem
  .ok (str head ++ str "::consumeConfigData(\"" ++ s ++ str "\", \"" ++ k ++ str "\", \"" ++ v ++ str "\")\n")

/-- The texts in the branches of `LocoConsumer::consumeConfigData`, lib/RR32CanEngineDb/LocoConsumer.cpp:33-55. -/
def LocoConsumer.settingText (sect key : BufferManager) : Res (List Byte) := do
  if ← strncmpEq sect.len kEngineResult sect.mem then
    if ← strncmpEq key.len LocoConsumer.kEngineKeyUid key.mem then .ok (str "Setting UID\n")
    else if ← strncmpEq key.len LocoConsumer.kEngineKeyProtocol key.mem then .ok (str "Setting protocol\n")
    else if ← strncmpEq key.len LocoConsumer.kEngineKeyAddress key.mem then .ok (str "Setting Address\n")
    else .ok []
  else .ok []

/-- What a consumer of the library prints when it is called, lib/RR32CanEngineDb/LocoConsumer.cpp:24-78, LocoListConsumer.cpp:15-40,
LocoListConsumer.h:31-43. -/
def World.consumerText (g : LogConfig) (w : World) (c : ConsumerCall) : Res (List Byte) :=
  match w.consumers c.consumer, c.action with
  | .loco l, .consume s k v => do
      let t ← printIf g.events (entryText "EngineControl" s k v)
      match ← l.currentEngine.read with
      | none => .ok t
      | some _ => do
          let t' ← printIf g.events (LocoConsumer.settingText s k)
          .ok (t ++ t')
  | .loco l, .complete => do
      match ← l.currentEngine.read with
      | none => .ok []
      | some n => LocoConsumer.completeText (w.engines n)
  | .loco _, .aborted => .ok []
  | .list l, .consume s k v => do
      let t ← printIf g.events (entryText "EngineBrowser" s k v)
      let t' ← l.consumeText s v
      .ok (t ++ t')
  | .list _, _ => .ok []
  | .app, _ => .ok []

/-- Whether a call on a consumer gives it an entry. -/
def ConsumerCall.isEntry (c : ConsumerCall) : Bool :=
  match c.action with
  | .consume _ _ _ => true
  | _ => false

namespace StreamParser

/-- What `addMessage` prints before it calls a consumer, lib/RR32CanEngineDb/util/ConfigDataStreamParser.cpp:13-73. -/
def headText (g : LogConfig) (p : StreamParser) (data : Data) : Res (List Byte) :=
  match p.state with
  | .WAITING_FIRST_PACKET =>
      if data.dlc = 6#8 ∨ data.dlc = 7#8 then
        printIf g.packets do
          let crc ← p.getCrc
          .ok (str " Stream length: " ++ intText (firstLength data) ++ str " Bytes. CRC requested: " ++
            hexZeros false 4 (firstCrc data).toNat ++ str " CRC actual: " ++ hexZeros false 4 crc.accumulator.toNat ++ str ".\n" ++
            (if data.dlc = 7#8 then str "Compressed Data!\n" else []))
      else .ok (p.messageText data)
  | .WAITING_DATA_PACKET => if data.dlc = 8#8 then printIf g.dump data.printAsText else .ok (p.messageText data)
  | _ => .ok (p.messageText data)

/-- What `addMessage` prints after the entries of a data packet, lib/RR32CanEngineDb/util/ConfigDataStreamParser.cpp:82-108; `q` is the
parser then. -/
def tailText (g : LogConfig) (p : StreamParser) (data : Data) (q : StreamParser) : Res (List Byte) :=
  if p.state = .WAITING_DATA_PACKET ∧ data.dlc = 8#8 then
    if q.remaining = 0#32 then
      printIf g.events do
        let crc ← q.getCrc
        if crc.isCrcValid then .ok (str "Stream complete!\n")
        else
          .ok (str "CRC Error - Stream aborted. CRC requested: " ++ hexZeros false 4 crc.reference.toNat ++ str ", CRC actual: " ++
            hexZeros false 4 crc.accumulator.toNat ++ str ".\n")
    else
      printIf g.packets do
        let crc ← q.getCrc
        .ok (str "Stream continues. Bytes remaining: " ++ intText q.remaining ++ str ", Current CRC: " ++
          hexZeros false 4 crc.accumulator.toNat ++ str "\n")
  else .ok []

end StreamParser

namespace World

variable (g : LogConfig)

/-- A call on a consumer, with what is printed. -/
def callConsumerO (w : World) (c : ConsumerCall) : Res (World × List Byte) := do
  let t ← w.consumerText g c
  let w ← w.callConsumer c
  .ok (w, t)

/-- Calls one after the other, with what is printed. -/
def inTurn {α : Type} (f : World → α → Res (World × List Byte)) : World → List α → Res (World × List Byte)
  | w, [] => .ok (w, [])
  | w, x :: xs => do
      let (w, t) ← f w x
      let (w, ts) ← inTurn f w xs
      .ok (w, t ++ ts)

/-- `parser.addMessage(data)`, lib/RR32CanEngineDb/util/ConfigDataStreamParser.cpp:13-112. The entries of a packet are given to the consumer
before the text at the end is printed, and that before the consumer is told of the end. -/
def parserAddO (w : World) (n : Nat) (data : Data) : Res (World × List Byte) := do
  let p := w.parsers n
  let t ← p.headText g data
  let (q, calls) ← p.addMessage data
  let (w, t') ← inTurn (callConsumerO g) (w.setParser n q) (calls.filter (·.isEntry))
  let t'' ← p.tailText g data q
  let (w, t''') ← inTurn (callConsumerO g) w (calls.filter (!·.isEntry))
  .ok (w, t ++ t' ++ t'' ++ t''')

/-- `parser.reset()`, lib/RR32CanEngineDb/util/ConfigDataStreamParser.h:31-43. -/
def parserResetO (w : World) (n : Nat) : Res (World × List Byte) := do
  let (p, calls) ← (w.parsers n).reset
  inTurn (callConsumerO g) (w.setParser n p) calls

/-- A call of the station on one of its callbacks. -/
def runCallO (w : World) (c : Call) : Res (World × List Byte) :=
  match c with
  | .cfgStart n => .ok (w.setParser n (w.parsers n).startStream, [])
  | .cfgAdd n d => w.parserAddO g n d
  | .cfgReset n => w.parserResetO g n
  | c => .ok (w.logAll [.call c], [])

/-- What `HandlePacket` prints before it calls anything that prints, lib/RR32Can/Station.cpp:38-53,286-351. The line end after an accessory
frame (line 309) is printed after the call, which the application answers. -/
def handleText (w : World) (f : CanFrame) : Res (List Byte) := do
  let raw ← printIf g.rawIn (.ok (f.id.printAll ++ str "\n"))
  let command := f.id.getCommand
  let asked ← printIf (g.all && command == kRequestConfigData) do
    let t ← f.data.printAsText
    .ok (str "Request Config Data. Payload: " ++ t ++ str "\n")
  let stream ← printIf (g.all && command == kConfigDataStream) (.ok (str "Config Data Stream.\n"))
  let packet ← printIf (g.all && command == kConfigDataStream && w.processing) do
    let h ← f.data.printAsHex
    let t ← f.data.printAsText
    .ok (h ++ str " '" ++ t ++ str "' ")
  let text ← w.station.packetText w.processing f
  .ok (raw ++ asked ++ stream ++ packet ++ text)

/-- What the functions called by the application print before they call anything that prints, lib/RR32Can/Station.cpp:137-150,273-276. -/
def opText (w : World) (op : Op) : Res (List Byte) :=
  let refused (info : ShortInfo) : Res (List Byte) :=
    if !info.isNameKnown then
      printIf g.out (.ok (str "Station::RequestEngine: No Engine Name given, dropping request.\n"))
    else if w.station.callbacks.configData.isSome && w.processing then
      printIf g.out (.ok (str "Station::RequestEngine: Request in progress, dropping request.\n"))
    else .ok []
  match op with
  | .handle f => w.handleText g f
  | .requestEngine e _ => refused (w.engines e).info
  | .requestShortInfo i _ => refused i
  | .sendAccessory a p d pw => printIf g.out (.ok (Station.accessoryText a p d pw))
  | _ => .ok []

/-- The state of the station after a call, and the calls it makes; lib/RR32Can/Station.cpp. -/
def stationPart (w : World) (op : Op) : Option (Res (Station × List Call)) :=
  let pure' (r : Res (List Call)) : Option (Res (Station × List Call)) := some (do let calls ← r; .ok (w.station, calls))
  match op with
  | .begin_ uuid cbs => some (.ok (w.station.begin_ uuid cbs))
  | .handle f => pure' (w.station.HandlePacket w.processing f)
  | .finish => some (.ok w.station.FinishCurrentConfigRequest)
  | .abort => some (.ok w.station.AbortCurrentConfigRequest)
  | .notifyReceived => some (.ok w.station.notifyConfigStreamReceived)
  | .requestEngine e p => some (w.station.RequestEngine w.processing (w.engines e).info p)
  | .requestShortInfo i p => some (w.station.RequestEngine w.processing i p)
  | .requestEngineList off p => some (w.station.RequestEngineList off p)
  | .requestDirection e => pure' (w.station.RequestEngineDirection e)
  | .sendDirection e d => pure' (w.station.SendEngineDirection e d)
  | .requestVelocity e => pure' (w.station.RequestEngineVelocity e)
  | .sendVelocity e v => pure' (w.station.SendEngineVelocity e v)
  | .requestFunction e f => pure' (w.station.RequestEngineFunction e f)
  | .requestAllFunctions e => pure' (w.station.RequestEngineAllFunctions e)
  | .sendFunction e f v => pure' (w.station.SendEngineFunction e f v)
  | .sendEmergencyStop e => pure' (w.station.SendEmergencyStop e)
  | .sendStop => pure' w.station.SendSystemStop
  | .sendGo => pure' w.station.SendSystemGo
  | .sendAccessory a p d pw => pure' (w.station.SendAccessoryPacket a p d pw)
  | .sendPacket f => pure' (w.station.SendPacket f)
  | _ => none

/-- One call of a public function, with what is printed. -/
def stepO (w : World) (op : Op) : Res (World × List Byte) := do
  let t ← w.opText g op
  match w.stationPart op, op with
  | some r, _ => do
      let (s, calls) ← r
      let (w, t') ← inTurn (runCallO g) { w with station := s } calls
      .ok (w, t ++ t')
  | none, .parserAdd n d => w.parserAddO g n d
  | none, .parserReset n => w.parserResetO g n
  | none, op => do
      let w ← w.step op
      .ok (w, t)

/-- A history of calls, with everything that is printed. -/
def runO (w : World) (ops : List Op) : Res (World × List Byte) := inTurn (stepO g) w ops

end World

end RR32
