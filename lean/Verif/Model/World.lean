import Verif.Model.Station
import Verif.Model.Consumers

/-!
# The pieces put together

One station, any number of stream parsers, consumers and engines, and an application that calls their public functions and whose
callbacks only record what they are told (they do not call back into the library; see `Model/Reentrant.lean` for callbacks that do).
There is no such object in `/repo`: this is the program a user writes, as in test/integration and README.md.
-/

set_option autoImplicit false

namespace RR32

/-- A consumer object: one of the two of the library, or one written by the application, which only records its calls
(lib/RR32CanEngineDb/util/ConfigDataConsumer.h:13-22). -/
inductive Consumer where
  | loco (c : LocoConsumer)
  | list (c : LocoListConsumer)
  | app
  deriving DecidableEq, Repr

/-- What an end-of-stream callback can read through the consumer it is given. -/
inductive Seen where
  | nothing
  | engine (e : Locomotive)
  | list (l : LocoListConsumer)
  deriving DecidableEq, Repr

/-- What an observer sees: calls on the application's callbacks, calls on consumers, end-of-stream notifications. -/
inductive LogEntry where
  | call (c : Call)
  | consumer (c : ConsumerCall)
  | streamEnd (callback consumer : Nat) (complete : Bool) (seen : Seen)
  deriving DecidableEq, Repr

/-- The state of the program. -/
structure World where
  pf : Platform
  station : Station
  parsers : Nat → StreamParser
  consumers : Nat → Consumer
  engines : Engines
  log : List LogEntry

namespace World

/-- Assign to a stream parser object. -/
def setParser (w : World) (n : Nat) (p : StreamParser) : World :=
  { w with parsers := fun m => if m = n then p else w.parsers m }

/-- Assign to a consumer object. -/
def setConsumer (w : World) (n : Nat) (c : Consumer) : World :=
  { w with consumers := fun m => if m = n then c else w.consumers m }

/-- Append to the log. -/
def logAll (w : World) (l : List LogEntry) : World := { w with log := w.log ++ l }

/-- The end callbacks a consumer calls, as log entries. -/
def endLog {σ : Type} (consumer : Nat) (f : σ → Seen) (l : List (EndCall σ)) : List LogEntry :=
  l.map (fun e => .streamEnd e.callback consumer e.complete (f e.seen))

/-- A virtual call on a consumer object: dispatch to lib/RR32CanEngineDb/LocoConsumer.cpp:24-78 or LocoListConsumer.cpp:15-40,
LocoListConsumer.h:31-43. -/
def callConsumer (w : World) (c : ConsumerCall) : Res World :=
  let w := w.logAll [.consumer c]
  match w.consumers c.consumer, c.action with
  | .loco l, .consume s k v => do
      let es ← l.consumeConfigData w.pf w.engines s k v
      .ok { w with engines := es }
  | .loco l, .complete => do
      let (es, ends) ← l.setStreamComplete w.engines
      .ok ({ w with engines := es }.logAll (endLog c.consumer .engine ends))
  | .loco l, .aborted => do
      let ends ← l.setStreamAborted
      .ok (w.logAll (endLog c.consumer (fun _ => .nothing) ends))
  | .list l, .consume s k v => do
      let l ← l.consumeConfigData w.pf s k v
      .ok (w.setConsumer c.consumer (.list l))
  | .list l, .complete => do
      let (l, ends) ← l.setStreamComplete
      .ok ((w.setConsumer c.consumer (.list l)).logAll (endLog c.consumer .list ends))
  | .list l, .aborted => do
      let (l, ends) ← l.setStreamAborted
      .ok ((w.setConsumer c.consumer (.list l)).logAll (endLog c.consumer .list ends))
  | .app, _ => .ok w

/-- A sequence of calls on consumers. -/
def callConsumers (w : World) (cs : List ConsumerCall) : Res World := cs.foldlM callConsumer w

/-- `parser.addMessage(data)`, lib/RR32CanEngineDb/util/ConfigDataStreamParser.cpp:13-112. -/
def parserAdd (w : World) (n : Nat) (data : Data) : Res World := do
  let (p, calls) ← (w.parsers n).addMessage data
  (w.setParser n p).callConsumers calls

/-- `parser.reset()`, lib/RR32CanEngineDb/util/ConfigDataStreamParser.h:31-43. -/
def parserReset (w : World) (n : Nat) : Res World := do
  let (p, calls) ← (w.parsers n).reset
  (w.setParser n p).callConsumers calls

/-- A call of the station on one of its callbacks: the `configData` calls go to the stream parsers, the others to the application. -/
def runCall (w : World) (c : Call) : Res World :=
  match c with
  | .cfgStart n => .ok (w.setParser n (w.parsers n).startStream)
  | .cfgAdd n d => w.parserAdd n d
  | .cfgReset n => w.parserReset n
  | c => .ok (w.logAll [.call c])

/-- A sequence of calls of the station. -/
def runCalls (w : World) (cs : List Call) : Res World := cs.foldlM runCall w

/-- `callbacks_.configData != nullptr && callbacks_.configData->isProcessing()`, lib/RR32Can/Station.cpp:39,144. -/
def processing (w : World) : Bool :=
  match w.station.callbacks.configData with
  | none => false
  | some n => (w.parsers n).isProcessing

end World

/-- The public functions an application can call. -/
inductive Op where
  /-- lib/RR32Can/Station.cpp:21 -/
  | begin_ (stationUUID : U16) (callbacks : Callbacks)
  /-- lib/RR32Can/Station.cpp:286 -/
  | handle (frame : CanFrame)
  /-- lib/RR32Can/Station.cpp:29 -/
  | finish
  /-- lib/RR32Can/Station.cpp:36 -/
  | abort
  /-- lib/RR32Can/Station.h:96 -/
  | notifyReceived
  /-- lib/RR32Can/Station.cpp:136 with one of the application's engines -/
  | requestEngine (engine : Nat) (parser : Option Nat)
  /-- lib/RR32Can/Station.cpp:136 with an entry of the engine browser or any other short info -/
  | requestShortInfo (info : ShortInfo) (parser : Option Nat)
  /-- lib/RR32Can/Station.cpp:110 -/
  | requestEngineList (offset : Byte) (parser : Option Nat)
  /-- lib/RR32Can/Station.cpp:185 -/
  | requestDirection (engine : LocomotiveData)
  /-- lib/RR32Can/Station.cpp:193 -/
  | sendDirection (engine : LocomotiveData) (direction : EngineDirection)
  /-- lib/RR32Can/Station.cpp:201 -/
  | requestVelocity (engine : LocomotiveData)
  /-- lib/RR32Can/Station.cpp:209 -/
  | sendVelocity (engine : LocomotiveData) (velocity : U16)
  /-- lib/RR32Can/Station.cpp:215 -/
  | requestFunction (engine : LocomotiveData) (function : Byte)
  /-- lib/RR32Can/Station.cpp:224 -/
  | requestAllFunctions (engine : LocomotiveData)
  /-- lib/RR32Can/Station.cpp:234 -/
  | sendFunction (engine : LocomotiveData) (function : Byte) (value : Bool)
  /-- lib/RR32Can/Station.cpp:239 -/
  | sendEmergencyStop (engine : LocomotiveData)
  /-- lib/RR32Can/Station.cpp:248 -/
  | sendStop
  /-- lib/RR32Can/Station.cpp:255 -/
  | sendGo
  /-- lib/RR32Can/Station.cpp:262 -/
  | sendAccessory (address : MachineTurnoutAddress) (protocol : RailProtocol) (direction : TurnoutDirection) (power : Byte)
  /-- lib/RR32Can/Station.cpp:281 -/
  | sendPacket (frame : CanFrame)
  /-- lib/RR32CanEngineDb/util/ConfigDataStreamParser.h:24 -/
  | parserStart (parser : Nat) (consumer : Option Nat)
  /-- lib/RR32CanEngineDb/util/ConfigDataStreamParser.h:19 -/
  | parserStartStream (parser : Nat)
  /-- lib/RR32CanEngineDb/util/ConfigDataStreamParser.cpp:13 -/
  | parserAdd (parser : Nat) (data : Data)
  /-- lib/RR32CanEngineDb/util/ConfigDataStreamParser.h:31 -/
  | parserReset (parser : Nat)
  /-- lib/RR32CanEngineDb/LocoConsumer.h:27 -/
  | setEngine (consumer : Nat) (engine : Option Nat)
  /-- lib/RR32CanEngineDb/util/ConfigDataConsumer.h:18 -/
  | setEndCallback (consumer : Nat) (callback : Option Nat)
  /-- lib/RR32CanEngineDb/LocoListConsumer.h:26 -/
  | setStreamOffset (consumer : Nat) (offset : Byte)
  /-- lib/RR32CanEngineDb/LocoListConsumer.cpp:42 -/
  | clearTable (consumer : Nat)
  /-- lib/RR32CanEngineDb/LocoListConsumer.cpp:48 -/
  | resetList (consumer : Nat)
  /-- `setName` on an engine, lib/RR32Can/Locomotive.h:31 -/
  | setName (engine : Nat) (name : List Byte)
  /-- any other change the application makes to an engine object -/
  | assignEngine (engine : Nat) (value : Locomotive)

/-- A pointer the application passes. -/
def Ptr.ofOption : Option Nat → Ptr
  | none => .null
  | some n => .obj n

namespace World

/-- A call of a station function that does not change the station. -/
def stationCalls (w : World) (r : Res (List Call)) : Res World := do
  let calls ← r
  w.runCalls calls

/-- A call of a station function that may change the station. -/
def stationUpdate (w : World) (r : Res (Station × List Call)) : Res World := do
  let (s, calls) ← r
  { w with station := s }.runCalls calls

/-- One call of a public function by the application. -/
def step (w : World) (op : Op) : Res World :=
  match op with
  | .begin_ uuid cbs => w.stationUpdate (.ok (w.station.begin_ uuid cbs))
  | .handle f => w.stationCalls (w.station.HandlePacket w.processing f)
  | .finish => w.stationUpdate (.ok w.station.FinishCurrentConfigRequest)
  | .abort => w.stationUpdate (.ok w.station.AbortCurrentConfigRequest)
  | .notifyReceived => w.stationUpdate (.ok w.station.notifyConfigStreamReceived)
  | .requestEngine e p => w.stationUpdate (w.station.RequestEngine w.processing (w.engines e).info p)
  | .requestShortInfo i p => w.stationUpdate (w.station.RequestEngine w.processing i p)
  | .requestEngineList off p => w.stationUpdate (w.station.RequestEngineList off p)
  | .requestDirection e => w.stationCalls (w.station.RequestEngineDirection e)
  | .sendDirection e d => w.stationCalls (w.station.SendEngineDirection e d)
  | .requestVelocity e => w.stationCalls (w.station.RequestEngineVelocity e)
  | .sendVelocity e v => w.stationCalls (w.station.SendEngineVelocity e v)
  | .requestFunction e f => w.stationCalls (w.station.RequestEngineFunction e f)
  | .requestAllFunctions e => w.stationCalls (w.station.RequestEngineAllFunctions e)
  | .sendFunction e f v => w.stationCalls (w.station.SendEngineFunction e f v)
  | .sendEmergencyStop e => w.stationCalls (w.station.SendEmergencyStop e)
  | .sendStop => w.stationCalls w.station.SendSystemStop
  | .sendGo => w.stationCalls w.station.SendSystemGo
  | .sendAccessory a p d pw => w.stationCalls (w.station.SendAccessoryPacket a p d pw)
  | .sendPacket f => w.stationCalls (w.station.SendPacket f)
  | .parserStart n c => .ok (w.setParser n ((w.parsers n).startStreamConsumer c))
  | .parserStartStream n => .ok (w.setParser n (w.parsers n).startStream)
  | .parserAdd n d => w.parserAdd n d
  | .parserReset n => w.parserReset n
  | .setEngine c e =>
      match w.consumers c with
      | .loco l => .ok (w.setConsumer c (.loco { l with currentEngine := Ptr.ofOption e }))
      | _ => .ok w
  | .setEndCallback c cb =>
      match w.consumers c with
      | .loco l => .ok (w.setConsumer c (.loco { l with streamEndCallback := Ptr.ofOption cb }))
      | .list l => .ok (w.setConsumer c (.list { l with streamEndCallback := Ptr.ofOption cb }))
      | .app => .ok w
  | .setStreamOffset c off =>
      match w.consumers c with
      | .list l => .ok (w.setConsumer c (.list (l.setStreamOffset off)))
      | _ => .ok w
  | .clearTable c =>
      match w.consumers c with
      | .list l => .ok (w.setConsumer c (.list l.clearTable))
      | _ => .ok w
  | .resetList c =>
      match w.consumers c with
      | .list l => .ok (w.setConsumer c (.list l.reset))
      | _ => .ok w
  | .setName e name => do
      let l ← (w.engines e).setName name
      .ok { w with engines := w.engines.set e l }
  | .assignEngine e l => .ok { w with engines := w.engines.set e l }

/-- A history of calls. -/
def run (w : World) (ops : List Op) : Res World := ops.foldlM step w

end World

end RR32
