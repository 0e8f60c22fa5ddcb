import Verif.Model.World

/-!
# Objects that are destroyed

The library keeps pointers: a station to its callbacks and to the stream parser of the current request, a stream parser (and the text
parser in it) to a consumer, a consumer to its end-of-stream callback and, if it is a `LocoConsumer`, to an engine. Nothing in the library
tells it that an object has been destroyed. Here the program of `Model/World.lean` runs with a record of the objects that exist, and every
place where the code follows a pointer, or calls a function of an object, first looks whether the object still exists. The destructors of
the library do nothing (lib/RR32Can/Locomotive.h:24, lib/RR32CanEngineDb/util/TextParser.h:25, ConfigDataConsumer.h:15,
BufferManager.h:33, LocoConsumer.h:19, LocoListConsumer.h:24; the others are implicit), so a destroyed object is only no longer there.
Simplified: the station itself is never destroyed; the storage of a destroyed object is not given to another one.
-/

set_option autoImplicit false

namespace RR32

/-- The objects a pointer of the library can point to. -/
inductive Obj where
  /-- lib/RR32Can/callback/TxCbk.h -/
  | tx (n : Nat)
  /-- lib/RR32Can/callback/SystemCbk.h -/
  | system (n : Nat)
  /-- lib/RR32Can/callback/EngineCbk.h -/
  | engineCbk (n : Nat)
  /-- lib/RR32Can/callback/AccessoryCbk.h -/
  | accessory (n : Nat)
  /-- lib/RR32CanEngineDb/util/ConfigDataStreamParser.h -/
  | parser (n : Nat)
  /-- lib/RR32CanEngineDb/util/ConfigDataConsumer.h -/
  | consumer (n : Nat)
  /-- lib/RR32CanEngineDb/util/ConfigDataEndStreamCallback.h -/
  | endCallback (n : Nat)
  /-- lib/RR32Can/Locomotive.h:152 -/
  | engine (n : Nat)
  deriving DecidableEq, Repr

/-- How a program with destroyed objects can go wrong: as before, or by the use of an object that no longer exists. -/
inductive Misuse where
  | fault (f : Fault)
  | dangling (o : Obj)
  deriving DecidableEq, Repr

/-- The outcome of a function. -/
abbrev Out (α : Type) := Except Misuse α

/-- A function that follows no pointers. -/
def Out.lift {α : Type} : Res α → Out α
  | .ok a => .ok a
  | .error f => .error (.fault f)

/-- The use of objects, one after the other. -/
def Out.check (live : Obj → Bool) : List Obj → Out Unit
  | [] => .ok ()
  | o :: os => if live o then Out.check live os else .error (.dangling o)

/-- The object a pointer field points to. -/
def Ptr.obj? : Ptr → Option Nat
  | .obj n => some n
  | _ => none

/-- The object of a call of a station. -/
def Call.target : Call → Obj
  | .tx cb _ => .tx cb
  | .setSystemState cb _ _ => .system cb
  | .setLocoVelocity cb _ _ => .engineCbk cb
  | .setAllVelocity cb _ => .engineCbk cb
  | .setLocoFunction cb _ _ _ => .engineCbk cb
  | .setLocoDirection cb _ _ => .engineCbk cb
  | .changeLocoDirection cb _ => .engineCbk cb
  | .onAccessoryPacket cb _ _ => .accessory cb
  | .cfgStart cb => .parser cb
  | .cfgAdd cb _ => .parser cb
  | .cfgReset cb => .parser cb

namespace World

/-- The objects a virtual call on a consumer uses, the consumer first.
`LocoConsumer::consumeConfigData` (lib/RR32CanEngineDb/LocoConsumer.cpp:24-56) returns if no engine is selected, else it works on it;
`setStreamComplete` (:58-72) likewise, and then calls the end-of-stream callback; `setStreamAborted` (:74-78) calls only the callback.
`LocoListConsumer` has its table inside (LocoListConsumer.cpp:15-40) and calls the callback at the end (LocoListConsumer.h:31-43). -/
def consumerUses (w : World) (c : ConsumerCall) : List Obj :=
  .consumer c.consumer ::
    match w.consumers c.consumer, c.action with
    | .loco l, .consume _ _ _ => l.currentEngine.obj?.toList.map .engine
    | .loco l, .complete =>
        match l.currentEngine.obj? with
        | some e => .engine e :: l.streamEndCallback.obj?.toList.map .endCallback
        | none => []
    | .loco l, .aborted => l.streamEndCallback.obj?.toList.map .endCallback
    | .list _, .consume _ _ _ => []
    | .list l, .complete => l.streamEndCallback.obj?.toList.map .endCallback
    | .list l, .aborted => l.streamEndCallback.obj?.toList.map .endCallback
    | .app, _ => []

/-- `callConsumer` with destroyed objects. -/
def callConsumerL (live : Obj → Bool) (w : World) (c : ConsumerCall) : Out World := do
  Out.check live (w.consumerUses c)
  Out.lift (w.callConsumer c)

/-- `callConsumers` with destroyed objects. -/
def callConsumersL (live : Obj → Bool) (w : World) (cs : List ConsumerCall) : Out World := cs.foldlM (callConsumerL live) w

/-- `parser.addMessage(data)`, lib/RR32CanEngineDb/util/ConfigDataStreamParser.cpp:13-112, with destroyed objects. -/
def parserAddL (live : Obj → Bool) (w : World) (n : Nat) (data : Data) : Out World := do
  Out.check live [.parser n]
  let (p, calls) ← Out.lift ((w.parsers n).addMessage data)
  (w.setParser n p).callConsumersL live calls

/-- `parser.reset()`, lib/RR32CanEngineDb/util/ConfigDataStreamParser.h:31-43, with destroyed objects. -/
def parserResetL (live : Obj → Bool) (w : World) (n : Nat) : Out World := do
  Out.check live [.parser n]
  let (p, calls) ← Out.lift (w.parsers n).reset
  (w.setParser n p).callConsumersL live calls

/-- `runCall` with destroyed objects. -/
def runCallL (live : Obj → Bool) (w : World) (c : Call) : Out World :=
  match c with
  | .cfgAdd n d => w.parserAddL live n d
  | .cfgReset n => w.parserResetL live n
  | c => do
      Out.check live [c.target]
      Out.lift (w.runCall c)

/-- `runCalls` with destroyed objects. -/
def runCallsL (live : Obj → Bool) (w : World) (cs : List Call) : Out World := cs.foldlM (runCallL live) w

/-- The parser of the current request, if a function asks it whether it is processing; lib/RR32Can/Station.cpp:39,144. -/
def asksParser (w : World) : List Obj := w.station.callbacks.configData.toList.map .parser

/-- The objects a function uses before it calls anything: those it is called for, an engine given by reference
(lib/RR32Can/Station.cpp:136), and the parser of the current request, which is asked whether it is processing when data is received
(:39) or an engine with a known name is requested (:144, after the test in :137). -/
def opUses (w : World) : Op → List Obj
  | .handle f => if f.id.getCommand = kConfigDataStream then w.asksParser else []
  | .requestEngine e _ => .engine e :: if (w.engines e).info.isNameKnown then w.asksParser else []
  | .requestShortInfo i _ => if i.isNameKnown then w.asksParser else []
  | .parserStart n _ | .parserStartStream n | .parserAdd n _ | .parserReset n => [.parser n]
  | .setEngine c _ | .setEndCallback c _ | .setStreamOffset c _ | .clearTable c | .resetList c => [.consumer c]
  | .setName e _ | .assignEngine e _ => [.engine e]
  | _ => []

/-- What a function of the station does: the new station and the calls it makes; `none` for the functions of other objects. The cases are
those of `World.step`. -/
def stationDoes (w : World) : Op → Option (Res (Station × List Call))
  | .begin_ uuid cbs => some (.ok (w.station.begin_ uuid cbs))
  | .handle f => some ((w.station.HandlePacket w.processing f).map (w.station, ·))
  | .finish => some (.ok w.station.FinishCurrentConfigRequest)
  | .abort => some (.ok w.station.AbortCurrentConfigRequest)
  | .notifyReceived => some (.ok w.station.notifyConfigStreamReceived)
  | .requestEngine e p => some (w.station.RequestEngine w.processing (w.engines e).info p)
  | .requestShortInfo i p => some (w.station.RequestEngine w.processing i p)
  | .requestEngineList off p => some (w.station.RequestEngineList off p)
  | .requestDirection e => some ((w.station.RequestEngineDirection e).map (w.station, ·))
  | .sendDirection e d => some ((w.station.SendEngineDirection e d).map (w.station, ·))
  | .requestVelocity e => some ((w.station.RequestEngineVelocity e).map (w.station, ·))
  | .sendVelocity e v => some ((w.station.SendEngineVelocity e v).map (w.station, ·))
  | .requestFunction e f => some ((w.station.RequestEngineFunction e f).map (w.station, ·))
  | .requestAllFunctions e => some ((w.station.RequestEngineAllFunctions e).map (w.station, ·))
  | .sendFunction e f v => some ((w.station.SendEngineFunction e f v).map (w.station, ·))
  | .sendEmergencyStop e => some ((w.station.SendEmergencyStop e).map (w.station, ·))
  | .sendStop => some (w.station.SendSystemStop.map (w.station, ·))
  | .sendGo => some (w.station.SendSystemGo.map (w.station, ·))
  | .sendAccessory a p d pw => some ((w.station.SendAccessoryPacket a p d pw).map (w.station, ·))
  | .sendPacket f => some ((w.station.SendPacket f).map (w.station, ·))
  | _ => none

/-- One call of a public function by the application, with destroyed objects. -/
def stepL (live : Obj → Bool) (w : World) (op : Op) : Out World := do
  Out.check live (w.opUses op)
  match w.stationDoes op with
  | some r => do
      let (s, calls) ← Out.lift r
      { w with station := s }.runCallsL live calls
  | none =>
      match op with
      | .parserAdd n d => w.parserAddL live n d
      | .parserReset n => w.parserResetL live n
      | op => Out.lift (w.step op)

end World

/-- What a program does: it calls public functions, and destroys objects. -/
inductive Act where
  | call (op : Op)
  | destroy (o : Obj)

namespace World

/-- A history of calls and destructions; an object cannot be destroyed twice. -/
def runL (live : Obj → Bool) (w : World) : List Act → Out ((Obj → Bool) × World)
  | [] => .ok (live, w)
  | .call op :: acts => do
      let w ← w.stepL live op
      runL live w acts
  | .destroy o :: acts => do
      Out.check live [o]
      runL (fun x => x != o && live x) w acts

end World

end RR32
