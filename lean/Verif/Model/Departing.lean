import Verif.Model.Lifetime
import Verif.Model.Nested

/-!
# Callbacks that destroy objects

`Model/Lifetime.lean` and `Model/Nested.lean` together: every callback of the application may call public functions of the library before it
returns, and it may destroy objects, among them those whose functions are just running. Every place where the code follows a pointer or uses
a member of an object first looks whether the object still exists; in particular a function of a stream parser that goes on after a callback
has returned needs its parser again. The structure is that of `Model/Nested.lean`, function by function.

The functions carry along the objects that the functions further up the stack still use when the callback returns (`busy`). This has no
influence on what they do; a program may look at it to decide what to destroy, as a programmer does who knows from where a callback is
called.
-/

set_option autoImplicit false

namespace RR32

/-- The program and the objects that exist. -/
structure Scene where
  w : World
  live : Obj → Bool

/-- A run: nothing if the stack is exhausted, otherwise a misuse or a result. -/
abbrev RunD (α : Type) := ExceptT Misuse Option α

/-- A part of the program that follows no pointers. -/
def RunD.lift {α : Type} (r : Res α) : RunD α := ExceptT.mk (some (Out.lift r))

/-- What the application's callbacks do: calls and destructions, given the objects that are still used by the functions that are running,
the state of the program, and what the callback is told. -/
abbrev ProgramD := List Obj → Scene → LogEntry → List Act

namespace Scene

/-- The use of objects. -/
def use (h : Scene) (os : List Obj) : RunD Unit := ExceptT.mk (some (Out.check h.live os))

/-- An object is destroyed. -/
def drop (h : Scene) (o : Obj) : Scene := { h with live := fun x => x != o && h.live x }

/-- The same objects. -/
def put (h : Scene) (w : World) : Scene := { h with w := w }

/-- The text parser inside a stream parser. -/
def text (h : Scene) (n : Nat) : TextParser := h.w.text n

/-- Assign to a stream parser. -/
def setParser (h : Scene) (n : Nat) (p : StreamParser) : Scene := h.put (h.w.setParser n p)

/-- Assign to the text parser inside a stream parser. -/
def setText (h : Scene) (n : Nat) (t : TextParser) : Scene := h.put (h.w.setText n t)

variable (P : ProgramD) (k : List Obj → Scene → Act → RunD Scene)

/-- The callback runs. -/
def react (busy : List Obj) (h : Scene) (e : LogEntry) : RunD Scene := (P busy h e).foldlM (k busy) h

/-- A call on a callback of the application. -/
def tell (busy : List Obj) (h : Scene) (e : LogEntry) : RunD Scene := react P k busy (h.put (h.w.logAll [e])) e

/-- A virtual call on a consumer. One of the library calls its end-of-stream callback last, and uses nothing afterwards
(lib/RR32CanEngineDb/LocoConsumer.cpp:58-78, LocoListConsumer.h:31-43). -/
def callConsumer (busy : List Obj) (h : Scene) (c : ConsumerCall) : RunD Scene := do
  h.use (h.w.consumerUses c)
  let v ← RunD.lift (h.w.callConsumer c)
  ((v.log.drop h.w.log.length).filter h.w.reachesApp).foldlM (react P k busy) (h.put v)

/-- Calls on consumers. -/
def tellConsumers (busy : List Obj) (h : Scene) (cs : List ConsumerCall) : RunD Scene := cs.foldlM (callConsumer P k busy) h

/-- The calls of a text parser on its consumer. -/
def tellEvents (busy : List Obj) (h : Scene) (evs : List ParseEvent) : RunD Scene :=
  tellConsumers P k busy h (evs.map StreamParser.ofParseEvent)

/-- `findToken`, lib/RR32CanEngineDb/util/TextParser.cpp:144-172. -/
def findToken (busy : List Obj) (h : Scene) (n offset : Nat) (chars : List Byte) (d : TextParser.Dest) :
    RunD (Scene × TextParser.FindTokenResult) := do
  let (t, evs, r) ← RunD.lift ((h.text n).findToken offset chars d)
  let h ← tellEvents P k busy (h.setText n t) evs
  pure (h, r)

/-- One turn of the loop of `processBuffer`, lib/RR32CanEngineDb/util/TextParser.cpp:64-138. -/
def processStep (busy : List Obj) (h : Scene) (n consumedBytes : Nat) : RunD (Scene × Nat × Bool) :=
  match (h.text n).state with
  | .LOOKING_FOR_KEY_OR_SECTION_START | .PARSING_SECTION | .LOOKING_FOR_VALUE_START | .ERROR => do
      let (t, evs, consumed, stop) ← RunD.lift ((h.text n).processStep consumedBytes)
      let h ← tellEvents P k busy (h.setText n t) evs
      pure (h, consumed, stop)
  | .PARSING_KEY => do
      let (h, r) ← findToken P k busy h n consumedBytes [TextParser.kKeyStop, TextParser.kValueStop, 0#8] .key
      if r.success then
        h.use [.parser n]
        if r.matchingChar = TextParser.kKeyStop then pure (h.setText n { h.text n with state := .PARSING_VALUE }, r.consumed, false)
        else if r.matchingChar = TextParser.kValueStop then
          let value ← RunD.lift (h.text n).value.erase
          let h := h.setText n { h.text n with value := value }
          let h ← tellEvents P k busy h (h.text n).emit
          h.use [.parser n]
          let key ← RunD.lift (h.text n).key.erase
          pure (h.setText n { h.text n with key := key, state := .LOOKING_FOR_KEY_OR_SECTION_START }, r.consumed, false)
        else pure (h, r.consumed, false)
      else pure (h, r.consumed, false)
  | .PARSING_VALUE => do
      let (h, r) ← findToken P k busy h n consumedBytes [TextParser.kValueStop, 0#8] .value
      if r.success then
        h.use [.parser n]
        let h ← tellEvents P k busy h (h.text n).emit
        h.use [.parser n]
        let key ← RunD.lift (h.text n).key.erase
        let h := h.setText n { h.text n with key := key }
        let value ← RunD.lift (h.text n).value.erase
        pure (h.setText n { h.text n with value := value, state := .LOOKING_FOR_KEY_OR_SECTION_START }, r.consumed, false)
      else pure (h, r.consumed, false)

/-- `processBuffer`, lib/RR32CanEngineDb/util/TextParser.cpp:60-142, with fuel. -/
def processLoop (busy : List Obj) : Nat → Scene → Nat → Nat → RunD (Scene × Nat)
  | 0, _, _, _ => RunD.lift (.error .nonTermination)
  | fuel + 1, h, n, consumedBytes => do
      h.use [.parser n]
      if consumedBytes < (h.text n).buffer.len then do
        let (h, consumedBytes, stop) ← processStep P k busy h n consumedBytes
        if stop then pure (h, consumedBytes) else processLoop busy fuel h n consumedBytes
      else pure (h, consumedBytes)

/-- `reportParseError`, lib/RR32CanEngineDb/util/TextParser.cpp:24-33. -/
def reportParseError (busy : List Obj) (h : Scene) (n : Nat) : RunD Scene := do
  let (t, evs) ← RunD.lift (h.text n).reportParseError
  tellEvents P k busy (h.setText n t) evs

/-- The loop of `addText`, lib/RR32CanEngineDb/util/TextParser.cpp:45-57, with fuel. -/
def addLoop (busy : List Obj) : Nat → Scene → Nat → BufferManager → Nat → RunD Scene
  | 0, _, _, _, _ => RunD.lift (.error .nonTermination)
  | fuel + 1, h, n, input, inputConsumed =>
      if inputConsumed < input.len then
        if (h.text n).buffer.full || (h.text n).state = .ERROR then reportParseError P k busy h n
        else do
          let (buffer, m) ← RunD.lift ((h.text n).buffer.push_back (input.subBufferManagerFrom inputConsumed))
          let h := h.setText n { h.text n with buffer := buffer }
          let inputConsumed := u8 (inputConsumed + m)
          let (h, consumedBufferBytes) ← processLoop P k busy TextParser.loopFuel h n 0
          h.use [.parser n]
          let buffer ← RunD.lift ((h.text n).buffer.pop_front consumedBufferBytes)
          addLoop busy fuel (h.setText n { h.text n with buffer := buffer }) n input inputConsumed
      else pure h

/-- `addText`, lib/RR32CanEngineDb/util/TextParser.cpp:35-58. -/
def addText (busy : List Obj) (h : Scene) (n : Nat) (input : BufferManager) : RunD Scene :=
  if input.len > TextParser.kBufferLength || (h.text n).state = .ERROR then reportParseError P k busy h n
  else addLoop P k busy TextParser.loopFuel h n input 0

/-- `parser.reset()`, lib/RR32CanEngineDb/util/ConfigDataStreamParser.h:31-43: the parser is changed after the consumer has been told. -/
def parserReset (busy : List Obj) (h : Scene) (n : Nat) : RunD Scene := do
  h.use [.parser n]
  let h ← tellConsumers P k (.parser n :: busy) h (h.w.parsers n).resetNotify
  h.use [.parser n]
  let p ← RunD.lift (h.w.parsers n).resetClear
  pure (h.setParser n p)

/-- A data packet of 8 bytes, lib/RR32CanEngineDb/util/ConfigDataStreamParser.cpp:67-108: the parser is used after the text has been
handled, but not after the consumer has been told that the stream is over. -/
def parserData (busy : List Obj) (h : Scene) (n : Nat) (data : Data) : RunD Scene := do
  let crc ← RunD.lift (h.w.parsers n).getCrc
  let crc := (data.bytes.take data.dlc.toNat).foldl Crc.updateCrc crc
  let h := h.setParser n { h.w.parsers n with remaining := (h.w.parsers n).remaining - data.dlc.zeroExtend 32, crc := some crc }
  let h ← addText P k (.parser n :: busy) h n { mem := data.bytes, cap := data.dlc.toNat, len := CanDataMaxLength }
  h.use [.parser n]
  if (h.w.parsers n).remaining = 0#32 then
    let crc ← RunD.lift (h.w.parsers n).getCrc
    if crc.isCrcValid then
      let h := h.setParser n { h.w.parsers n with state := .STREAM_DONE }
      tellConsumers P k busy h ((h.w.parsers n).notify .complete)
    else
      let h := h.setParser n { h.w.parsers n with state := .IDLE }
      tellConsumers P k busy h ((h.w.parsers n).notify .aborted)
  else pure h

/-- `parser.addMessage(data)`, lib/RR32CanEngineDb/util/ConfigDataStreamParser.cpp:13-112. For a first packet the call on the consumer is
the last thing done. -/
def parserAdd (busy : List Obj) (h : Scene) (n : Nat) (d : Data) : RunD Scene := do
  h.use [.parser n]
  if World.resets (h.w.parsers n) d then parserReset P k busy h n
  else if (h.w.parsers n).state = .WAITING_DATA_PACKET then parserData P k busy h n d
  else do
    let (p, calls) ← RunD.lift ((h.w.parsers n).addMessage d)
    tellConsumers P k busy (h.setParser n p) calls

/-- A call of the station on one of its callbacks; the station is used again after a callback, but it is never destroyed. -/
def runCall (busy : List Obj) (h : Scene) (c : Call) : RunD Scene :=
  match c with
  | .cfgStart n => do
      h.use [.parser n]
      pure (h.setParser n (h.w.parsers n).startStream)
  | .cfgAdd n d => parserAdd P k busy h n d
  | .cfgReset n => parserReset P k busy h n
  | .tx _ f =>
      match h.w.station.callbacks.tx with
      | none => RunD.lift (.error .nullDeref)
      | some cb => do
          h.use [.tx cb]
          tell P k busy h (.call (.tx cb f))
  | c => do
      h.use [c.target]
      tell P k busy h (.call c)

/-- The calls of a station function, in order. -/
def runCalls (busy : List Obj) (h : Scene) (r : Res (List Call)) : RunD Scene := do
  let calls ← RunD.lift r
  calls.foldlM (runCall P k busy) h

/-- `FinishCurrentConfigRequest`, lib/RR32Can/Station.cpp:29-34. -/
def finish (busy : List Obj) (h : Scene) : RunD Scene :=
  match h.w.station.callbacks.configData with
  | none => pure h
  | some n => do
      let h ← parserReset P k busy h n
      pure (h.put (h.w.register none))

/-- `callbacks_.tx->SendPacket(frame)` with 8 data bytes. -/
def send8 (busy : List Obj) (h : Scene) (id : Identifier) (bytes : List Byte) : RunD Scene :=
  runCalls P k busy h (h.w.station.txSend { id := id, data := { ({} : Data).withBytes bytes with dlc := 8#8 } })

/-- `RequestEngine`, lib/RR32Can/Station.cpp:136-183: the name is read again after the first packet, and after the second one if it is
longer than 8 characters. The engine, if it is one of the objects, is needed until then, and the new parser until it has been started. -/
def requestEngine (busy : List Obj) (h : Scene) (engine : List Obj) (info : World → ShortInfo) (parser : Option Nat) : RunD Scene :=
  if !(info h.w).isNameKnown then pure h
  else if h.w.station.callbacks.configData.isSome && h.w.processing then pure h
  else do
    let h ← finish P k (parser.toList.map .parser ++ engine ++ busy) h
    let h := h.put (h.w.register parser)
    h.use (parser.toList.map .parser)
    let h := match parser with
      | none => h
      | some n => h.setParser n (h.w.parsers n).startStream
    let id := Identifier.mk' kRequestConfigData h.w.station.senderHash
    let mem ← RunD.lift (strncpy ({} : Data).bytes kEngine Data.kDataBufferLength)
    let h ← send8 P k (engine ++ busy) h id mem
    h.use engine
    let engineNameLength ← RunD.lift (strlen (info h.w).name)
    let mem ← RunD.lift (strncpy ({} : Data).bytes (info h.w).name CanDataMaxLength)
    let long := decide (engineNameLength > CanDataMaxLength)
    let h ← send8 P k ((if long then engine else []) ++ busy) h id mem
    h.use (if long then engine else [])
    let mem ← RunD.lift (if long then
        strncpy ({} : Data).bytes ((info h.w).name.drop CanDataMaxLength) CanDataMaxLength
      else .ok ({} : Data).bytes)
    send8 P k busy h id mem

/-- The objects in a set of callbacks. -/
def ofCallbacks (cbs : Callbacks) : List Obj :=
  cbs.tx.toList.map .tx ++ cbs.system.toList.map .system ++ cbs.engine.toList.map .engineCbk ++ cbs.accessory.toList.map .accessory ++
    cbs.configData.toList.map .parser

/-- One call of a public function. What `begin` and `RequestEngineList` are given is kept while they end the current request
(lib/RR32Can/Station.cpp:21-25,110-134). -/
def step (busy : List Obj) (h : Scene) (op : Op) : RunD Scene := do
  h.use (h.w.opUses op)
  match op with
  | .begin_ _ cbs => do
      let h ← finish P k (ofCallbacks cbs ++ busy) h
      let w ← RunD.lift (h.w.step op)
      pure (h.put w)
  | .requestEngineList offset p => do
      let h ← finish P k (p.toList.map .parser ++ busy) h
      let (s, calls) ← RunD.lift (h.w.station.RequestEngineList offset p)
      runCalls P k busy (h.put { h.w with station := s }) (.ok calls)
  | .requestEngine e p => requestEngine P k busy h [.engine e] (fun w => (w.engines e).info) p
  | .requestShortInfo i p => requestEngine P k busy h [] (fun _ => i) p
  | .finish | .abort | .notifyReceived => finish P k busy h
  | .handle f => runCalls P k busy h (h.w.station.HandlePacket h.w.processing f)
  | .parserAdd n d => parserAdd P k busy h n d
  | .parserReset n => parserReset P k busy h n
  | .requestDirection e => runCalls P k busy h (h.w.station.RequestEngineDirection e)
  | .sendDirection e d => runCalls P k busy h (h.w.station.SendEngineDirection e d)
  | .requestVelocity e => runCalls P k busy h (h.w.station.RequestEngineVelocity e)
  | .sendVelocity e v => runCalls P k busy h (h.w.station.SendEngineVelocity e v)
  | .requestFunction e f => runCalls P k busy h (h.w.station.RequestEngineFunction e f)
  | .requestAllFunctions e => runCalls P k busy h (h.w.station.RequestEngineAllFunctions e)
  | .sendFunction e f v => runCalls P k busy h (h.w.station.SendEngineFunction e f v)
  | .sendEmergencyStop e => runCalls P k busy h (h.w.station.SendEmergencyStop e)
  | .sendStop => runCalls P k busy h h.w.station.SendSystemStop
  | .sendGo => runCalls P k busy h h.w.station.SendSystemGo
  | .sendAccessory a p d pw => runCalls P k busy h (h.w.station.SendAccessoryPacket a p d pw)
  | .sendPacket f => runCalls P k busy h (h.w.station.SendPacket f)
  | op => do
      let w ← RunD.lift (h.w.step op)
      pure (h.put w)

/-- An object is destroyed, which cannot happen twice; the destructors of the library do nothing (Model/Lifetime.lean). -/
def destroy (h : Scene) (o : Obj) : RunD Scene := do
  h.use [o]
  pure (h.drop o)

/-- A call or a destruction. -/
def act (busy : List Obj) (h : Scene) : Act → RunD Scene
  | .call op => step P k busy h op
  | .destroy o => h.destroy o

/-- What a callback does, with the given depth of nested callbacks the stack has room for. -/
def nested : Nat → List Obj → Scene → Act → RunD Scene
  | 0, _, _, .call _ => ExceptT.mk none
  | 0, _, h, .destroy o => h.destroy o
  | depth + 1, busy, h, a => act P (nested depth) busy h a

/-- A history of calls and destructions by the main program. -/
def run (depth : Nat) (h : Scene) (acts : List Act) : RunD Scene := acts.foldlM (act P (nested P depth) []) h

end Scene

end RR32
