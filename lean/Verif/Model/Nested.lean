import Verif.Model.Reentrant

/-!
# Callbacks that call back, all of them

The same program as in `Model/World.lean`, but every callback of the application — the callbacks of the station, consumers written by the
application, end-of-stream callbacks — may call any public function of the library before it returns, and these calls may again run into
callbacks. `Model/Reentrant.lean` is the special case of end-of-stream callbacks with three kinds of calls. The order of effects is that of
the code; in particular a consumer is called from inside the text parser while the packet is being parsed. What a function keeps in
local variables while a callback runs is kept here as well; members are read again after the callback.

The packet given to `HandlePacket` or `addMessage` belongs to the caller and is assumed not to change while it is handled.
-/

set_option autoImplicit false

namespace RR32

/-- What the application's callbacks do: the calls made by a callback, in order, given the state of the program when it is called and what
it is told. The state contains everything that happened before. -/
abbrev Program := World → LogEntry → List Op

namespace World

variable (P : Program) (k : World → Op → Run World)

/-- A call that a callback of the application receives: entries in the log are such calls, except calls on consumers of the library. -/
def reachesApp (w : World) : LogEntry → Bool
  | .consumer c => w.consumers c.consumer == .app
  | _ => true

/-- The callback runs. -/
def react (w : World) (e : LogEntry) : Run World := (P w e).foldlM k w

/-- A call on a callback of the application. -/
def tell (w : World) (e : LogEntry) : Run World := react P k (w.logAll [e]) e

/-- A virtual call on a consumer. One of the library calls its end-of-stream callback last (lib/RR32CanEngineDb/LocoConsumer.cpp:58-78,
LocoListConsumer.h:31-43). -/
def callConsumerN (w : World) (c : ConsumerCall) : Run World := do
  let v ← Run.lift (w.callConsumer c)
  ((v.log.drop w.log.length).filter w.reachesApp).foldlM (react P k) v

/-- The text parser inside a stream parser. -/
def text (w : World) (n : Nat) : TextParser := (w.parsers n).text

/-- Assign to the text parser inside a stream parser. -/
def setText (w : World) (n : Nat) (t : TextParser) : World := w.setParser n { w.parsers n with text := t }

/-- The calls of a text parser on its consumer. -/
def tellEvents (w : World) (evs : List ParseEvent) : Run World := (evs.map StreamParser.ofParseEvent).foldlM (callConsumerN P k) w

/-- `findToken`, lib/RR32CanEngineDb/util/TextParser.cpp:144-172: the call on the consumer, if a token does not fit, is the last thing it
does apart from local variables. -/
def findTokenN (w : World) (n offset : Nat) (chars : List Byte) (d : TextParser.Dest) : Run (World × TextParser.FindTokenResult) := do
  let (t, evs, r) ← Run.lift ((w.text n).findToken offset chars d)
  let w ← tellEvents P k (w.setText n t) evs
  pure (w, r)

/-- One turn of the loop of `processBuffer`, lib/RR32CanEngineDb/util/TextParser.cpp:64-138. In the first branch the call on the consumer,
if there is one, is the last thing done. -/
def processStepN (w : World) (n consumedBytes : Nat) : Run (World × Nat × Bool) :=
  match (w.text n).state with
  | .LOOKING_FOR_KEY_OR_SECTION_START | .PARSING_SECTION | .LOOKING_FOR_VALUE_START | .ERROR => do
      let (t, evs, consumed, stop) ← Run.lift ((w.text n).processStep consumedBytes)
      let w ← tellEvents P k (w.setText n t) evs
      pure (w, consumed, stop)
  | .PARSING_KEY => do
      let (w, r) ← findTokenN P k w n consumedBytes [TextParser.kKeyStop, TextParser.kValueStop, 0#8] .key
      if r.success then
        if r.matchingChar = TextParser.kKeyStop then pure (w.setText n { w.text n with state := .PARSING_VALUE }, r.consumed, false)
        else if r.matchingChar = TextParser.kValueStop then
          let value ← Run.lift (w.text n).value.erase
          let w := w.setText n { w.text n with value := value }
          let w ← tellEvents P k w (w.text n).emit
          let key ← Run.lift (w.text n).key.erase
          pure (w.setText n { w.text n with key := key, state := .LOOKING_FOR_KEY_OR_SECTION_START }, r.consumed, false)
        else pure (w, r.consumed, false)
      else pure (w, r.consumed, false)
  | .PARSING_VALUE => do
      let (w, r) ← findTokenN P k w n consumedBytes [TextParser.kValueStop, 0#8] .value
      if r.success then
        let w ← tellEvents P k w (w.text n).emit
        let key ← Run.lift (w.text n).key.erase
        let w := w.setText n { w.text n with key := key }
        let value ← Run.lift (w.text n).value.erase
        pure (w.setText n { w.text n with value := value, state := .LOOKING_FOR_KEY_OR_SECTION_START }, r.consumed, false)
      else pure (w, r.consumed, false)

/-- `processBuffer`, lib/RR32CanEngineDb/util/TextParser.cpp:60-142, with fuel. -/
def processLoopN : Nat → World → Nat → Nat → Run (World × Nat)
  | 0, _, _, _ => Run.lift (.error .nonTermination)
  | fuel + 1, w, n, consumedBytes =>
      if consumedBytes < (w.text n).buffer.len then do
        let (w, consumedBytes, stop) ← processStepN P k w n consumedBytes
        if stop then pure (w, consumedBytes) else processLoopN fuel w n consumedBytes
      else pure (w, consumedBytes)

/-- `reportParseError`, lib/RR32CanEngineDb/util/TextParser.cpp:24-33. -/
def reportParseErrorN (w : World) (n : Nat) : Run World := do
  let (t, evs) ← Run.lift (w.text n).reportParseError
  tellEvents P k (w.setText n t) evs

/-- The loop of `addText`, lib/RR32CanEngineDb/util/TextParser.cpp:45-57, with fuel. -/
def addLoopN : Nat → World → Nat → BufferManager → Nat → Run World
  | 0, _, _, _, _ => Run.lift (.error .nonTermination)
  | fuel + 1, w, n, input, inputConsumed =>
      if inputConsumed < input.len then
        if (w.text n).buffer.full || (w.text n).state = .ERROR then reportParseErrorN P k w n
        else do
          let (buffer, m) ← Run.lift ((w.text n).buffer.push_back (input.subBufferManagerFrom inputConsumed))
          let w := w.setText n { w.text n with buffer := buffer }
          let inputConsumed := u8 (inputConsumed + m)
          let (w, consumedBufferBytes) ← processLoopN P k TextParser.loopFuel w n 0
          let buffer ← Run.lift ((w.text n).buffer.pop_front consumedBufferBytes)
          addLoopN fuel (w.setText n { w.text n with buffer := buffer }) n input inputConsumed
      else pure w

/-- `addText`, lib/RR32CanEngineDb/util/TextParser.cpp:35-58. -/
def addTextN (w : World) (n : Nat) (input : BufferManager) : Run World :=
  if input.len > TextParser.kBufferLength || (w.text n).state = .ERROR then reportParseErrorN P k w n
  else addLoopN P k TextParser.loopFuel w n input 0

/-- Calls on consumers by a stream parser. -/
def tellConsumers (w : World) (cs : List ConsumerCall) : Run World := cs.foldlM (callConsumerN P k) w

/-- `parser.reset()`, lib/RR32CanEngineDb/util/ConfigDataStreamParser.h:31-43. -/
def parserResetN (w : World) (n : Nat) : Run World := do
  let w ← tellConsumers P k w (w.parsers n).resetNotify
  let p ← Run.lift (w.parsers n).resetClear
  pure (w.setParser n p)

/-- A data packet of 8 bytes, lib/RR32CanEngineDb/util/ConfigDataStreamParser.cpp:67-108. -/
def parserDataN (w : World) (n : Nat) (data : Data) : Run World := do
  let crc ← Run.lift (w.parsers n).getCrc
  let crc := (data.bytes.take data.dlc.toNat).foldl Crc.updateCrc crc
  let w := w.setParser n { w.parsers n with remaining := (w.parsers n).remaining - data.dlc.zeroExtend 32, crc := some crc }
  let w ← addTextN P k w n { mem := data.bytes, cap := data.dlc.toNat, len := CanDataMaxLength }
  if (w.parsers n).remaining = 0#32 then
    let crc ← Run.lift (w.parsers n).getCrc
    if crc.isCrcValid then
      let w := w.setParser n { w.parsers n with state := .STREAM_DONE }
      tellConsumers P k w ((w.parsers n).notify .complete)
    else
      let w := w.setParser n { w.parsers n with state := .IDLE }
      tellConsumers P k w ((w.parsers n).notify .aborted)
  else pure w

/-- `parser.addMessage(data)`, lib/RR32CanEngineDb/util/ConfigDataStreamParser.cpp:13-112. For a first packet the call on the consumer is
the last thing done. -/
def parserAddN (w : World) (n : Nat) (d : Data) : Run World :=
  if resets (w.parsers n) d then parserResetN P k w n
  else if (w.parsers n).state = .WAITING_DATA_PACKET then parserDataN P k w n d
  else do
    let (p, calls) ← Run.lift ((w.parsers n).addMessage d)
    tellConsumers P k (w.setParser n p) calls

/-- A call of the station on one of its callbacks; frames are given to the transmit callback the station has at that time. -/
def runCallN (w : World) (c : Call) : Run World :=
  match c with
  | .cfgStart n => pure (w.setParser n (w.parsers n).startStream)
  | .cfgAdd n d => parserAddN P k w n d
  | .cfgReset n => parserResetN P k w n
  | .tx _ f =>
      match w.station.callbacks.tx with
      | none => Run.lift (.error .nullDeref)
      | some cb => tell P k w (.call (.tx cb f))
  | c => tell P k w (.call c)

/-- The calls of a station function, in order. -/
def runCallsN (w : World) (r : Res (List Call)) : Run World := do
  let calls ← Run.lift r
  calls.foldlM (runCallN P k) w

/-- `FinishCurrentConfigRequest`, lib/RR32Can/Station.cpp:29-34. -/
def finishN (w : World) : Run World :=
  match w.station.callbacks.configData with
  | none => pure w
  | some n => do
      let w ← parserResetN P k w n
      pure (w.register none)

/-- `callbacks_.tx->SendPacket(frame)` with 8 data bytes. -/
def send8 (w : World) (id : Identifier) (bytes : List Byte) : Run World :=
  runCallsN P k w (w.station.txSend { id := id, data := { ({} : Data).withBytes bytes with dlc := 8#8 } })

/-- `RequestEngine`, lib/RR32Can/Station.cpp:136-183: the name is read again after each packet. -/
def requestEngineN (w : World) (info : World → ShortInfo) (parser : Option Nat) : Run World :=
  if !(info w).isNameKnown then pure w
  else if w.station.callbacks.configData.isSome && w.processing then pure w
  else do
    let w ← finishN P k w
    let w := w.register parser
    let w := match parser with
      | none => w
      | some n => w.setParser n (w.parsers n).startStream
    let id := Identifier.mk' kRequestConfigData w.station.senderHash
    let mem ← Run.lift (strncpy ({} : Data).bytes kEngine Data.kDataBufferLength)
    let w ← send8 P k w id mem
    let engineNameLength ← Run.lift (strlen (info w).name)
    let mem ← Run.lift (strncpy ({} : Data).bytes (info w).name CanDataMaxLength)
    let w ← send8 P k w id mem
    let mem ← Run.lift (if engineNameLength > CanDataMaxLength then
        strncpy ({} : Data).bytes ((info w).name.drop CanDataMaxLength) CanDataMaxLength
      else .ok ({} : Data).bytes)
    send8 P k w id mem

/-- One call of a public function. `begin` and `RequestEngineList` first end the current request (lib/RR32Can/Station.cpp:21-25,110-134);
what they do then is what they do if there is none. -/
def stepN (w : World) (op : Op) : Run World :=
  match op with
  | .begin_ _ _ => do
      let w ← finishN P k w
      Run.lift (w.step op)
  | .requestEngineList offset p => do
      let w ← finishN P k w
      let (s, calls) ← Run.lift (w.station.RequestEngineList offset p)
      runCallsN P k { w with station := s } (.ok calls)
  | .requestEngine e p => requestEngineN P k w (fun w => (w.engines e).info) p
  | .requestShortInfo i p => requestEngineN P k w (fun _ => i) p
  | .finish | .abort | .notifyReceived => finishN P k w
  | .handle f => runCallsN P k w (w.station.HandlePacket w.processing f)
  | .parserAdd n d => parserAddN P k w n d
  | .parserReset n => parserResetN P k w n
  | .requestDirection e => runCallsN P k w (w.station.RequestEngineDirection e)
  | .sendDirection e d => runCallsN P k w (w.station.SendEngineDirection e d)
  | .requestVelocity e => runCallsN P k w (w.station.RequestEngineVelocity e)
  | .sendVelocity e v => runCallsN P k w (w.station.SendEngineVelocity e v)
  | .requestFunction e f => runCallsN P k w (w.station.RequestEngineFunction e f)
  | .requestAllFunctions e => runCallsN P k w (w.station.RequestEngineAllFunctions e)
  | .sendFunction e f v => runCallsN P k w (w.station.SendEngineFunction e f v)
  | .sendEmergencyStop e => runCallsN P k w (w.station.SendEmergencyStop e)
  | .sendStop => runCallsN P k w w.station.SendSystemStop
  | .sendGo => runCallsN P k w w.station.SendSystemGo
  | .sendAccessory a p d pw => runCallsN P k w (w.station.SendAccessoryPacket a p d pw)
  | .sendPacket f => runCallsN P k w (w.station.SendPacket f)
  | op => Run.lift (w.step op)

/-- A call made by a callback, with the given depth of nested callbacks the stack has room for. -/
def nested : Nat → World → Op → Run World
  | 0, _, _ => ExceptT.mk none
  | depth + 1, w, op => stepN P (nested depth) w op

/-- A history of calls by the main program. -/
def runN (depth : Nat) (w : World) (ops : List Op) : Run World := ops.foldlM (stepN P (nested P depth)) w

end World

end RR32
