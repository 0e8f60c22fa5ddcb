import Verif.Model.Nested
import Verif.Model.Output

/-!
# What is printed when callbacks call back

`Model/Nested.lean` and `Model/Output.lean` together: every callback of the application may call public functions of the library before it
returns, and what these print stands where the callback was called, in the middle of what the functions further up the stack print. The
structure is that of `Model/Nested.lean`, function by function. What callbacks of the application print themselves is not part of it.
-/

set_option autoImplicit false

namespace RR32

/-- The program and everything that has been printed. -/
structure Desk where
  w : World
  out : List Byte

namespace Desk

/-- The same text. -/
def put (h : Desk) (w : World) : Desk := { h with w := w }

/-- Something is printed. -/
def say (h : Desk) (t : Res (List Byte)) : Run Desk := do
  let t ← Run.lift t
  pure { h with out := h.out ++ t }

/-- The text parser inside a stream parser. -/
def text (h : Desk) (n : Nat) : TextParser := h.w.text n

/-- Assign to a stream parser. -/
def setParser (h : Desk) (n : Nat) (p : StreamParser) : Desk := h.put (h.w.setParser n p)

/-- Assign to the text parser inside a stream parser. -/
def setText (h : Desk) (n : Nat) (t : TextParser) : Desk := h.put (h.w.setText n t)

variable (g : LogConfig) (P : Program) (k : Desk → Op → Run Desk)

/-- The callback runs. -/
def react (h : Desk) (e : LogEntry) : Run Desk := (P h.w e).foldlM k h

/-- A call on a callback of the application. -/
def tell (h : Desk) (e : LogEntry) : Run Desk := react P k (h.put (h.w.logAll [e])) e

/-- A virtual call on a consumer. One of the library prints before it calls its end-of-stream callback, and
calls it last (lib/RR32CanEngineDb/LocoConsumer.cpp:58-78, LocoListConsumer.h:31-43). -/
def callConsumer (h : Desk) (c : ConsumerCall) : Run Desk := do
  let h ← h.say (h.w.consumerText g c)
  let v ← Run.lift (h.w.callConsumer c)
  ((v.log.drop h.w.log.length).filter h.w.reachesApp).foldlM (react P k) (h.put v)

/-- Calls on consumers. -/
def tellConsumers (h : Desk) (cs : List ConsumerCall) : Run Desk := cs.foldlM (callConsumer g P k) h

/-- The calls of a text parser on its consumer. -/
def tellEvents (h : Desk) (evs : List ParseEvent) : Run Desk :=
  tellConsumers g P k h (evs.map StreamParser.ofParseEvent)

/-- `findToken`, lib/RR32CanEngineDb/util/TextParser.cpp:144-172. -/
def findToken (h : Desk) (n offset : Nat) (chars : List Byte) (d : TextParser.Dest) :
    Run (Desk × TextParser.FindTokenResult) := do
  let (t, evs, r) ← Run.lift ((h.text n).findToken offset chars d)
  let h ← tellEvents g P k (h.setText n t) evs
  pure (h, r)

/-- One turn of the loop of `processBuffer`, lib/RR32CanEngineDb/util/TextParser.cpp:64-138. -/
def processStep (h : Desk) (n consumedBytes : Nat) : Run (Desk × Nat × Bool) :=
  match (h.text n).state with
  | .LOOKING_FOR_KEY_OR_SECTION_START | .PARSING_SECTION | .LOOKING_FOR_VALUE_START | .ERROR => do
      let (t, evs, consumed, stop) ← Run.lift ((h.text n).processStep consumedBytes)
      let h ← tellEvents g P k (h.setText n t) evs
      pure (h, consumed, stop)
  | .PARSING_KEY => do
      let (h, r) ← findToken g P k h n consumedBytes [TextParser.kKeyStop, TextParser.kValueStop, 0#8] .key
      if r.success then
        if r.matchingChar = TextParser.kKeyStop then pure (h.setText n { h.text n with state := .PARSING_VALUE }, r.consumed, false)
        else if r.matchingChar = TextParser.kValueStop then
          let value ← Run.lift (h.text n).value.erase
          let h := h.setText n { h.text n with value := value }
          let h ← tellEvents g P k h (h.text n).emit
          let key ← Run.lift (h.text n).key.erase
          pure (h.setText n { h.text n with key := key, state := .LOOKING_FOR_KEY_OR_SECTION_START }, r.consumed, false)
        else pure (h, r.consumed, false)
      else pure (h, r.consumed, false)
  | .PARSING_VALUE => do
      let (h, r) ← findToken g P k h n consumedBytes [TextParser.kValueStop, 0#8] .value
      if r.success then
        let h ← tellEvents g P k h (h.text n).emit
        let key ← Run.lift (h.text n).key.erase
        let h := h.setText n { h.text n with key := key }
        let value ← Run.lift (h.text n).value.erase
        pure (h.setText n { h.text n with value := value, state := .LOOKING_FOR_KEY_OR_SECTION_START }, r.consumed, false)
      else pure (h, r.consumed, false)

/-- `processBuffer`, lib/RR32CanEngineDb/util/TextParser.cpp:60-142, with fuel. -/
def processLoop : Nat → Desk → Nat → Nat → Run (Desk × Nat)
  | 0, _, _, _ => Run.lift (.error .nonTermination)
  | fuel + 1, h, n, consumedBytes =>
      if consumedBytes < (h.text n).buffer.len then do
        let (h, consumedBytes, stop) ← processStep g P k h n consumedBytes
        if stop then pure (h, consumedBytes) else processLoop fuel h n consumedBytes
      else pure (h, consumedBytes)

/-- `reportParseError`, lib/RR32CanEngineDb/util/TextParser.cpp:24-33. -/
def reportParseError (h : Desk) (n : Nat) : Run Desk := do
  let (t, evs) ← Run.lift (h.text n).reportParseError
  tellEvents g P k (h.setText n t) evs

/-- The loop of `addText`, lib/RR32CanEngineDb/util/TextParser.cpp:45-57, with fuel. -/
def addLoop : Nat → Desk → Nat → BufferManager → Nat → Run Desk
  | 0, _, _, _, _ => Run.lift (.error .nonTermination)
  | fuel + 1, h, n, input, inputConsumed =>
      if inputConsumed < input.len then
        if (h.text n).buffer.full || (h.text n).state = .ERROR then reportParseError g P k h n
        else do
          let (buffer, m) ← Run.lift ((h.text n).buffer.push_back (input.subBufferManagerFrom inputConsumed))
          let h := h.setText n { h.text n with buffer := buffer }
          let inputConsumed := u8 (inputConsumed + m)
          let (h, consumedBufferBytes) ← processLoop g P k TextParser.loopFuel h n 0
          let buffer ← Run.lift ((h.text n).buffer.pop_front consumedBufferBytes)
          addLoop fuel (h.setText n { h.text n with buffer := buffer }) n input inputConsumed
      else pure h

/-- `addText`, lib/RR32CanEngineDb/util/TextParser.cpp:35-58. -/
def addText (h : Desk) (n : Nat) (input : BufferManager) : Run Desk :=
  if input.len > TextParser.kBufferLength || (h.text n).state = .ERROR then reportParseError g P k h n
  else addLoop g P k TextParser.loopFuel h n input 0

/-- `parser.reset()`, lib/RR32CanEngineDb/util/ConfigDataStreamParser.h:31-43: the parser is changed after the consumer has been told. -/
def parserReset (h : Desk) (n : Nat) : Run Desk := do
  let h ← tellConsumers g P k h (h.w.parsers n).resetNotify
  let p ← Run.lift (h.w.parsers n).resetClear
  pure (h.setParser n p)

/-- A data packet of 8 bytes, lib/RR32CanEngineDb/util/ConfigDataStreamParser.cpp:67-108: the line about the progress
is printed after the entries have been told and before the consumer is told of the end. -/
def parserData (h : Desk) (n : Nat) (data : Data) : Run Desk := do
  let p := h.w.parsers n
  let crc ← Run.lift (h.w.parsers n).getCrc
  let crc := (data.bytes.take data.dlc.toNat).foldl Crc.updateCrc crc
  let h := h.setParser n { h.w.parsers n with remaining := (h.w.parsers n).remaining - data.dlc.zeroExtend 32, crc := some crc }
  let h ← addText g P k h n { mem := data.bytes, cap := data.dlc.toNat, len := CanDataMaxLength }
  let h ← h.say (p.tailText g data (h.w.parsers n))
  if (h.w.parsers n).remaining = 0#32 then
    let crc ← Run.lift (h.w.parsers n).getCrc
    if crc.isCrcValid then
      let h := h.setParser n { h.w.parsers n with state := .STREAM_DONE }
      tellConsumers g P k h ((h.w.parsers n).notify .complete)
    else
      let h := h.setParser n { h.w.parsers n with state := .IDLE }
      tellConsumers g P k h ((h.w.parsers n).notify .aborted)
  else pure h

/-- `parser.addMessage(data)`, lib/RR32CanEngineDb/util/ConfigDataStreamParser.cpp:13-112. For a first packet the call on the consumer is
the last thing done. -/
def parserAdd (h : Desk) (n : Nat) (d : Data) : Run Desk := do
  let h ← h.say ((h.w.parsers n).headText g d)
  if World.resets (h.w.parsers n) d then parserReset g P k h n
  else if (h.w.parsers n).state = .WAITING_DATA_PACKET then parserData g P k h n d
  else do
    let (p, calls) ← Run.lift ((h.w.parsers n).addMessage d)
    tellConsumers g P k (h.setParser n p) calls

/-- A call of the station on one of its callbacks; frames are given to the transmit callback the station has at that time. -/
def runCall (h : Desk) (c : Call) : Run Desk :=
  match c with
  | .cfgStart n => pure (h.setParser n (h.w.parsers n).startStream)
  | .cfgAdd n d => parserAdd g P k h n d
  | .cfgReset n => parserReset g P k h n
  | .tx _ f =>
      match h.w.station.callbacks.tx with
      | none => Run.lift (.error .nullDeref)
      | some cb => tell P k h (.call (.tx cb f))
  | c => tell P k h (.call c)

/-- The calls of a station function, in order. -/
def runCalls (h : Desk) (r : Res (List Call)) : Run Desk := do
  let calls ← Run.lift r
  calls.foldlM (runCall g P k) h

/-- `FinishCurrentConfigRequest`, lib/RR32Can/Station.cpp:29-34. -/
def finish (h : Desk) : Run Desk :=
  match h.w.station.callbacks.configData with
  | none => pure h
  | some n => do
      let h ← parserReset g P k h n
      pure (h.put (h.w.register none))

/-- `callbacks_.tx->SendPacket(frame)` with 8 data bytes. -/
def send8 (h : Desk) (id : Identifier) (bytes : List Byte) : Run Desk :=
  runCalls g P k h (h.w.station.txSend { id := id, data := { ({} : Data).withBytes bytes with dlc := 8#8 } })

/-- `RequestEngine`, lib/RR32Can/Station.cpp:136-183, without what it prints when it refuses. -/
def requestEngine (h : Desk) (info : World → ShortInfo) (parser : Option Nat) : Run Desk :=
  if !(info h.w).isNameKnown then pure h
  else if h.w.station.callbacks.configData.isSome && h.w.processing then pure h
  else do
    let h ← finish g P k h
    let h := h.put (h.w.register parser)
    let h := match parser with
      | none => h
      | some n => h.setParser n (h.w.parsers n).startStream
    let id := Identifier.mk' kRequestConfigData h.w.station.senderHash
    let mem ← Run.lift (strncpy ({} : Data).bytes kEngine Data.kDataBufferLength)
    let h ← send8 g P k h id mem
    let engineNameLength ← Run.lift (strlen (info h.w).name)
    let mem ← Run.lift (strncpy ({} : Data).bytes (info h.w).name CanDataMaxLength)
    let h ← send8 g P k h id mem
    let mem ← Run.lift (if engineNameLength > CanDataMaxLength then
        strncpy ({} : Data).bytes ((info h.w).name.drop CanDataMaxLength) CanDataMaxLength
      else .ok ({} : Data).bytes)
    send8 g P k h id mem

/-- `HandlePacket`, lib/RR32Can/Station.cpp:286-351: the line end after an accessory frame is printed after the callback (line 309), everything
else before. -/
def handle (h : Desk) (f : CanFrame) : Run Desk :=
  if f.id.getCommand = kAccessorySwitch then do
    let h ← h.say (do let t ← h.w.handleText g f; .ok t.dropLast)
    let h ← runCalls g P k h (h.w.station.HandlePacket h.w.processing f)
    h.say (.ok (str "\n"))
  else do
    let h ← h.say (h.w.handleText g f)
    runCalls g P k h (h.w.station.HandlePacket h.w.processing f)

/-- One call of a public function. -/
def step (h : Desk) (op : Op) : Run Desk :=
  match op with
  | .begin_ _ _ => do
      let h ← finish g P k h
      let w ← Run.lift (h.w.step op)
      pure (h.put w)
  | .requestEngineList offset p => do
      let h ← finish g P k h
      let (s, calls) ← Run.lift (h.w.station.RequestEngineList offset p)
      runCalls g P k (h.put { h.w with station := s }) (.ok calls)
  | .requestEngine e p => say h (h.w.opText g op) >>= fun h => requestEngine g P k h (fun w => (w.engines e).info) p
  | .requestShortInfo i p => say h (h.w.opText g op) >>= fun h => requestEngine g P k h (fun _ => i) p
  | .finish | .abort | .notifyReceived => finish g P k h
  | .handle f => handle g P k h f
  | .parserAdd n d => parserAdd g P k h n d
  | .parserReset n => parserReset g P k h n
  | .requestDirection e => runCalls g P k h (h.w.station.RequestEngineDirection e)
  | .sendDirection e d => runCalls g P k h (h.w.station.SendEngineDirection e d)
  | .requestVelocity e => runCalls g P k h (h.w.station.RequestEngineVelocity e)
  | .sendVelocity e v => runCalls g P k h (h.w.station.SendEngineVelocity e v)
  | .requestFunction e f => runCalls g P k h (h.w.station.RequestEngineFunction e f)
  | .requestAllFunctions e => runCalls g P k h (h.w.station.RequestEngineAllFunctions e)
  | .sendFunction e f v => runCalls g P k h (h.w.station.SendEngineFunction e f v)
  | .sendEmergencyStop e => runCalls g P k h (h.w.station.SendEmergencyStop e)
  | .sendStop => runCalls g P k h h.w.station.SendSystemStop
  | .sendGo => runCalls g P k h h.w.station.SendSystemGo
  | .sendAccessory a p d pw => say h (h.w.opText g op) >>= fun h => runCalls g P k h (h.w.station.SendAccessoryPacket a p d pw)
  | .sendPacket f => runCalls g P k h (h.w.station.SendPacket f)
  | op => do
      let w ← Run.lift (h.w.step op)
      pure (h.put w)

/-- A call made by a callback, with the given depth of nested callbacks the stack has room for. -/
def nested : Nat → Desk → Op → Run Desk
  | 0, _, _ => ExceptT.mk none
  | depth + 1, h, op => step g P (nested depth) h op

/-- A history of calls by the main program. -/
def run (depth : Nat) (h : Desk) (ops : List Op) : Run Desk := ops.foldlM (step g P (nested g P depth)) h

end Desk

end RR32
