import Verif.Model.Messages
import Verif.Model.Crc
import Verif.Model.TextParser

/-! # ConfigDataStreamParser (lib/RR32CanEngineDb/util/ConfigDataStreamParser.h, .cpp, lib/RR32Can/callback/ConfigDataCbk.h) -/

set_option autoImplicit false

namespace RR32

/-- `ConfigDataCbk::StreamState`, lib/RR32Can/callback/ConfigDataCbk.h:12. -/
inductive StreamState where
  | IDLE | WAITING_FIRST_PACKET | WAITING_DATA_PACKET | STREAM_DONE
  deriving DecidableEq, Repr

/-- What a stream parser calls on a `ConfigDataConsumer`, lib/RR32CanEngineDb/util/ConfigDataConsumer.h:13-17 and TextParser.h:26. -/
inductive ConsumerAction where
  | consume (sect key value : BufferManager)
  | complete
  | aborted
  deriving DecidableEq, Repr

/-- A call on a consumer: its object number and the function called. -/
structure ConsumerCall where
  consumer : Nat
  action : ConsumerAction
  deriving DecidableEq, Repr

/-- `ConfigDataStreamParser`, lib/RR32CanEngineDb/util/ConfigDataStreamParser.h:17,46-49 and ConfigDataCbk.h:25. The CRC has no
constructor: `none` is its indeterminate content before the first `reset`. -/
structure StreamParser where
  state : StreamState
  remaining : U32
  text : TextParser
  crc : Option Crc
  consumer : Option Nat
  deriving DecidableEq, Repr

namespace StreamParser

/-- The implicit constructor, lib/RR32CanEngineDb/util/ConfigDataStreamParser.h:46-49; the argument is the constructed text parser. -/
def construct (text : TextParser) : StreamParser :=
  { state := .IDLE, remaining := 0#32, text := text, crc := none, consumer := none }

/-- `isProcessing`, lib/RR32Can/callback/ConfigDataCbk.h:22. -/
def isProcessing (p : StreamParser) : Bool := p.state != .IDLE && p.state != .STREAM_DONE

/-- `startStream()`, lib/RR32CanEngineDb/util/ConfigDataStreamParser.h:19-22. -/
def startStream (p : StreamParser) : StreamParser := { p with state := .WAITING_FIRST_PACKET, crc := some Crc.reset }

/-- `startStream(ConfigDataConsumer*)`, lib/RR32CanEngineDb/util/ConfigDataStreamParser.h:24-27. -/
def startStreamConsumer (p : StreamParser) (consumer : Option Nat) : StreamParser :=
  { p with consumer := consumer, text := p.text.setConsumer consumer }

/-- A call `if (consumer_ != nullptr) consumer_->f()`. -/
def notify (p : StreamParser) (a : ConsumerAction) : List ConsumerCall :=
  match p.consumer with
  | none => []
  | some c => [{ consumer := c, action := a }]

/-- The first half of `reset`: the abort notification; lib/RR32CanEngineDb/util/ConfigDataStreamParser.h:32-36. -/
def resetNotify (p : StreamParser) : List ConsumerCall :=
  if p.state = .WAITING_FIRST_PACKET ∨ p.state = .WAITING_DATA_PACKET then p.notify .aborted else []

/-- The second half of `reset`: clearing the fields; lib/RR32CanEngineDb/util/ConfigDataStreamParser.h:38-42. -/
def resetClear (p : StreamParser) : Res StreamParser := do
  let text ← p.text.reset
  .ok { state := .IDLE, remaining := 0#32, text := text, crc := some Crc.reset, consumer := none }

/-- `reset`, lib/RR32CanEngineDb/util/ConfigDataStreamParser.h:31-43, if the abort notification does not call back into the parser. -/
def reset (p : StreamParser) : Res (StreamParser × List ConsumerCall) := do
  let q ← p.resetClear
  .ok (q, p.resetNotify)

/-- The checksum, which must have been initialised before it is read. -/
def getCrc (p : StreamParser) : Res Crc :=
  match p.crc with
  | none => .error .uninitRead
  | some c => .ok c

/-- The length in the first packet, lib/RR32CanEngineDb/util/ConfigDataStreamParser.cpp:26-27. -/
def firstLength (d : Data) : U32 :=
  (d.b0.zeroExtend 32 <<< 24) ||| (d.b1.zeroExtend 32 <<< 16) ||| (d.b2.zeroExtend 32 <<< 8) ||| d.b3.zeroExtend 32

/-- The CRC in the first packet, lib/RR32CanEngineDb/util/ConfigDataStreamParser.cpp:28. -/
def firstCrc (d : Data) : U16 := (d.b4.zeroExtend 16 <<< 8) ||| d.b5.zeroExtend 16

/-- The text parser's calls as calls on the consumer object. -/
def ofParseEvent (e : ParseEvent) : ConsumerCall := { consumer := e.consumer, action := .consume e.sect e.key e.value }

/-- The branch `WAITING_FIRST_PACKET` of `addMessage`, lib/RR32CanEngineDb/util/ConfigDataStreamParser.cpp:21-61. -/
def addFirst (p : StreamParser) (data : Data) : Res (StreamParser × List ConsumerCall) :=
  if data.dlc = 6#8 ∨ data.dlc = 7#8 then do
    let crc ← p.getCrc
    let p := { p with remaining := firstLength data, crc := some (crc.loadReference (firstCrc data)) }
    if p.remaining > 0#32 then .ok ({ p with state := .WAITING_DATA_PACKET }, [])
    else .ok ({ p with state := .STREAM_DONE }, p.notify .complete)
  else if data.dlc ≥ 8#8 then p.reset
  else if data.dlc < 6#8 then p.reset
  else .ok (p, [])

/-- The branch `WAITING_DATA_PACKET` of `addMessage`, lib/RR32CanEngineDb/util/ConfigDataStreamParser.cpp:62-110. -/
def addData (p : StreamParser) (data : Data) : Res (StreamParser × List ConsumerCall) :=
  if data.dlc ≠ 8#8 then p.reset
  else do
    let crc ← p.getCrc
    let crc := (data.bytes.take data.dlc.toNat).foldl Crc.updateCrc crc
    let p := { p with remaining := p.remaining - data.dlc.zeroExtend 32, crc := some crc }
    let input : BufferManager := { mem := data.bytes, cap := data.dlc.toNat, len := CanDataMaxLength }
    let (text, evs) ← p.text.addText input
    let p := { p with text := text }
    let calls := evs.map ofParseEvent
    if p.remaining = 0#32 then
      if crc.isCrcValid then .ok ({ p with state := .STREAM_DONE }, calls ++ p.notify .complete)
      else .ok ({ p with state := .IDLE }, calls ++ p.notify .aborted)
    else .ok (p, calls)

/-- `addMessage`, lib/RR32CanEngineDb/util/ConfigDataStreamParser.cpp:13-112. -/
def addMessage (p : StreamParser) (data : Data) : Res (StreamParser × List ConsumerCall) :=
  match p.state with
  | .IDLE => .ok (p, [])
  | .STREAM_DONE => .ok (p, [])
  | .WAITING_FIRST_PACKET => p.addFirst data
  | .WAITING_DATA_PACKET => p.addData data

end StreamParser

end RR32
