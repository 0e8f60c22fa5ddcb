import Verif.Model.Nested

/-!
# Received frames that change while they are handled

`HandlePacket` and `addMessage` are given references to a frame that belongs to the caller, typically the one variable that a receive loop
reads every frame into. A callback that runs meanwhile may overwrite it, for example by receiving the next frame. Here the contents of
such a frame are a function of everything that callbacks have been told so far: the frame may change in any way whenever a callback runs.
The functions of `Model/Nested.lean` that read a frame are repeated so that it is read where the code reads
it; everything else in the code copies values before it calls a callback.
-/

set_option autoImplicit false

namespace RR32

namespace World

variable (P : Program) (k : World → Op → Run World)

/-- The loop of `addText`, lib/RR32CanEngineDb/util/TextParser.cpp:45-57, with fuel: the input is read in every turn. The length of the
input is a member of the `BufferManager`, which is a local variable of `addMessage`. -/
def addLoopVar : Nat → World → Nat → (List LogEntry → List Byte) → Nat → Nat → Nat → Run World
  | 0, _, _, _, _, _, _ => Run.lift (.error .nonTermination)
  | fuel + 1, w, n, mem, cap, len, inputConsumed =>
      if inputConsumed < len then
        if (w.text n).buffer.full || (w.text n).state = .ERROR then reportParseErrorN P k w n
        else do
          let input : BufferManager := { mem := mem w.log, cap := cap, len := len }
          let (buffer, m) ← Run.lift ((w.text n).buffer.push_back (input.subBufferManagerFrom inputConsumed))
          let w := w.setText n { w.text n with buffer := buffer }
          let inputConsumed := u8 (inputConsumed + m)
          let (w, consumedBufferBytes) ← processLoopN P k TextParser.loopFuel w n 0
          let buffer ← Run.lift ((w.text n).buffer.pop_front consumedBufferBytes)
          addLoopVar fuel (w.setText n { w.text n with buffer := buffer }) n mem cap len inputConsumed
      else pure w

/-- `addText`, lib/RR32CanEngineDb/util/TextParser.cpp:35-58. -/
def addTextVar (w : World) (n : Nat) (mem : List LogEntry → List Byte) (cap len : Nat) : Run World :=
  if len > TextParser.kBufferLength || (w.text n).state = .ERROR then reportParseErrorN P k w n
  else addLoopVar P k TextParser.loopFuel w n mem cap len 0

/-- A data packet of 8 bytes, lib/RR32CanEngineDb/util/ConfigDataStreamParser.cpp:67-108: the checksum is updated before the text is
parsed. -/
def parserDataVar (w : World) (n : Nat) (data : List LogEntry → Data) : Run World := do
  let d := data w.log
  let crc ← Run.lift (w.parsers n).getCrc
  let crc := (d.bytes.take d.dlc.toNat).foldl Crc.updateCrc crc
  let w := w.setParser n { w.parsers n with remaining := (w.parsers n).remaining - d.dlc.zeroExtend 32, crc := some crc }
  let w ← addTextVar P k w n (fun l => (data l).bytes) d.dlc.toNat CanDataMaxLength
  if (w.parsers n).remaining = 0#32 then
    let crc ← Run.lift (w.parsers n).getCrc
    if crc.isCrcValid then
      let w := w.setParser n { w.parsers n with state := .STREAM_DONE }
      tellConsumers P k w ((w.parsers n).notify .complete)
    else
      let w := w.setParser n { w.parsers n with state := .IDLE }
      tellConsumers P k w ((w.parsers n).notify .aborted)
  else pure w

/-- `parser.addMessage(data)`, lib/RR32CanEngineDb/util/ConfigDataStreamParser.cpp:13-112. In the other states the packet is not read
after a call. -/
def parserAddVar (w : World) (n : Nat) (data : List LogEntry → Data) : Run World :=
  if resets (w.parsers n) (data w.log) then parserResetN P k w n
  else if (w.parsers n).state = .WAITING_DATA_PACKET then parserDataVar P k w n data
  else parserAddN P k w n (data w.log)

/-- A call of `HandlePacket`: a reference to the data is passed on to the parser; the others are given values
(lib/RR32Can/Station.cpp:286-351; the data of a turnout packet is read before the callback, for the log, and by the callback). -/
def runCallVar (frame : List LogEntry → CanFrame) (w : World) (c : Call) : Run World :=
  match c with
  | .cfgAdd n _ => parserAddVar P k w n (fun l => (frame l).data)
  | c => runCallN P k w c

/-- `HandlePacket`, lib/RR32Can/Station.cpp:286-351. -/
def handleVar (w : World) (frame : List LogEntry → CanFrame) : Run World := do
  let calls ← Run.lift (w.station.HandlePacket w.processing (frame w.log))
  calls.foldlM (runCallVar P k frame) w

end World

/-- A call by the main program; frames and packets are variables that callbacks may overwrite. -/
inductive MainOp where
  | call (op : Op)
  | handle (frame : List LogEntry → CanFrame)
  | parserAdd (parser : Nat) (data : List LogEntry → Data)

namespace World

/-- A call by the main program. -/
def stepVar (P : Program) (k : World → Op → Run World) (w : World) : MainOp → Run World
  | .call op => stepN P k w op
  | .handle frame => handleVar P k w frame
  | .parserAdd n data => parserAddVar P k w n data

/-- A history of calls by the main program. -/
def runVar (P : Program) (depth : Nat) (w : World) (ops : List MainOp) : Run World := ops.foldlM (stepVar P (nested P depth)) w

end World

end RR32
