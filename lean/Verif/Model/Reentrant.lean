import Verif.Model.World

/-!
# Callbacks that call back

The same program as in `Model/World.lean`, but the application's end-of-stream callbacks call functions of the library before they
return. The order of effects is that of the code: `ConfigDataStreamParser::reset` notifies its consumer before it changes its state, and
`Station::FinishCurrentConfigRequest` resets the parser before it forgets it. The number is the depth of nested callbacks the stack has
room for; there is no result beyond it. Consumers written by the application, and the callbacks of the station, still only record.
-/

set_option autoImplicit false

namespace RR32

/-- What an end-of-stream callback may do. -/
inductive Reaction where
  /-- `notifyConfigStreamReceived` (lib/RR32Can/Station.h:96), or `AbortCurrentConfigRequest` (lib/RR32Can/Station.cpp:36) -/
  | finish
  /-- `RequestEngineList`, lib/RR32Can/Station.cpp:110 -/
  | requestList (offset : Byte) (parser : Option Nat)
  /-- `startStream(consumer)`, lib/RR32CanEngineDb/util/ConfigDataStreamParser.h:24 -/
  | attach (parser : Nat) (consumer : Option Nat)
  deriving DecidableEq, Repr

/-- What each callback does when told that a stream is complete (`true`) or aborted (`false`). -/
abbrev React := Nat → Bool → List Reaction

/-- A run: nothing if the stack is exhausted, otherwise an undefined behaviour or a result. -/
abbrev Run (α : Type) := ExceptT Fault Option α

/-- A part of the program without callbacks. -/
def Run.lift {α : Type} (r : Res α) : Run α := ExceptT.mk (some r)

/-- The program ran and returned `a`. -/
def Run.Returns {α : Type} (r : Run α) (a : α) : Prop := r.run = some (.ok a)

/-- The stack was exhausted. -/
def Run.Exhausted {α : Type} (r : Run α) : Prop := r.run = none

namespace World

/-- What the callbacks named in a piece of the log do. -/
def reactions (R : React) (l : List LogEntry) : List Reaction :=
  l.flatMap (fun e => match e with
    | .streamEnd cb _ complete _ => R cb complete
    | _ => [])

/-- A virtual call on a consumer, whose end-of-stream callback calls back; the callback is the last thing `setStreamComplete` and
`setStreamAborted` do (lib/RR32CanEngineDb/LocoConsumer.cpp:58-78, LocoListConsumer.h:31-43). -/
def callConsumerR (R : React) (k : World → Reaction → Run World) (w : World) (c : ConsumerCall) : Run World := do
  let w' ← Run.lift (w.callConsumer c)
  (reactions R (w'.log.drop w.log.length)).foldlM k w'

/-- `parser.reset()`, lib/RR32CanEngineDb/util/ConfigDataStreamParser.h:31-43. -/
def parserResetR (R : React) (k : World → Reaction → Run World) (w : World) (n : Nat) : Run World := do
  let w ← (w.parsers n).resetNotify.foldlM (callConsumerR R k) w
  let p ← Run.lift (w.parsers n).resetClear
  pure (w.setParser n p)

/-- The packets for which `addMessage` calls `reset`, lib/RR32CanEngineDb/util/ConfigDataStreamParser.cpp:52-60,63-66. -/
def resets (p : StreamParser) (d : Data) : Bool :=
  match p.state with
  | .WAITING_FIRST_PACKET => d.dlc ≠ 6#8 ∧ d.dlc ≠ 7#8
  | .WAITING_DATA_PACKET => d.dlc ≠ 8#8
  | _ => false

/-- `parser.addMessage(data)`, lib/RR32CanEngineDb/util/ConfigDataStreamParser.cpp:13-112: the call on the consumer that ends a stream is
the last thing it does, unless it is made by `reset`. -/
def parserAddR (R : React) (k : World → Reaction → Run World) (w : World) (n : Nat) (d : Data) : Run World :=
  if resets (w.parsers n) d then parserResetR R k w n
  else do
    let (p, calls) ← Run.lift ((w.parsers n).addMessage d)
    calls.foldlM (callConsumerR R k) (w.setParser n p)

/-- The station with the given registered parser. -/
def register (w : World) (n : Option Nat) : World :=
  { w with station := { w.station with callbacks := { w.station.callbacks with configData := n } } }

/-- `FinishCurrentConfigRequest`, lib/RR32Can/Station.cpp:29-34. -/
def finishR (R : React) (k : World → Reaction → Run World) (w : World) : Run World :=
  match w.station.callbacks.configData with
  | none => pure w
  | some n => do
      let w ← parserResetR R k w n
      pure (w.register none)

/-- A reaction, with the given depth of nested reactions. -/
def perform (R : React) : Nat → World → Reaction → Run World
  | 0, _, _ => ExceptT.mk none
  | depth + 1, w, .finish => finishR R (perform R depth) w
  | depth + 1, w, .requestList offset p => do
      let w ← finishR R (perform R depth) w
      Run.lift (w.stationUpdate (w.station.RequestEngineList offset p))
  | _ + 1, w, .attach n c => Run.lift (w.step (.parserStart n c))

/-- A call of the station on one of its callbacks. -/
def runCallR (R : React) (depth : Nat) (w : World) (c : Call) : Run World :=
  match c with
  | .cfgAdd n d => w.parserAddR R (perform R depth) n d
  | .cfgReset n => w.parserResetR R (perform R depth) n
  | c => Run.lift (w.runCall c)

/-- One call of a public function by the application. `begin` and the requests first end the current request
(lib/RR32Can/Station.cpp:21-25,110-134); what they do then is what they do if there is none. `RequestEngine` (lines 136-183) ends only
requests whose parser does not wait, so its reset tells nobody and no callback runs. -/
def stepR (R : React) (depth : Nat) (w : World) (op : Op) : Run World :=
  match op with
  | .begin_ _ _ | .requestEngineList _ _ => do
      let w ← finishR R (perform R depth) w
      Run.lift (w.step op)
  | .finish | .abort | .notifyReceived => finishR R (perform R depth) w
  | .handle f => do
      let calls ← Run.lift (w.station.HandlePacket w.processing f)
      calls.foldlM (runCallR R depth) w
  | .parserAdd n d => w.parserAddR R (perform R depth) n d
  | .parserReset n => w.parserResetR R (perform R depth) n
  | op => Run.lift (w.step op)

/-- A history of calls. -/
def runR (R : React) (depth : Nat) (w : World) (ops : List Op) : Run World := ops.foldlM (stepR R depth) w

end World

end RR32
