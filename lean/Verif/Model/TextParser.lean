import Verif.Model.BufferManager

/-! # TextParser (lib/RR32CanEngineDb/util/TextParser.h, lib/RR32CanEngineDb/util/TextParser.cpp) -/

set_option autoImplicit false

namespace RR32

/-- One call of `TextParserConsumer::consumeConfigData`, lib/RR32CanEngineDb/util/TextParser.h:26: the consumer called, and the
three buffers as they are during the call. -/
structure ParseEvent where
  consumer : Nat
  sect : BufferManager
  key : BufferManager
  value : BufferManager
  deriving DecidableEq, Repr

/-- `TextParser::State`, lib/RR32CanEngineDb/util/TextParser.h:41-48. -/
inductive ParserState where
  | LOOKING_FOR_KEY_OR_SECTION_START | PARSING_SECTION | PARSING_KEY | LOOKING_FOR_VALUE_START | PARSING_VALUE | ERROR
  deriving DecidableEq, Repr

/-- `TextParser`, lib/RR32CanEngineDb/util/TextParser.h:37,103-116. `consumer` is the object number of `consumer_`. -/
structure TextParser where
  state : ParserState
  consumer : Option Nat
  buffer : BufferManager
  sect : BufferManager
  key : BufferManager
  value : BufferManager
  deriving DecidableEq, Repr

namespace TextParser

/-- lib/RR32CanEngineDb/util/TextParser.h:53 -/
def kBufferLength : Nat := 30
/-- lib/RR32CanEngineDb/util/TextParser.h:55 -/
def kSectionLength : Nat := 10
/-- lib/RR32CanEngineDb/util/TextParser.h:56 -/
def kKeyLength : Nat := 10
/-- lib/RR32CanEngineDb/util/TextParser.h:57 -/
def kValueLength : Nat := 25
/-- lib/RR32CanEngineDb/util/TextParser.h:59 -/
def kKeyOrSectionStart : List Byte := lit ".["
/-- lib/RR32CanEngineDb/util/TextParser.h:60 -/
def kSectionStart : Byte := ch '['
/-- lib/RR32CanEngineDb/util/TextParser.h:61 -/
def kSectionStop : List Byte := lit "]"
/-- lib/RR32CanEngineDb/util/TextParser.h:62 -/
def kKeyStart : Byte := ch '.'
/-- `kKeyStop[0]`, lib/RR32CanEngineDb/util/TextParser.h:63. -/
def kKeyStop : Byte := ch '='
/-- `kValueStop[0]`, lib/RR32CanEngineDb/util/TextParser.h:65. -/
def kValueStop : Byte := ch '\n'

/-- `reset`, lib/RR32CanEngineDb/util/TextParser.cpp:15-22. -/
def reset (p : TextParser) : Res TextParser := do
  let buffer ← p.buffer.erase
  let sect ← p.sect.erase
  let key ← p.key.erase
  let value ← p.value.erase
  .ok { state := .LOOKING_FOR_KEY_OR_SECTION_START, consumer := none, buffer := buffer, sect := sect, key := key,
        value := value }

/-- The constructor, lib/RR32CanEngineDb/util/TextParser.cpp:7-13; the arguments are the indeterminate contents of the four arrays. -/
def construct (rawbuffer rawsection rawkey rawvalue : List Byte) : Res TextParser :=
  reset { state := .LOOKING_FOR_KEY_OR_SECTION_START, consumer := none,
          buffer := BufferManager.construct rawbuffer (kBufferLength + 1),
          sect := BufferManager.construct rawsection (kSectionLength + 1),
          key := BufferManager.construct rawkey (kKeyLength + 1),
          value := BufferManager.construct rawvalue (kValueLength + 1) }

/-- `setConsumer`, lib/RR32CanEngineDb/util/TextParser.h:69. -/
def setConsumer (p : TextParser) (consumer : Option Nat) : TextParser := { p with consumer := consumer }

/-- The calls `if (consumer_ != nullptr) consumer_->consumeConfigData(section, key, value)`,
lib/RR32CanEngineDb/util/TextParser.cpp:30-32,99-101,125-127. -/
def emit (p : TextParser) : List ParseEvent :=
  match p.consumer with
  | none => []
  | some c => [{ consumer := c, sect := p.sect, key := p.key, value := p.value }]

/-- `reportParseError`, lib/RR32CanEngineDb/util/TextParser.cpp:24-33. -/
def reportParseError (p : TextParser) : Res (TextParser × List ParseEvent) := do
  let p := { p with state := .ERROR }
  let msg := lit "ERROR"
  let sect ← p.sect.set msg
  let key ← p.key.set msg
  let value ← p.value.set msg
  let p := { p with sect := sect, key := key, value := value }
  .ok (p, p.emit)

/-- The argument `destinationBuffer` of `findToken`. -/
inductive Dest where
  | null | sect | key | value
  deriving DecidableEq, Repr

/-- `FindTokenResult`, lib/RR32CanEngineDb/util/TextParser.h:86-97. -/
structure FindTokenResult where
  consumed : Nat
  success : Bool
  matchingChar : Byte
  deriving DecidableEq, Repr

/-- The buffer a destination points to. -/
def dest (p : TextParser) : Dest → Option BufferManager
  | .null => none
  | .sect => some p.sect
  | .key => some p.key
  | .value => some p.value

/-- Storing back the buffer a destination points to. -/
def withDest (p : TextParser) : Dest → BufferManager → TextParser
  | .null, _ => p
  | .sect, b => { p with sect := b }
  | .key, b => { p with key := b }
  | .value, b => { p with value := b }

/-- The search of `findToken`, lib/RR32CanEngineDb/util/TextParser.cpp:145-155. -/
def searchToken (buffer : BufferManager) (offset : Nat) (chars : List Byte) : Res FindTokenResult := do
  let found ← buffer.findFirstOf chars offset
  if found = BufferManager.npos then .ok { consumed := buffer.len, success := false, matchingChar := 0#8 }
  else
    let c ← buffer.get found
    .ok { consumed := found, success := true, matchingChar := c }

/-- The copy of `findToken`, lib/RR32CanEngineDb/util/TextParser.cpp:157-165. -/
def storeToken (p : TextParser) (offset : Nat) (d : Dest) (result : FindTokenResult) :
    Res (TextParser × List ParseEvent × FindTokenResult) :=
  match p.dest d with
  | none => .ok (p, [], result)
  | some db => do
      let part := p.buffer.subBufferManager offset result.consumed
      let (db, pushedBytes) ← db.push_back part
      let p := p.withDest d db
      if pushedBytes < part.len then
        let (p, evs) ← p.reportParseError
        .ok (p, evs, { result with success := false })
      else .ok (p, [], result)

/-- `findToken`, lib/RR32CanEngineDb/util/TextParser.cpp:144-172. -/
def findToken (p : TextParser) (offset : Nat) (chars : List Byte) (d : Dest) :
    Res (TextParser × List ParseEvent × FindTokenResult) := do
  let result ← searchToken p.buffer offset chars
  let (p, evs, result) ← p.storeToken offset d result
  .ok (p, evs, if result.success then { result with consumed := u8 (result.consumed + 1) } else result)

/-- One turn of the loop of `processBuffer`: the new parser, the calls made, the new `consumedBytes`, and whether the function returns;
lib/RR32CanEngineDb/util/TextParser.cpp:64-138. -/
def processStep (p : TextParser) (consumedBytes : Nat) : Res (TextParser × List ParseEvent × Nat × Bool) :=
  match p.state with
  | .LOOKING_FOR_KEY_OR_SECTION_START => do
      let (p, evs, r) ← p.findToken consumedBytes kKeyOrSectionStart .null
      if r.success then
        let c ← p.buffer.get (u8 (r.consumed + 256 - 1))
        if c = kSectionStart then
          let sect ← p.sect.erase
          .ok ({ p with sect := sect, state := .PARSING_SECTION }, evs, r.consumed, false)
        else
          let c ← p.buffer.get (u8 (r.consumed + 256 - 1))
          if c = kKeyStart then .ok ({ p with state := .PARSING_KEY }, evs, r.consumed, false)
          else
            let (p, evs') ← p.reportParseError
            .ok (p, evs ++ evs', consumedBytes, true)
      else .ok (p, evs, r.consumed, false)
  | .PARSING_SECTION => do
      let (p, evs, r) ← p.findToken consumedBytes kSectionStop .sect
      if r.success then .ok ({ p with state := .LOOKING_FOR_KEY_OR_SECTION_START }, evs, r.consumed, false)
      else .ok (p, evs, r.consumed, false)
  | .PARSING_KEY => do
      let (p, evs, r) ← p.findToken consumedBytes [kKeyStop, kValueStop, 0#8] .key
      if r.success then
        if r.matchingChar = kKeyStop then .ok ({ p with state := .PARSING_VALUE }, evs, r.consumed, false)
        else if r.matchingChar = kValueStop then
          let value ← p.value.erase
          let p := { p with value := value }
          let evs := evs ++ p.emit
          let key ← p.key.erase
          .ok ({ p with key := key, state := .LOOKING_FOR_KEY_OR_SECTION_START }, evs, r.consumed, false)
        else .ok (p, evs, r.consumed, false)
      else .ok (p, evs, r.consumed, false)
  | .PARSING_VALUE => do
      let (p, evs, r) ← p.findToken consumedBytes [kValueStop, 0#8] .value
      if r.success then
        let evs := evs ++ p.emit
        let key ← p.key.erase
        let value ← p.value.erase
        .ok ({ p with key := key, value := value, state := .LOOKING_FOR_KEY_OR_SECTION_START }, evs, r.consumed, false)
      else .ok (p, evs, r.consumed, false)
  | .LOOKING_FOR_VALUE_START | .ERROR => .ok (p, [], p.buffer.len, false)

/-- `processBuffer`, lib/RR32CanEngineDb/util/TextParser.cpp:60-142: the loop, with fuel. -/
def processLoop : Nat → TextParser → Nat → Res (TextParser × List ParseEvent × Nat)
  | 0, _, _ => .error .nonTermination
  | fuel + 1, p, consumedBytes =>
      if consumedBytes < p.buffer.len then do
        let (p, evs, consumedBytes, stop) ← p.processStep consumedBytes
        if stop then .ok (p, evs, consumedBytes)
        else
          let (p, evs', consumedBytes) ← processLoop fuel p consumedBytes
          .ok (p, evs ++ evs', consumedBytes)
      else .ok (p, [], consumedBytes)

/-- Number of loop turns after which a loop counts as not terminating; more than the 255 values a `uint8_t` counter can grow
through. -/
def loopFuel : Nat := 300

/-- `processBuffer`, lib/RR32CanEngineDb/util/TextParser.cpp:60-142. -/
def processBuffer (p : TextParser) : Res (TextParser × List ParseEvent × Nat) := processLoop loopFuel p 0

/-- The loop of `addText`, lib/RR32CanEngineDb/util/TextParser.cpp:45-57, with fuel. -/
def addLoop : Nat → TextParser → BufferManager → Nat → Res (TextParser × List ParseEvent)
  | 0, _, _, _ => .error .nonTermination
  | fuel + 1, p, input, inputConsumed =>
      if inputConsumed < input.len then
        if p.buffer.full || p.state = .ERROR then p.reportParseError
        else do
          let (buffer, n) ← p.buffer.push_back (input.subBufferManagerFrom inputConsumed)
          let p := { p with buffer := buffer }
          let inputConsumed := u8 (inputConsumed + n)
          let (p, evs, consumedBufferBytes) ← p.processBuffer
          let buffer ← p.buffer.pop_front consumedBufferBytes
          let p := { p with buffer := buffer }
          let (p, evs') ← addLoop fuel p input inputConsumed
          .ok (p, evs ++ evs')
      else .ok (p, [])

/-- `addText`, lib/RR32CanEngineDb/util/TextParser.cpp:35-58. -/
def addText (p : TextParser) (input : BufferManager) : Res (TextParser × List ParseEvent) :=
  if input.len > kBufferLength || p.state = .ERROR then p.reportParseError
  else addLoop loopFuel p input 0

end TextParser

end RR32
