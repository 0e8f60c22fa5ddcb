import Verif.Model.TextParser

/-! # Consumers that modify the buffers they are given

`consumeConfigData` takes the three buffers of the text parser by non-const reference, lib/RR32CanEngineDb/util/TextParser.h:26. The
functions of Verif.Model.TextParser are repeated here with a consumer that calls the modifying functions of `BufferManager` on them.
Simplified: a consumer does not write behind the length of a buffer through `data()`, and does not move-assign another buffer
(BufferManager.h:31). -/

set_option autoImplicit false

namespace RR32

/-- A call of a modifying function of `BufferManager`. -/
inductive BufCall where
  /-- lib/RR32CanEngineDb/util/BufferManager.cpp:42-45 -/
  | erase
  /-- lib/RR32CanEngineDb/util/BufferManager.cpp:51-59 -/
  | pop_front (n : Nat)
  /-- lib/RR32CanEngineDb/util/BufferManager.cpp:61-67; the argument is a buffer of the consumer, full with `text`. -/
  | push_back (text : List Byte)
  /-- lib/RR32CanEngineDb/util/BufferManager.h:93-101 -/
  | push_back_char (c : Byte)
  /-- lib/RR32CanEngineDb/util/BufferManager.cpp:69-73; the argument is a string constant. -/
  | set (text : List Byte)
  /-- A write through `at`, lib/RR32CanEngineDb/util/BufferManager.h:49. -/
  | put (index : Nat) (c : Byte)
  deriving DecidableEq, Repr

/-- Executes a call. -/
def BufCall.run (b : BufferManager) : BufCall → Res BufferManager
  | .erase => b.erase
  | .pop_front n => b.pop_front n
  | .push_back text => do
      let (b, _) ← b.push_back { mem := text, len := text.length, cap := text.length }
      .ok b
  | .push_back_char c => do
      let (b, _) ← b.push_back_char c
      .ok b
  | .set text => b.set (text ++ [0#8])
  | .put index c => b.setAt index c

/-- Executes calls in order. -/
def BufCall.runs (b : BufferManager) (l : List BufCall) : Res BufferManager := l.foldlM BufCall.run b

/-- The calls a consumer makes on the three buffers. -/
structure Edits where
  sect : List BufCall
  key : List BufCall
  value : List BufCall
  deriving DecidableEq, Repr

/-- A consumer: what it does with the buffers, given all the calls it has received so far, the present one last. -/
abbrev Editor := List ParseEvent → Edits

namespace TextParser

/-- `if (consumer_ != nullptr) consumer_->consumeConfigData(section, key, value)` with a consumer that modifies the buffers,
lib/RR32CanEngineDb/util/TextParser.cpp:30-32,99-101,125-127. `h` is what the consumer was told before. -/
def tellE (ed : Editor) (p : TextParser) (h : List ParseEvent) : Res (TextParser × List ParseEvent) :=
  match p.consumer with
  | none => .ok (p, h)
  | some c => do
      let h := h ++ [{ consumer := c, sect := p.sect, key := p.key, value := p.value }]
      let sect ← BufCall.runs p.sect (ed h).sect
      let key ← BufCall.runs p.key (ed h).key
      let value ← BufCall.runs p.value (ed h).value
      .ok ({ p with sect := sect, key := key, value := value }, h)

/-- `reportParseError`, lib/RR32CanEngineDb/util/TextParser.cpp:24-33. -/
def reportParseErrorE (ed : Editor) (p : TextParser) (h : List ParseEvent) : Res (TextParser × List ParseEvent) := do
  let p := { p with state := .ERROR }
  let msg := lit "ERROR"
  let sect ← p.sect.set msg
  let key ← p.key.set msg
  let value ← p.value.set msg
  tellE ed { p with sect := sect, key := key, value := value } h

/-- The copy of `findToken`, lib/RR32CanEngineDb/util/TextParser.cpp:157-165. -/
def storeTokenE (ed : Editor) (p : TextParser) (h : List ParseEvent) (offset : Nat) (d : Dest) (result : FindTokenResult) :
    Res (TextParser × List ParseEvent × FindTokenResult) :=
  match p.dest d with
  | none => .ok (p, h, result)
  | some db => do
      let part := p.buffer.subBufferManager offset result.consumed
      let (db, pushedBytes) ← db.push_back part
      let p := p.withDest d db
      if pushedBytes < part.len then
        let (p, h) ← reportParseErrorE ed p h
        .ok (p, h, { result with success := false })
      else .ok (p, h, result)

/-- `findToken`, lib/RR32CanEngineDb/util/TextParser.cpp:144-172. -/
def findTokenE (ed : Editor) (p : TextParser) (h : List ParseEvent) (offset : Nat) (chars : List Byte) (d : Dest) :
    Res (TextParser × List ParseEvent × FindTokenResult) := do
  let result ← searchToken p.buffer offset chars
  let (p, h, result) ← storeTokenE ed p h offset d result
  .ok (p, h, if result.success then { result with consumed := u8 (result.consumed + 1) } else result)

/-- One turn of the loop of `processBuffer`, lib/RR32CanEngineDb/util/TextParser.cpp:64-138. -/
def processStepE (ed : Editor) (p : TextParser) (h : List ParseEvent) (consumedBytes : Nat) :
    Res (TextParser × List ParseEvent × Nat × Bool) :=
  match p.state with
  | .LOOKING_FOR_KEY_OR_SECTION_START => do
      let (p, h, r) ← findTokenE ed p h consumedBytes kKeyOrSectionStart .null
      if r.success then
        let c ← p.buffer.get (u8 (r.consumed + 256 - 1))
        if c = kSectionStart then
          let sect ← p.sect.erase
          .ok ({ p with sect := sect, state := .PARSING_SECTION }, h, r.consumed, false)
        else
          let c ← p.buffer.get (u8 (r.consumed + 256 - 1))
          if c = kKeyStart then .ok ({ p with state := .PARSING_KEY }, h, r.consumed, false)
          else
            let (p, h) ← reportParseErrorE ed p h
            .ok (p, h, consumedBytes, true)
      else .ok (p, h, r.consumed, false)
  | .PARSING_SECTION => do
      let (p, h, r) ← findTokenE ed p h consumedBytes kSectionStop .sect
      if r.success then .ok ({ p with state := .LOOKING_FOR_KEY_OR_SECTION_START }, h, r.consumed, false)
      else .ok (p, h, r.consumed, false)
  | .PARSING_KEY => do
      let (p, h, r) ← findTokenE ed p h consumedBytes [kKeyStop, kValueStop, 0#8] .key
      if r.success then
        if r.matchingChar = kKeyStop then .ok ({ p with state := .PARSING_VALUE }, h, r.consumed, false)
        else if r.matchingChar = kValueStop then
          let value ← p.value.erase
          let (p, h) ← tellE ed { p with value := value } h
          let key ← p.key.erase
          .ok ({ p with key := key, state := .LOOKING_FOR_KEY_OR_SECTION_START }, h, r.consumed, false)
        else .ok (p, h, r.consumed, false)
      else .ok (p, h, r.consumed, false)
  | .PARSING_VALUE => do
      let (p, h, r) ← findTokenE ed p h consumedBytes [kValueStop, 0#8] .value
      if r.success then
        let (p, h) ← tellE ed p h
        let key ← p.key.erase
        let value ← p.value.erase
        .ok ({ p with key := key, value := value, state := .LOOKING_FOR_KEY_OR_SECTION_START }, h, r.consumed, false)
      else .ok (p, h, r.consumed, false)
  | .LOOKING_FOR_VALUE_START | .ERROR => .ok (p, h, p.buffer.len, false)

/-- The loop of `processBuffer`, lib/RR32CanEngineDb/util/TextParser.cpp:60-142, with fuel. -/
def processLoopE (ed : Editor) : Nat → TextParser → List ParseEvent → Nat → Res (TextParser × List ParseEvent × Nat)
  | 0, _, _, _ => .error .nonTermination
  | fuel + 1, p, h, consumedBytes =>
      if consumedBytes < p.buffer.len then do
        let (p, h, consumedBytes, stop) ← processStepE ed p h consumedBytes
        if stop then .ok (p, h, consumedBytes) else processLoopE ed fuel p h consumedBytes
      else .ok (p, h, consumedBytes)

/-- The loop of `addText`, lib/RR32CanEngineDb/util/TextParser.cpp:45-57, with fuel. -/
def addLoopE (ed : Editor) : Nat → TextParser → List ParseEvent → BufferManager → Nat → Res (TextParser × List ParseEvent)
  | 0, _, _, _, _ => .error .nonTermination
  | fuel + 1, p, h, input, inputConsumed =>
      if inputConsumed < input.len then
        if p.buffer.full || p.state = .ERROR then reportParseErrorE ed p h
        else do
          let (buffer, n) ← p.buffer.push_back (input.subBufferManagerFrom inputConsumed)
          let p := { p with buffer := buffer }
          let inputConsumed := u8 (inputConsumed + n)
          let (p, h, consumedBufferBytes) ← processLoopE ed loopFuel p h 0
          let buffer ← p.buffer.pop_front consumedBufferBytes
          let p := { p with buffer := buffer }
          addLoopE ed fuel p h input inputConsumed
      else .ok (p, h)

/-- `addText` with a consumer that modifies the buffers, lib/RR32CanEngineDb/util/TextParser.cpp:35-58: the new parser and all the
consumer was told so far. -/
def addTextE (ed : Editor) (p : TextParser) (h : List ParseEvent) (input : BufferManager) : Res (TextParser × List ParseEvent) :=
  if input.len > kBufferLength || p.state = .ERROR then reportParseErrorE ed p h
  else addLoopE ed loopFuel p h input 0

/-- Chunks one after the other. -/
def addTextsE (ed : Editor) (p : TextParser) (h : List ParseEvent) : List BufferManager → Res (TextParser × List ParseEvent)
  | [] => .ok (p, h)
  | i :: is => do
      let (p, h) ← addTextE ed p h i
      addTextsE ed p h is

end TextParser

end RR32
