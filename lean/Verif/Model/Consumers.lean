import Verif.Model.Locomotive
import Verif.Model.StreamParser

/-! # LocoConsumer and LocoListConsumer (lib/RR32CanEngineDb/Loco*Consumer.h, .cpp) -/

set_option autoImplicit false

namespace RR32

/-- A pointer field: indeterminate (not initialised by the constructor), null, or pointing to an object. -/
inductive Ptr where
  | uninit | null | obj (n : Nat)
  deriving DecidableEq, Repr

/-- Reading a pointer field. -/
def Ptr.read : Ptr → Res (Option Nat)
  | .uninit => .error .uninitRead
  | .null => .ok none
  | .obj n => .ok (some n)

/-- A call of a `ConfigDataEndStreamCallback`, lib/RR32CanEngineDb/util/ConfigDataEndStreamCallback.h:11-15: callback object, and
whether the stream was complete. The argument is the consumer itself: `seen` is what the callback can read through it. -/
structure EndCall (σ : Type) where
  callback : Nat
  complete : Bool
  seen : σ
  deriving DecidableEq, Repr

/-- `if (streamEndCallback_ != nullptr) streamEndCallback_->f(this)`. -/
def endCalls {σ : Type} (cb : Option Nat) (complete : Bool) (seen : σ) : List (EndCall σ) :=
  match cb with
  | none => []
  | some n => [{ callback := n, complete := complete, seen := seen }]

/-- `LocoConsumer`, lib/RR32CanEngineDb/LocoConsumer.h:15,45 and ConfigDataConsumer.h:21. -/
structure LocoConsumer where
  currentEngine : Ptr
  streamEndCallback : Ptr
  deriving DecidableEq, Repr

/-- The application's engines, by object number. -/
abbrev Engines := Nat → Locomotive

/-- Assigning to an engine. -/
def Engines.set (es : Engines) (n : Nat) (l : Locomotive) : Engines := fun m => if m = n then l else es m

namespace LocoConsumer

/-- The implicit constructor leaves both pointers indeterminate; lib/RR32CanEngineDb/LocoConsumer.h:45, ConfigDataConsumer.h:21. -/
def construct : LocoConsumer := { currentEngine := .uninit, streamEndCallback := .uninit }

/-- lib/RR32CanEngineDb/LocoConsumer.cpp:16 -/
def kEngineKeyUid : List Byte := lit "uid"
/-- lib/RR32CanEngineDb/LocoConsumer.cpp:19 -/
def kEngineKeyProtocol : List Byte := lit "typ"
/-- lib/RR32CanEngineDb/LocoConsumer.cpp:20 -/
def kEngineKeyAddress : List Byte := lit "adresse"

/-- `isValid`, lib/RR32CanEngineDb/LocoConsumer.h:21-23. -/
def isValid (c : LocoConsumer) (es : Engines) : Res Bool := do
  match ← c.currentEngine.read with
  | none => .ok false
  | some n => .ok ((es n).isFullDetailsKnown && !(es n).info.isFree)

/-- `consumeConfigData` on the selected engine, lib/RR32CanEngineDb/LocoConsumer.cpp:33-55. `strtoul` yields an `unsigned long`,
converted to `uint32_t` by `setUid` and by the `static_cast`. -/
def consumeOn (pf : Platform) (e : Locomotive) (sect key value : BufferManager) : Res Locomotive := do
  if ← strncmpEq sect.len kEngineResult sect.mem then
    if ← strncmpEq key.len kEngineKeyUid key.mem then
      let v ← strtoul16 pf value.mem
      .ok { e with data := e.data.setUid (BitVec.ofNat 32 v) }
    else if ← strncmpEq key.len kEngineKeyProtocol key.mem then
      e.setProtocolString value.mem
    else if ← strncmpEq key.len kEngineKeyAddress key.mem then
      let v ← strtoul16 pf value.mem
      .ok { e with data := e.data.setAddress ⟨BitVec.ofNat 32 v⟩ }
    else .ok e
  else .ok e

/-- `consumeConfigData`, lib/RR32CanEngineDb/LocoConsumer.cpp:24-56. -/
def consumeConfigData (pf : Platform) (c : LocoConsumer) (es : Engines) (sect key value : BufferManager) : Res Engines := do
  match ← c.currentEngine.read with
  | none => .ok es
  | some n => do
      let e ← consumeOn pf (es n) sect key value
      .ok (es.set n e)

/-- `setStreamComplete`, lib/RR32CanEngineDb/LocoConsumer.cpp:58-72. The callback sees the selected engine. -/
def setStreamComplete (c : LocoConsumer) (es : Engines) : Res (Engines × List (EndCall Locomotive)) := do
  match ← c.currentEngine.read with
  | none => .ok (es, [])
  | some n => do
      let e := (es n).setAvailability .FULL_DETAILS
      e.print
      let cb ← c.streamEndCallback.read
      .ok (es.set n e, endCalls cb true e)

/-- `setStreamAborted`, lib/RR32CanEngineDb/LocoConsumer.cpp:74-78. Nothing was changed, and an engine need not be selected. -/
def setStreamAborted (c : LocoConsumer) : Res (List (EndCall Unit)) := do
  let cb ← c.streamEndCallback.read
  .ok (endCalls cb false ())

end LocoConsumer

/-- `LocoListConsumer`, lib/RR32CanEngineDb/LocoListConsumer.h:15-19,62-72 and ConfigDataConsumer.h:21. `none` is the indeterminate
content of a field the constructor does not initialise. -/
structure LocoListConsumer where
  streamComplete : Option Bool
  engineInfo : List ShortInfo
  numEnginesKnownByMaster : Option Byte
  streamOffset : Option Byte
  streamEndCallback : Ptr
  deriving DecidableEq, Repr

namespace LocoListConsumer

/-- The default constructor, lib/RR32CanEngineDb/LocoListConsumer.h:19. -/
def construct : LocoListConsumer :=
  { streamComplete := none, engineInfo := List.replicate kEngineBrowserEntries ShortInfo.construct,
    numEnginesKnownByMaster := none, streamOffset := none, streamEndCallback := .uninit }

/-- lib/RR32CanEngineDb/LocoListConsumer.cpp:12 -/
def kSectionNumEngines : List Byte := lit "numloks"
/-- lib/RR32CanEngineDb/LocoListConsumer.cpp:13 -/
def kGenericValue : List Byte := lit "wert"

/-- `findFirstFreeEntry`, lib/RR32CanEngineDb/LocoListConsumer.h:74-81: the index of the entry. -/
def findFirstFreeEntry (c : LocoListConsumer) : Option Nat := c.engineInfo.findIdx? (fun i => i.isFree)

/-- `setStreamOffset`, lib/RR32CanEngineDb/LocoListConsumer.h:26. -/
def setStreamOffset (c : LocoListConsumer) (offset : Byte) : LocoListConsumer := { c with streamOffset := some offset }

/-- `consumeConfigData`, lib/RR32CanEngineDb/LocoListConsumer.cpp:15-40; the `%s` reads of the `printf`s included. -/
def consumeConfigData (pf : Platform) (c : LocoListConsumer) (sect key value : BufferManager) : Res LocoListConsumer := do
  if ← sect.strncmp kEngineNames then
    match c.findFirstFreeEntry with
    | none => .ok c
    | some i =>
        let _ ← cstr value.mem
        let info ← (c.engineInfo.getD i ShortInfo.construct).setName value.mem
        .ok { c with engineInfo := c.engineInfo.set i info }
  else if ← sect.strncmp kSectionNumEngines then
    if ← key.strncmp kGenericValue then
      let v ← value.asUint8 pf
      .ok { c with numEnginesKnownByMaster := some v }
    else .ok c
  else
    let _ ← cstr sect.mem
    .ok c

/-- `clearTable`, lib/RR32CanEngineDb/LocoListConsumer.cpp:42-46. -/
def clearTable (c : LocoListConsumer) : LocoListConsumer := { c with engineInfo := c.engineInfo.map ShortInfo.reset }

/-- `reset`, lib/RR32CanEngineDb/LocoListConsumer.cpp:48-53. -/
def reset (c : LocoListConsumer) : LocoListConsumer :=
  { c.clearTable with numEnginesKnownByMaster := some 0#8, streamComplete := some false, streamOffset := some 0#8 }

/-- `setStreamComplete`, lib/RR32CanEngineDb/LocoListConsumer.h:31-36. -/
def setStreamComplete (c : LocoListConsumer) : Res (LocoListConsumer × List (EndCall LocoListConsumer)) := do
  let c := { c with streamComplete := some true }
  let cb ← c.streamEndCallback.read
  .ok (c, endCalls cb true c)

/-- `setStreamAborted`, lib/RR32CanEngineDb/LocoListConsumer.h:38-43. -/
def setStreamAborted (c : LocoListConsumer) : Res (LocoListConsumer × List (EndCall LocoListConsumer)) := do
  let c := c.reset
  let cb ← c.streamEndCallback.read
  .ok (c, endCalls cb false c)

end LocoListConsumer

end RR32
