import Verif.Model.Util
import Verif.Model.Locomotive

/-!
# Station (lib/RR32Can/Station.h, lib/RR32Can/Station.cpp)

Each function returns the calls it makes on the installed callbacks, in order. `configData->isProcessing()`, the only thing the
station reads back from a callback, is the argument `processing`.
-/

set_option autoImplicit false

namespace RR32

/-- A call of a station on one of its callbacks; the first argument is the object number of the callback. lib/RR32Can/callback/*.h -/
inductive Call where
  | tx (cb : Nat) (frame : CanFrame)
  | setSystemState (cb : Nat) (onOff response : Bool)
  | setLocoVelocity (cb : Nat) (uid : U32) (velocity : U16)
  | setAllVelocity (cb : Nat) (velocity : U16)
  | setLocoFunction (cb : Nat) (uid : U32) (functionIdx : Byte) (functionOn : Bool)
  | setLocoDirection (cb : Nat) (uid : U32) (direction : EngineDirection)
  | changeLocoDirection (cb : Nat) (uid : U32)
  | onAccessoryPacket (cb : Nat) (packet : Data) (response : Bool)
  | cfgStart (cb : Nat)
  | cfgAdd (cb : Nat) (data : Data)
  | cfgReset (cb : Nat)
  deriving DecidableEq, Repr

/-- `CallbackStruct`, lib/RR32Can/Station.h:29-35. -/
structure Callbacks where
  tx : Option Nat := none
  system : Option Nat := none
  engine : Option Nat := none
  accessory : Option Nat := none
  configData : Option Nat := none
  deriving DecidableEq, Repr

/-- `Station`, lib/RR32Can/Station.h:27,100-103. -/
structure Station where
  senderHash : U16 := 0#16
  callbacks : Callbacks := {}
  deriving DecidableEq, Repr

namespace Station

/-- `callbacks_.tx->SendPacket(frame)`, not guarded against null; e.g. lib/RR32Can/Station.cpp:128. -/
def txSend (s : Station) (frame : CanFrame) : Res (List Call) :=
  match s.callbacks.tx with
  | none => .error .nullDeref
  | some cb => .ok [.tx cb frame]

/-- `FinishCurrentConfigRequest`, lib/RR32Can/Station.cpp:29-34. -/
def FinishCurrentConfigRequest (s : Station) : Station × List Call :=
  match s.callbacks.configData with
  | none => (s, [])
  | some cb => ({ s with callbacks := { s.callbacks with configData := none } }, [.cfgReset cb])

/-- `AbortCurrentConfigRequest`, lib/RR32Can/Station.cpp:36. -/
def AbortCurrentConfigRequest (s : Station) : Station × List Call := s.FinishCurrentConfigRequest

/-- `notifyConfigStreamReceived`, lib/RR32Can/Station.h:96. -/
def notifyConfigStreamReceived (s : Station) : Station × List Call := s.FinishCurrentConfigRequest

/-- `begin`, lib/RR32Can/Station.cpp:21-25. -/
def begin_ (s : Station) (stationUUID : U16) (callbacks : Callbacks) : Station × List Call :=
  let (_, calls) := s.AbortCurrentConfigRequest
  ({ callbacks := callbacks, senderHash := computeSenderHash (stationUUID.zeroExtend 32) }, calls)

/-- `HandleConfigDataStream`, lib/RR32Can/Station.cpp:38-53. -/
def HandleConfigDataStream (s : Station) (processing : Bool) (data : Data) : Res (List Call) :=
  match s.callbacks.configData with
  | none => do
      let _ ← data.printed
      .ok []
  | some cb =>
      if processing then .ok [.cfgAdd cb data]
      else do
        let _ ← data.printed
        .ok []

/-- `HandleSystemCommand`, lib/RR32Can/Station.cpp:55-108. -/
def HandleSystemCommand (s : Station) (id : Identifier) (msg : Data) : Res (List Call) :=
  if BaseMessage.length msg ≥ 5#8 then
    let sub := SystemMessage.getSubcommand msg
    if sub = kSubcommandSystemGo then
      match s.callbacks.system with
      | none => .ok []
      | some cb => .ok [.setSystemState cb true id.isResponse]
    else if sub = kSubcommandSystemHalt then
      match s.callbacks.engine with
      | none => .ok []
      | some cb => .ok [.setAllVelocity cb 0#16]
    else if sub = kSubcommandSystemStop then
      match s.callbacks.system with
      | none => .ok []
      | some cb => .ok [.setSystemState cb false id.isResponse]
    else if sub = kSubcommandLocoEmergencyStop then
      match s.callbacks.engine with
      | none => .ok []
      | some cb => .ok [.setLocoVelocity cb (SystemMessage.getLocid msg) 0#16]
    else .ok []
  else .ok []

/-- `HandleAccessoryPacket`, lib/RR32Can/Station.cpp:353-361 (`printAll` reads fields 0 to 5, always in bounds). -/
def HandleAccessoryPacket (s : Station) (data : Data) (request : Bool) : Res (List Call) :=
  match s.callbacks.accessory with
  | none => .ok []
  | some cb => .ok [.onAccessoryPacket cb data request]

/-- `HandleLocoDirection`, lib/RR32Can/Station.cpp:363-375. -/
def HandleLocoDirection (s : Station) (data : Data) : Res (List Call) :=
  if data.dlc = 5#8 then
    let uid := data.getLocid
    let direction : EngineDirection := data.b4.zeroExtend 32
    if direction = EngineDirection.FORWARD ∨ direction = EngineDirection.REVERSE then
      match s.callbacks.engine with
      | none => .error .nullDeref
      | some cb => .ok [.setLocoDirection cb uid direction]
    else if direction = EngineDirection.CHANGE_DIRECTION then
      match s.callbacks.engine with
      | none => .error .nullDeref
      | some cb => .ok [.changeLocoDirection cb uid]
    else .ok []
  else .ok []

/-- `HandleLocoSpeed`, lib/RR32Can/Station.cpp:377-385. -/
def HandleLocoSpeed (s : Station) (data : Data) : Res (List Call) :=
  if data.dlc = 6#8 then
    let uid := data.getLocid
    let velocity : U16 := (data.b4.zeroExtend 16 <<< 8) ||| data.b5.zeroExtend 16
    match s.callbacks.engine with
    | none => .ok []
    | some cb => .ok [.setLocoVelocity cb uid velocity]
  else .ok []

/-- `HandleLocoFunction`, lib/RR32Can/Station.cpp:387-392. -/
def HandleLocoFunction (s : Station) (data : Data) : Res (List Call) :=
  if data.dlc = 6#8 then
    match s.callbacks.engine with
    | none => .error .nullDeref
    | some cb => .ok [.setLocoFunction cb data.getLocid data.b4 (data.b5 != 0#8)]
  else .ok []

/-- `HandlePacket`, lib/RR32Can/Station.cpp:286-351. The function modifies no member, so it returns only the calls. -/
def HandlePacket (s : Station) (processing : Bool) (canFrame : CanFrame) : Res (List Call) :=
  let command := canFrame.id.getCommand
  if command = kSystemCommand then s.HandleSystemCommand canFrame.id canFrame.data
  else if command = kPing then .ok []
  else if command = kAccessorySwitch then s.HandleAccessoryPacket canFrame.data canFrame.id.isResponse
  else if command = kLocoDirection then s.HandleLocoDirection canFrame.data
  else if command = kLocoSpeed then s.HandleLocoSpeed canFrame.data
  else if command = kLocoFunction then s.HandleLocoFunction canFrame.data
  else if command = kRequestConfigData then .ok []
  else if command = kConfigDataStream then s.HandleConfigDataStream processing canFrame.data
  else if command = kDebugText then do
    let _ ← canFrame.data.printed
    .ok []
  else do
    let _ ← canFrame.data.printed
    .ok []

/-- The text `"%d %d"` of lib/RR32Can/Station.cpp:122. -/
def engineListText (offset : Byte) : List Byte := decText offset.toNat ++ [ch ' '] ++ decText kNumEngineNamesDownload

/-- `RequestEngineList`, lib/RR32Can/Station.cpp:110-134. -/
def RequestEngineList (s : Station) (offset : Byte) (configDataConsumer : Option Nat) : Res (Station × List Call) := do
  let (s, calls) := s.AbortCurrentConfigRequest
  let s := { s with callbacks := { s.callbacks with configData := configDataConsumer } }
  let frame1 : CanFrame := { id := Identifier.mk' kRequestConfigData s.senderHash, data := { dlc := 8#8 } }
  let mem ← strncpy frame1.data.bytes kEngineNames Data.kDataBufferLength
  let frame1 := { frame1 with data := frame1.data.withBytes mem }
  let frame2 : CanFrame := { id := Identifier.mk' kRequestConfigData s.senderHash }
  let (mem, n) ← snprintf frame2.data.bytes Data.kDataBufferLength (engineListText offset)
  let frame2 := { frame2 with data := { frame2.data.withBytes mem with dlc := BitVec.ofNat 8 n } }
  if frame2.data.dlc.toNat ≤ CanDataMaxLength then
    let start := match s.callbacks.configData with
      | none => []
      | some cb => [Call.cfgStart cb]
    let t1 ← s.txSend frame1
    let t2 ← s.txSend frame2
    .ok (s, calls ++ start ++ t1 ++ t2)
  else .ok (s, calls)

/-- `RequestEngine`, lib/RR32Can/Station.cpp:136-183. -/
def RequestEngine (s : Station) (processing : Bool) (engine : ShortInfo) (configDataConsumer : Option Nat) :
    Res (Station × List Call) :=
  if !engine.isNameKnown then .ok (s, [])
  else if s.callbacks.configData.isSome && processing then .ok (s, [])
  else do
    let (s, calls) := s.AbortCurrentConfigRequest
    let s := { s with callbacks := { s.callbacks with configData := configDataConsumer } }
    let start := match s.callbacks.configData with
      | none => []
      | some cb => [Call.cfgStart cb]
    let frame : CanFrame := { id := Identifier.mk' kRequestConfigData s.senderHash }
    let data := { frame.data with dlc := 8#8 }
    let mem ← strncpy data.bytes kEngine Data.kDataBufferLength
    let frame := { frame with data := data.withBytes mem }
    let t1 ← s.txSend frame
    let data := { frame.data.reset with dlc := 8#8 }
    let engineNameLength ← strlen engine.name
    let mem ← strncpy data.bytes engine.name CanDataMaxLength
    let frame := { frame with data := data.withBytes mem }
    let t2 ← s.txSend frame
    let data := { frame.data.reset with dlc := 8#8 }
    let data ← (if engineNameLength > CanDataMaxLength then do
        let mem ← strncpy data.bytes (engine.name.drop CanDataMaxLength) CanDataMaxLength
        .ok (data.withBytes mem)
      else .ok data : Res Data)
    let frame := { frame with data := data }
    let t3 ← s.txSend frame
    .ok (s, calls ++ start ++ t1 ++ t2 ++ t3)

/-- `SendPacket`, lib/RR32Can/Station.cpp:281-284. -/
def SendPacket (s : Station) (canFrame : CanFrame) : Res (List Call) :=
  s.txSend { canFrame with id := canFrame.id.setHash s.senderHash }

/-- `RequestEngineDirection`, lib/RR32Can/Station.cpp:185-191. -/
def RequestEngineDirection (s : Station) (engine : LocomotiveData) : Res (List Call) :=
  s.txSend { id := Identifier.mk' kLocoDirection s.senderHash, data := ({ dlc := 4#8 } : Data).setLocid engine.uid }

/-- `SendEngineDirection`, lib/RR32Can/Station.cpp:193-199. -/
def SendEngineDirection (s : Station) (engine : LocomotiveData) (direction : EngineDirection) : Res (List Call) :=
  if direction = EngineDirection.FORWARD ∨ direction = EngineDirection.REVERSE ∨
      direction = EngineDirection.CHANGE_DIRECTION then
    s.SendPacket (Util.LocoDirection false engine.uid direction)
  else .ok []

/-- `RequestEngineVelocity`, lib/RR32Can/Station.cpp:201-207. -/
def RequestEngineVelocity (s : Station) (engine : LocomotiveData) : Res (List Call) :=
  s.txSend { id := Identifier.mk' kLocoSpeed s.senderHash, data := ({ dlc := 4#8 } : Data).setLocid engine.uid }

/-- `SendEngineVelocity`, lib/RR32Can/Station.cpp:209-213. -/
def SendEngineVelocity (s : Station) (engine : LocomotiveData) (velocity : U16) : Res (List Call) :=
  s.SendPacket (Util.LocoSpeed false engine.uid velocity)

/-- `RequestEngineFunction`, lib/RR32Can/Station.cpp:215-222. -/
def RequestEngineFunction (s : Station) (engine : LocomotiveData) (function : Byte) : Res (List Call) :=
  s.txSend { id := Identifier.mk' kLocoFunction s.senderHash,
             data := { ({ dlc := 5#8 } : Data).setLocid engine.uid with b4 := function } }

/-- The loop of `RequestEngineAllFunctions`, `n` more turns from function `i`; lib/RR32Can/Station.cpp:228-231. -/
def allFunctionsLoop (s : Station) (frame : CanFrame) : Nat → Byte → Res (List Call)
  | 0, _ => .ok []
  | n + 1, i => do
      let frame := { frame with data := { frame.data with b4 := i } }
      let t ← s.txSend frame
      let ts ← allFunctionsLoop s frame n (i + 1#8)
      .ok (t ++ ts)

/-- `RequestEngineAllFunctions`, lib/RR32Can/Station.cpp:224-232. -/
def RequestEngineAllFunctions (s : Station) (engine : LocomotiveData) : Res (List Call) :=
  s.allFunctionsLoop { id := Identifier.mk' kLocoFunction s.senderHash,
                       data := ({ dlc := 5#8 } : Data).setLocid engine.uid } 16 0#8

/-- `SendEngineFunction`, lib/RR32Can/Station.cpp:234-237. -/
def SendEngineFunction (s : Station) (engine : LocomotiveData) (function : Byte) (value : Bool) : Res (List Call) :=
  s.SendPacket (Util.LocoFunction false engine.uid function value)

/-- `SendEmergencyStop`, lib/RR32Can/Station.cpp:239-246. -/
def SendEmergencyStop (s : Station) (engine : LocomotiveData) : Res (List Call) :=
  let frame : CanFrame := { id := Identifier.mk' kSystemCommand s.senderHash }
  let payload := SystemMessage.initData frame.data
  let payload := SystemMessage.setSubcommand payload kSubcommandLocoEmergencyStop
  let payload := SystemMessage.setLocid payload engine.uid
  s.txSend { frame with data := payload }

/-- `SendSystemStop`, lib/RR32Can/Station.cpp:248-253. -/
def SendSystemStop (s : Station) : Res (List Call) :=
  s.txSend { id := Identifier.mk' kSystemCommand s.senderHash, data := { dlc := 5#8, b4 := kSubcommandSystemStop } }

/-- `SendSystemGo`, lib/RR32Can/Station.cpp:255-260. -/
def SendSystemGo (s : Station) : Res (List Call) :=
  s.txSend { id := Identifier.mk' kSystemCommand s.senderHash, data := { dlc := 5#8, b4 := kSubcommandSystemGo } }

/-- `SendAccessoryPacket`, lib/RR32Can/Station.cpp:262-279 (`power` is converted to `bool` by `setPower`). -/
def SendAccessoryPacket (s : Station) (turnoutAddress : MachineTurnoutAddress) (protocol : RailProtocol)
    (direction : TurnoutDirection) (power : Byte) : Res (List Call) :=
  let frame : CanFrame := { id := Identifier.mk' kAccessorySwitch s.senderHash }
  let payload := TurnoutPacket.initData frame.data
  let turnoutAddress := turnoutAddress.or (getAccessoryLocIdMask protocol)
  let payload := TurnoutPacket.setLocid payload turnoutAddress
  let payload := TurnoutPacket.setDirection payload direction
  let payload := TurnoutPacket.setPower payload (power != 0#8)
  s.txSend { frame with data := payload }

end Station

end RR32
