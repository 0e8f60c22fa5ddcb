import Verif.Model.Bus
import Verif.Spec.Receive
import Verif.Spec.Protocol

/-!
# What a bus of stations does

Written without the frames: what the application of one node hears of the calls of the applications of the others.
-/

set_option autoImplicit false

namespace RR32.Spec

/-- What an application is told, by which of its callbacks. -/
inductive Event where
  | velocity (cb : Nat) (uid : U32) (v : Nat)
  | allVelocity (cb : Nat) (v : Nat)
  | direction (cb : Nat) (uid : U32) (dir : EngineDirection)
  | toggle (cb : Nat) (uid : U32)
  | function (cb : Nat) (uid : U32) (number : Nat) (on : Bool)
  | system (cb : Nat) (on response : Bool)
  | accessory (cb : Nat) (address direction : Nat) (power response : Bool)
  deriving DecidableEq

/-- Calls on the callbacks as events; an accessory packet by its address, direction byte and power byte. -/
def eventOf : Call → List Event
  | .setLocoVelocity cb uid v => [.velocity cb uid v.toNat]
  | .setAllVelocity cb v => [.allVelocity cb v.toNat]
  | .setLocoDirection cb uid d => [.direction cb uid d]
  | .changeLocoDirection cb uid => [.toggle cb uid]
  | .setLocoFunction cb uid n on => [.function cb uid n.toNat on]
  | .setSystemState cb on r => [.system cb on r]
  | .onAccessoryPacket cb d r => [.accessory cb (uidOf d).toNat d.b4.toNat (d.b5.toNat ≠ 0) r]
  | _ => []

/-- What the application of a node was told, in order. -/
def eventsIn (l : List LogEntry) : List Event :=
  l.flatMap (fun e => match e with
    | .call c => eventOf c
    | _ => [])

/-- The calls of an application that concern the layout. `sendPacket`, configuration requests and the management of the program's own
objects are not among them. -/
def isCommand : Op → Bool
  | .requestDirection _ | .sendDirection .. | .requestVelocity _ | .sendVelocity .. | .requestFunction .. | .requestAllFunctions _
  | .sendFunction .. | .sendEmergencyStop _ | .sendStop | .sendGo | .sendAccessory .. => true
  | _ => false

/-- What an application with these callbacks hears of a command of another one. -/
def hears (cbs : Callbacks) : Op → List Event
  | .sendVelocity e v => cbs.engine.toList.map (.velocity · e.uid (min v.toNat 1000))
  | .sendEmergencyStop e => cbs.engine.toList.map (.velocity · e.uid 0)
  | .sendDirection e d =>
      if d = EngineDirection.FORWARD ∨ d = EngineDirection.REVERSE then cbs.engine.toList.map (.direction · e.uid d)
      else if d = EngineDirection.CHANGE_DIRECTION then cbs.engine.toList.map (.toggle · e.uid)
      else []
  | .sendFunction e n on => cbs.engine.toList.map (.function · e.uid n.toNat on)
  | .sendStop => cbs.system.toList.map (.system · false false)
  | .sendGo => cbs.system.toList.map (.system · true false)
  | .sendAccessory a p d power =>
      cbs.accessory.toList.map (.accessory · (a.addr.toNat ||| accessoryStart p) d.toNat (power ≠ 0#8) false)
  | _ => []

/-- What node `j` hears of a step of the installation: of the commands of the other nodes and of the frames of other devices. -/
def hearsOf (cbs : Callbacks) (j : Nat) : BusOp → List Event
  | .call i op => if i = j then [] else hears cbs op
  | .receive _ => []
  | .foreign f => (reaction cbs false f).flatMap eventOf

/-- A change of the speed of one engine or of all. -/
inductive SpeedChange where
  | one (uid : U32) (v : Nat)
  | all (v : Nat)
  deriving DecidableEq

/-- The change of speed an application is told of. -/
def speedOf : Call → List SpeedChange
  | .setLocoVelocity _ uid v => [.one uid v.toNat]
  | .setAllVelocity _ v => [.all v.toNat]
  | _ => []

/-- What a node knows about the speed of engines: what it was told, and what it sent itself. -/
def known (l : List LogEntry) : List SpeedChange :=
  l.flatMap (fun e => match e with
    | .call (.tx _ f) => (reaction { engine := some 0 } false f).flatMap speedOf
    | .call c => speedOf c
    | _ => [])

/-- The speed of an engine after some changes, if any of them concerns it. -/
def speed (uid : U32) (l : List SpeedChange) : Option Nat :=
  l.foldl (fun s c => match c with
    | .one u v => if u = uid then some v else s
    | .all v => some v) none

/-- The change of speed a step of the installation asks for. -/
def asksSpeed : BusOp → List SpeedChange
  | .call _ (.sendVelocity e v) => [.one e.uid (min v.toNat 1000)]
  | .call _ (.sendEmergencyStop e) => [.one e.uid 0]
  | .foreign f => (reaction { engine := some 0 } false f).flatMap speedOf
  | _ => []

/-- How many frames one call may put on the bus. -/
def frameLimit : Op → Nat
  | .requestEngine .. | .requestShortInfo .. => 3
  | .requestEngineList .. => 2
  | .requestAllFunctions _ => 16
  | .requestDirection _ | .sendDirection .. | .requestVelocity _ | .sendVelocity .. | .requestFunction .. | .sendFunction ..
  | .sendEmergencyStop _ | .sendStop | .sendGo | .sendAccessory .. | .sendPacket _ => 1
  | _ => 0

/-- How many frames one step of the installation may put on the bus: receiving puts none. -/
def busLimit : BusOp → Nat
  | .call _ op => frameLimit op
  | .receive _ => 0
  | .foreign _ => 1

/-- An installation at the start: nothing sent, nothing told, and every station begun with a tx and an engine callback and without a
registered parser. -/
structure FreshBus (b : Bus) : Prop where
  wire : b.wire = []
  pos : ∀ j, b.pos j = 0
  log : ∀ j, (b.nodes j).log = []
  tx : ∀ j, (b.nodes j).station.callbacks.tx.isSome = true
  engine : ∀ j, (b.nodes j).station.callbacks.engine.isSome = true
  parser : ∀ j, (b.nodes j).station.callbacks.configData = none

/-- A history in which applications only give commands, and other devices only send frames that CAN allows. -/
def CommandsOnly (ops : List BusOp) : Prop :=
  (∀ i op, BusOp.call i op ∈ ops → isCommand op = true) ∧ ∀ f, BusOp.foreign f ∈ ops → f.data.dlc.toNat ≤ 8

/-- The node has nothing of the others left to receive. -/
def UpToDate (b : Bus) (i : Nat) : Prop := ∀ x ∈ b.wire.drop (b.pos i), x.1 = some i

/-- Every application that calls the library has nothing of the others left to receive at that time. -/
def Polite : Bus → List BusOp → Prop
  | _, [] => True
  | b, o :: ops => (∀ i op, o = .call i op → UpToDate b i) ∧ ∀ b', b.step o = .ok b' → Polite b' ops

end RR32.Spec
