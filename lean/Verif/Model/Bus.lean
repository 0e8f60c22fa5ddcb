import Verif.Model.World

/-!
# Several programs on one bus

Any number of programs (`World`), each with its station, on one CAN bus, together with devices that do not use the library. There is no
such object in `/repo`: it is the installation the library is written for. The bus is the one CAN promises: it orders the frames, every node
gets every frame of the others once and in that order, and a node does not get its own frames. How far a node's receive loop has come is its
own affair, so nodes may lag behind by any number of frames. Errors, arbitration and overrun of receive buffers are not modelled.
-/

set_option autoImplicit false

namespace RR32

/-- The nodes, all frames put on the bus so far with the node that sent them (`none`: a device without the library), and how many of them
each node's receive loop has taken from its controller. -/
structure Bus where
  nodes : Nat → World
  wire : List (Option Nat × CanFrame)
  pos : Nat → Nat

/-- What can happen. -/
inductive BusOp where
  /-- the program of node `i` calls a function of the library -/
  | call (i : Nat) (op : Op)
  /-- the receive loop of node `i` takes the next frame and passes it to the station, lib/RR32Can/Station.cpp:286 -/
  | receive (i : Nat)
  /-- a device without the library sends a frame -/
  | foreign (f : CanFrame)

namespace Bus

/-- The frames given to tx callbacks in a piece of log (lib/RR32Can/callback/TxCbk.h:13-20). -/
def sent (l : List LogEntry) : List CanFrame :=
  l.filterMap (fun e => match e with
    | .call (.tx _ f) => some f
    | _ => none)

/-- Assign to a node. -/
def setNode (b : Bus) (i : Nat) (w : World) : Bus := { b with nodes := fun m => if m = i then w else b.nodes m }

/-- Node `i` has taken a frame. -/
def advance (b : Bus) (i : Nat) : Bus := { b with pos := fun m => if m = i then b.pos i + 1 else b.pos m }

/-- One step of the installation. -/
def step (b : Bus) (o : BusOp) : Res Bus :=
  match o with
  | .call i op => do
      let w ← (b.nodes i).step op
      .ok { b.setNode i w with wire := b.wire ++ (sent (w.log.drop (b.nodes i).log.length)).map (fun f => (some i, f)) }
  | .receive i =>
      match b.wire[b.pos i]? with
      | none => .ok b
      | some (s, f) =>
          if s = some i then .ok (b.advance i)
          else do
            let w ← (b.nodes i).step (.handle f)
            .ok ((b.advance i).setNode i w)
  | .foreign f => .ok { b with wire := b.wire ++ [(none, f)] }

/-- A history of the installation. -/
def run (b : Bus) (ops : List BusOp) : Res Bus := ops.foldlM step b

end Bus

end RR32
