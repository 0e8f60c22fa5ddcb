import Verif.Model.Bus

/-!
# Several programs on one bus, with receive buffers that can overrun

As `Model/Bus`, but each node has a receive buffer for a limited number of frames between its CAN controller and its receive loop. A frame
that arrives while the buffer is full is lost for this node. There is no such object in `/repo`: the buffer belongs to the controller or to
its driver, and the loop calls `HandlePacket` (lib/RR32Can/Station.cpp:286) for what it takes out.
-/

set_option autoImplicit false

namespace RR32

/-- The nodes, all frames put on the bus so far with the node that sent them (`none`: a device without the library), for how many frames each
node has room, what is in its buffer, and how many frames it has lost. -/
structure Net where
  nodes : Nat → World
  wire : List (Option Nat × CanFrame)
  room : Nat → Nat
  queue : Nat → List CanFrame
  lost : Nat → Nat

namespace Net

/-- Node `j` gets this frame into its buffer: it is not its own and there is room. -/
def fits (n : Net) (x : Option Nat × CanFrame) (j : Nat) : Bool := decide (x.1 ≠ some j) && decide ((n.queue j).length < n.room j)

/-- A frame on the bus. -/
def deliver (n : Net) (x : Option Nat × CanFrame) : Net :=
  { n with
    wire := n.wire ++ [x]
    queue := fun j => if n.fits x j then n.queue j ++ [x.2] else n.queue j
    lost := fun j => if x.1 ≠ some j ∧ n.fits x j = false then n.lost j + 1 else n.lost j }

/-- Assign to a node. -/
def setNode (n : Net) (i : Nat) (w : World) : Net := { n with nodes := fun m => if m = i then w else n.nodes m }

/-- One step of the installation. -/
def step (n : Net) (o : BusOp) : Res Net :=
  match o with
  | .call i op => do
      let w ← (n.nodes i).step op
      .ok (((Bus.sent (w.log.drop (n.nodes i).log.length)).map (fun f => (some i, f))).foldl deliver (n.setNode i w))
  | .receive i =>
      match n.queue i with
      | [] => .ok n
      | f :: q => do
          let w ← (n.nodes i).step (.handle f)
          .ok { n.setNode i w with queue := fun m => if m = i then q else n.queue m }
  | .foreign f => .ok (n.deliver (none, f))

/-- A history of the installation. -/
def run (n : Net) (ops : List BusOp) : Res Net := ops.foldlM step n

end Net

end RR32
