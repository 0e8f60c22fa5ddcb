import Verif.Model.Overrun
import Verif.Model.Nested

/-!
# Several programs on one bus, with callbacks that call back

As `Model/Overrun`, but each node has a `Program`: its callbacks may call any public functions of the library before they return, as in
`Model/Nested`. So a receive loop can send. A call of the application, or the handling of one frame, takes place at once, with everything
its callbacks do; the frames sent meanwhile are put on the bus in the order in which they were given to the tx callback.
-/

set_option autoImplicit false

namespace RR32

namespace Net

variable (P : Nat → Program) (depth : Nat)

/-- Node `i` has got as far as `w`; what it sent meanwhile is put on the bus. -/
def advance (n : Net) (i : Nat) (w : World) : Net :=
  ((Bus.sent (w.log.drop (n.nodes i).log.length)).map (fun f => (some i, f))).foldl deliver (n.setNode i w)

/-- One step of the installation. The receive loop takes a frame out of the buffer before it passes it to `HandlePacket`
(lib/RR32Can/Station.cpp:286). -/
def stepWith (n : Net) (o : BusOp) : Run Net :=
  match o with
  | .call i op => do
      let w ← World.stepN (P i) (World.nested (P i) depth) (n.nodes i) op
      pure (n.advance i w)
  | .receive i =>
      match n.queue i with
      | [] => pure n
      | f :: q => do
          let w ← World.stepN (P i) (World.nested (P i) depth) (n.nodes i) (.handle f)
          pure ({ n with queue := fun m => if m = i then q else n.queue m }.advance i w)
  | .foreign f => pure (n.deliver (none, f))

/-- A history of the installation. -/
def runWith (n : Net) (ops : List BusOp) : Run Net := ops.foldlM (stepWith P depth) n

end Net

end RR32
