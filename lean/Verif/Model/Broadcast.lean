import Verif.Model.Exchange

/-!
# The ideal bus, with callbacks that call back

`Model/Bus` with a `Program` for each node, as in `Model/Exchange`: no receive buffers, so no frame is lost.
-/

set_option autoImplicit false

namespace RR32

namespace Bus

variable (P : Nat → Program) (depth : Nat)

/-- Node `i` has got as far as `w`; what it sent meanwhile is put on the bus. -/
def give (b : Bus) (i : Nat) (w : World) : Bus :=
  { b.setNode i w with wire := b.wire ++ (sent (w.log.drop (b.nodes i).log.length)).map (fun f => (some i, f)) }

/-- One step of the installation. The receive loop takes a frame before it passes it to `HandlePacket` (lib/RR32Can/Station.cpp:286). -/
def stepWith (b : Bus) (o : BusOp) : Run Bus :=
  match o with
  | .call i op => do
      let w ← World.stepN (P i) (World.nested (P i) depth) (b.nodes i) op
      pure (b.give i w)
  | .receive i =>
      match b.wire[b.pos i]? with
      | none => pure b
      | some (s, f) =>
          if s = some i then pure (b.advance i)
          else do
            let w ← World.stepN (P i) (World.nested (P i) depth) (b.nodes i) (.handle f)
            pure ((b.advance i).give i w)
  | .foreign f => pure { b with wire := b.wire ++ [(none, f)] }

/-- A history of the installation. -/
def runWith (b : Bus) (ops : List BusOp) : Run Bus := ops.foldlM (stepWith P depth) b

end Bus

end RR32
