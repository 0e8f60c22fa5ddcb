import Verif.Model.Departing
import Verif.Model.Storage

/-!
# Storage that is used again, and callbacks that destroy objects

`Model/Departing.lean` and `Model/Storage.lean` together: callbacks call public functions and destroy objects, and the main program also
creates objects, perhaps where a callback has destroyed one. Callbacks create nothing here.
-/

set_option autoImplicit false

namespace RR32

namespace Scene

variable (P : ProgramD)

/-- The constructors run (Model/Storage.lean, `World.create`), and the object exists. -/
def create (h : Scene) (b : Newborn) : RunD Scene := do
  let w ← RunD.lift (h.w.create b)
  pure { w := w, live := fun x => x == b.obj || h.live x }

/-- A call, a destruction or a creation by the main program. -/
def deed (depth : Nat) (h : Scene) : Deed → RunD Scene
  | .call op => act P (nested P depth) [] h (.call op)
  | .destroy o => act P (nested P depth) [] h (.destroy o)
  | .create b => h.create b

/-- A history of calls, destructions and creations by the main program. -/
def runDeeds (depth : Nat) (h : Scene) (ds : List Deed) : RunD Scene := ds.foldlM (deed P depth) h

end Scene

end RR32
