import Verif.Model.Tenancy
import Verif.Spec.Departing
import Verif.Spec.Storage

/-! # Main programs that use storage again while callbacks destroy objects -/

set_option autoImplicit false

namespace RR32

namespace Scene

/-- What the main program may do: as in `Heeds`, and it creates objects only where none exists. -/
inductive HeedsS (f : Scene → Deed → RunD Scene) : Scene → List Deed → Prop where
  | nil (h : Scene) : HeedsS f h []
  | call (h : Scene) (op : Op) (ds : List Deed) (hm : ∀ o, World.Mentions op o → h.live o = true)
      (hn : ∀ h', (f h (.call op)).Returns h' → HeedsS f h' ds) : HeedsS f h (.call op :: ds)
  | destroy (h : Scene) (o : Obj) (ds : List Deed) (ho : h.live o = true) (hs : ¬h.w.station.Has o)
      (hp : ∀ o', h.live o' = true → ¬h.w.Points o' o) (hn : HeedsS f (h.drop o) ds) : HeedsS f h (.destroy o :: ds)
  | create (h : Scene) (b : Newborn) (ds : List Deed) (hb : h.live b.obj = false)
      (hn : ∀ w, h.w.create b = .ok w → HeedsS f ⟨w, World.adding h.live b.obj⟩ ds) : HeedsS f h (.create b :: ds)

/-- What a callback can do, done by the main program. -/
def ofAct : Act → Deed
  | .call op => .call op
  | .destroy o => .destroy o

end Scene

namespace World

/-- The same program if nothing were ever destroyed, with callbacks: what is made anew is assigned to what was there. -/
def foreverN (Q : Program) (depth : Nat) (w : World) : List Deed → Run World
  | [] => pure w
  | .call op :: ds => do
      let w ← stepN Q (nested Q depth) w op
      foreverN Q depth w ds
  | .destroy _ :: ds => foreverN Q depth w ds
  | .create b :: ds => do
      let w ← Run.lift (w.create b)
      foreverN Q depth w ds

end World

end RR32
