import Verif.Spec.Engine

/-!
# The lines a user sees while files arrive
-/

set_option autoImplicit false

namespace RR32.Spec

/-- The line about an entry of the list of engines, when `used` of the two places in the table are taken. -/
def listLine (used : Nat) (e : Entry) : List Byte :=
  if NamesEngine e then
    if 2 ≤ used then str "No free Engine buffer found.\n" else str "Storing Engine " ++ text e.value ++ str "\n"
  else if IsNumber e then []
  else str "Received config data for uninteresting section '" ++ text e.sect ++ str "'.\n"

/-- The lines about entries of the list of engines, one after the other. -/
def listLines (used : Nat) : List Entry → List Byte
  | [] => []
  | e :: es => listLine used e ++ listLines (if NamesEngine e then used + 1 else used) es

end RR32.Spec
