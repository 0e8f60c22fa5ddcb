import Verif.Model.CLib

/-! # C strings: the text a memory object holds, and which objects may be read how far -/

set_option autoImplicit false

namespace RR32.Spec

/-- The text in a memory object: everything before the first NUL. -/
def text (m : List Byte) : List Byte := m.takeWhile (fun c => c != 0#8)

/-- Reading the text, but at most `n` bytes, stays inside the object. -/
def Readable (n : Nat) (m : List Byte) : Prop := n ≤ m.length ∨ 0#8 ∈ m

/-- The object holds a NUL-terminated string. -/
def Terminated (m : List Byte) : Prop := 0#8 ∈ m

end RR32.Spec
