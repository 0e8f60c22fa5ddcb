import Verif.Model.CLib

/-! # Numerals: a text denotes a number in a base, digits in either case, leading zeros allowed -/

set_option autoImplicit false

namespace RR32.Spec

/-- `c` is the digit `d`. -/
def IsDigit (d : Nat) (c : Byte) : Prop := c = ch (Nat.digitChar d) ∨ c = ch (Nat.digitChar d).toUpper

/-- The text denotes the number. -/
inductive Numeral (base : Nat) : List Byte → Nat → Prop where
  | nil : Numeral base [] 0
  | snoc {l : List Byte} {n d : Nat} {c : Byte} : Numeral base l n → d < base → IsDigit d c → Numeral base (l ++ [c]) (n * base + d)

/-- What may precede a hexadecimal number. -/
def IsHexPrefix (l : List Byte) : Prop := l = [] ∨ l = str "0x" ∨ l = str "0X"

end RR32.Spec
