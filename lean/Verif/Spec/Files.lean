import Verif.Proofs.CLib
import Verif.Spec.Engine
import Verif.Spec.Numbers

/-! # The files a master sends: of an engine, and the list of engines -/

set_option autoImplicit false

namespace RR32.Spec

/-- The text denotes the 32-bit number in hexadecimal, with or without `0x`, and is short enough for its buffer. -/
def HexValue (l : List Byte) (v : U32) : Prop :=
  l.length < 26 ∧ ∃ pre digits, l = pre ++ digits ∧ IsHexPrefix pre ∧ Numeral 16 digits v.toNat ∧ digits ≠ []

/-- The entries of the file of an engine, in terms of their names: nothing is a proper prefix of a name with a meaning. -/
structure NamedEngineFile (es : List Entry) (u a : U32) (p : List Byte) : Prop where
  readable : ∀ e ∈ es, HasNul 26 e.value
  plain : ∀ e ∈ es, NoNul e.sect ∧ NoNul e.key
  unambiguous : ∀ e ∈ es, Unambiguous [str "lokomotive"] e.sect ∧ Unambiguous [str "uid", str "typ", str "adresse"] e.key
  uid : ∀ e ∈ es, e.sect = str "lokomotive" → e.key = str "uid" → HexValue e.value u
  address : ∀ e ∈ es, e.sect = str "lokomotive" → e.key = str "adresse" → HexValue e.value a
  protocol : ∀ e ∈ es, e.sect = str "lokomotive" → e.key = str "typ" → text e.value = p
  hasUid : ∃ e ∈ es, e.sect = str "lokomotive" ∧ e.key = str "uid"
  hasAddress : ∃ e ∈ es, e.sect = str "lokomotive" ∧ e.key = str "adresse"
  hasProtocol : ∃ e ∈ es, e.sect = str "lokomotive" ∧ e.key = str "typ"
  short : p.length ≤ 7

/-- The entries of a list of engines, in terms of their names. -/
structure NamedListFile (es : List Entry) (ns : List (List Byte)) (count : Byte) : Prop where
  readable : ∀ e ∈ es, HasNul 26 e.value ∧ HasNul 11 e.sect
  plain : ∀ e ∈ es, NoNul e.sect ∧ NoNul e.key
  unambiguous : ∀ e ∈ es, Unambiguous [str "loknamen", str "numloks"] e.sect ∧ Unambiguous [str "wert"] e.key
  names : (es.filter (fun e => decide (e.sect = str "loknamen"))).map (fun e => text e.value) = ns
  count : ∀ e ∈ es, e.sect = str "numloks" → e.key = str "wert" → e.value.length < 26 ∧ Numeral 10 e.value count.toNat ∧ e.value ≠ []
  hasCount : ∃ e ∈ es, e.sect = str "numloks" ∧ e.key = str "wert"

end RR32.Spec
