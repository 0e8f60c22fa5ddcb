import Verif.Spec.Strings
import Verif.Spec.Text

/-!
# What the entries of a stream mean

Names of sections and keys are compared by the code with the expected name cut to the length of the received one. `Matches` says so;
`Matches_iff` (in the proofs) says that for tokens without NUL this is "is a prefix of". What an entry does to an engine or to the engine
list is stated with `Matches`, without buffers or C library calls.
-/

set_option autoImplicit false

namespace RR32.Spec

/-- The received token passes for the expected name. -/
def Matches (expected tok : List Byte) : Prop := text tok = expected.take tok.length

instance (expected tok : List Byte) : Decidable (Matches expected tok) := by unfold Matches; infer_instance

/-- An entry within the sizes of section, key and value. -/
structure Entry.Fits (e : Entry) : Prop where
  sect : e.sect.length ≤ maxSection
  key : e.key.length ≤ maxKey
  value : e.value.length ≤ maxValue

/-- There is a NUL behind or in a token in a buffer of `cap` bytes. -/
def HasNul (cap : Nat) (tok : List Byte) : Prop := tok.length < cap ∨ 0#8 ∈ tok

/-- An entry of section `lokomotive`. -/
def IsLoco (e : Entry) : Prop := Matches (str "lokomotive") e.sect

/-- An entry that sets the uid. -/
def SetsUid (e : Entry) : Prop := IsLoco e ∧ Matches (str "uid") e.key

/-- An entry that sets the protocol. -/
def SetsProtocol (e : Entry) : Prop := IsLoco e ∧ ¬Matches (str "uid") e.key ∧ Matches (str "typ") e.key

/-- An entry that sets the address. -/
def SetsAddress (e : Entry) : Prop :=
  IsLoco e ∧ ¬Matches (str "uid") e.key ∧ ¬Matches (str "typ") e.key ∧ Matches (str "adresse") e.key

instance (e : Entry) : Decidable (IsLoco e) := by unfold IsLoco; infer_instance
instance (e : Entry) : Decidable (SetsUid e) := by unfold SetsUid; infer_instance
instance (e : Entry) : Decidable (SetsProtocol e) := by unfold SetsProtocol; infer_instance
instance (e : Entry) : Decidable (SetsAddress e) := by unfold SetsAddress; infer_instance

/-- An entry with a name of an engine. -/
def NamesEngine (e : Entry) : Prop := Matches (str "loknamen") e.sect

/-- An entry of the section with the number of engines. -/
def IsNumber (e : Entry) : Prop := ¬NamesEngine e ∧ Matches (str "numloks") e.sect

/-- An entry with the number of engines. -/
def IsCount (e : Entry) : Prop := IsNumber e ∧ Matches (str "wert") e.key

instance (e : Entry) : Decidable (NamesEngine e) := by unfold NamesEngine; infer_instance
instance (e : Entry) : Decidable (IsNumber e) := by unfold IsNumber; infer_instance
instance (e : Entry) : Decidable (IsCount e) := by unfold IsCount; infer_instance

/-- A token that passes for one of the names only if it is that name. -/
def Unambiguous (names : List (List Byte)) (tok : List Byte) : Prop := ∀ n ∈ names, tok <+: n → tok = n

end RR32.Spec
