import Verif.Model.CLib

/-!
# The text format

A byte stream read one byte at a time: what a reader of the configuration format does, without buffers, offsets or chunks. The grammar
of documents, also here, does not refer to the reader.
-/

set_option autoImplicit false

namespace RR32.Spec

/-- What a consumer is told. -/
structure Entry where
  sect : List Byte
  key : List Byte
  value : List Byte
  deriving DecidableEq, Repr

/-- Longest section name, key and value. -/
def maxSection : Nat := 11
/-- longest key -/
def maxKey : Nat := 11
/-- longest value -/
def maxValue : Nat := 26
/-- longest chunk -/
def maxChunk : Nat := 30

/-- What the reader is inside of. -/
inductive Mode where
  | look | sect | key | value | error
  deriving DecidableEq, Repr

/-- The reader: what it is inside of, and what it has read of the current section, key and value. -/
structure Reader where
  mode : Mode
  sect : List Byte
  key : List Byte
  value : List Byte
  deriving DecidableEq, Repr

/-- A new reader. -/
def Reader.start : Reader := { mode := .look, sect := [], key := [], value := [] }

/-- A reader that gave up. -/
def Reader.failed : Reader := { mode := .error, sect := str "ERROR", key := str "ERROR", value := str "ERROR" }

/-- The entry that reports a failure. -/
def Entry.error : Entry := { sect := str "ERROR", key := str "ERROR", value := str "ERROR" }

/-- What one byte does. -/
def Reader.byte (s : Reader) (b : Byte) : Reader × List Entry :=
  match s.mode with
  | .look =>
      if b = ch '[' then ({ s with mode := .sect, sect := [] }, [])
      else if b = ch '.' then ({ s with mode := .key }, [])
      else (s, [])
  | .sect =>
      if b = ch ']' then ({ s with mode := .look }, [])
      else if s.sect.length < maxSection then ({ s with sect := s.sect ++ [b] }, [])
      else (.failed, [.error])
  | .key =>
      if b = ch '=' then ({ s with mode := .value }, [])
      else if b = ch '\n' then ({ s with mode := .look, key := [], value := [] }, [{ sect := s.sect, key := s.key, value := [] }])
      else if s.key.length < maxKey then ({ s with key := s.key ++ [b] }, [])
      else (.failed, [.error])
  | .value =>
      if b = ch '\n' then ({ s with mode := .look, key := [], value := [] }, [{ sect := s.sect, key := s.key, value := s.value }])
      else if s.value.length < maxValue then ({ s with value := s.value ++ [b] }, [])
      else (.failed, [.error])
  | .error => (s, [])

/-- What a sequence of bytes does. -/
def Reader.bytes (s : Reader) : List Byte → Reader × List Entry
  | [] => (s, [])
  | b :: l => (((s.byte b).1.bytes l).1, (s.byte b).2 ++ ((s.byte b).1.bytes l).2)

/-- What a chunk does: a chunk that is too long is a failure, and a reader that gave up says so again. -/
def Reader.chunk (s : Reader) (l : List Byte) : Reader × List Entry :=
  if l.length > maxChunk ∨ s.mode = .error then (.failed, [.error]) else s.bytes l

/-- What a sequence of chunks does. -/
def Reader.chunks (s : Reader) : List (List Byte) → Reader × List Entry
  | [] => (s, [])
  | l :: ls => (((s.chunk l).1.chunks ls).1, (s.chunk l).2 ++ ((s.chunk l).1.chunks ls).2)

/-! ## Documents -/

/-- A line, with what precedes it. -/
inductive Item where
  /-- `[name]` -/
  | section (filler name : List Byte)
  /-- `.key=value` -/
  | entry (filler key value : List Byte)
  /-- `.key` -/
  | flag (filler key : List Byte)
  deriving DecidableEq, Repr

/-- What is left at the end of a stream. -/
inductive Tail where
  | filler (filler : List Byte)
  | inSection (filler name : List Byte)
  | inKey (filler key : List Byte)
  | inValue (filler key value : List Byte)
  deriving DecidableEq, Repr

/-- Bytes between lines: neither '.' nor '['. -/
def IsFiller (l : List Byte) : Prop := ∀ b ∈ l, b ≠ ch '.' ∧ b ≠ ch '['
/-- A section name does not contain ']'. -/
def IsName (l : List Byte) : Prop := ∀ b ∈ l, b ≠ ch ']'
/-- A key contains neither '=' nor a newline. -/
def IsKey (l : List Byte) : Prop := ∀ b ∈ l, b ≠ ch '=' ∧ b ≠ ch '\n'
/-- A value does not contain a newline. -/
def IsValue (l : List Byte) : Prop := ∀ b ∈ l, b ≠ ch '\n'

/-- The parts of a line are what they are called. -/
def Item.WellFormed : Item → Prop
  | .section f n => IsFiller f ∧ IsName n
  | .entry f k v => IsFiller f ∧ IsKey k ∧ IsValue v
  | .flag f k => IsFiller f ∧ IsKey k

/-- The parts of the tail are what they are called. -/
def Tail.WellFormed : Tail → Prop
  | .filler f => IsFiller f
  | .inSection f n => IsFiller f ∧ IsName n
  | .inKey f k => IsFiller f ∧ IsKey k
  | .inValue f k v => IsFiller f ∧ IsKey k ∧ IsValue v

/-- The bytes of a line. -/
def Item.render : Item → List Byte
  | .section f n => f ++ ch '[' :: n ++ [ch ']']
  | .entry f k v => f ++ ch '.' :: k ++ ch '=' :: v ++ [ch '\n']
  | .flag f k => f ++ ch '.' :: k ++ [ch '\n']

/-- The bytes of the tail. -/
def Tail.render : Tail → List Byte
  | .filler f => f
  | .inSection f n => f ++ ch '[' :: n
  | .inKey f k => f ++ ch '.' :: k
  | .inValue f k v => f ++ ch '.' :: k ++ ch '=' :: v

/-- No part of the line is too long. -/
def Item.Fits : Item → Prop
  | .section _ n => n.length ≤ maxSection
  | .entry _ k v => k.length ≤ maxKey ∧ v.length ≤ maxValue
  | .flag _ k => k.length ≤ maxKey

/-- No part of the tail is too long. -/
def Tail.Fits : Tail → Prop
  | .filler _ => True
  | .inSection _ n => n.length ≤ maxSection
  | .inKey _ k => k.length ≤ maxKey
  | .inValue _ k v => k.length ≤ maxKey ∧ v.length ≤ maxValue

/-- The section in force after a line. -/
def Item.sectionAfter (cur : List Byte) : Item → List Byte
  | .section _ n => n
  | .entry _ _ _ => cur
  | .flag _ _ => cur

/-- The entry a line contributes. -/
def Item.entries (cur : List Byte) : Item → List Entry
  | .section _ _ => []
  | .entry _ k v => [{ sect := cur, key := k, value := v }]
  | .flag _ k => [{ sect := cur, key := k, value := [] }]

/-- The entries of a document, `cur` being the section in force before it. -/
def entriesOf (cur : List Byte) : List Item → List Entry
  | [] => []
  | i :: is => i.entries cur ++ entriesOf (i.sectionAfter cur) is

/-- The section in force after a document. -/
def sectionOf (cur : List Byte) : List Item → List Byte
  | [] => cur
  | i :: is => sectionOf (i.sectionAfter cur) is

/-- The bytes of a document. -/
def render (items : List Item) : List Byte := items.flatMap Item.render

end RR32.Spec
