import Verif.Model.Shared
import Verif.Spec.Buffer

/-!
# Buffers over common memory

What the windows of buffers are, when two share bytes, and what buffers whose windows are apart mean.
-/

set_option autoImplicit false

namespace RR32.Spec

/-- The manager has a window of `cap` bytes inside its array, and its content in it. -/
structure Fits (heap : Nat → List Byte) (m : Mgr) : Prop where
  len_le : m.len ≤ m.cap
  cap_le : m.cap ≤ 255
  inside : m.off + m.cap ≤ (heap m.obj).length

/-- Byte `x` of array `o` is in the window of the manager. -/
def InWindow (m : Mgr) (o x : Nat) : Prop := o = m.obj ∧ m.off ≤ x ∧ x < m.off + m.cap

/-- The windows have no byte in common. -/
def Apart (a b : Mgr) : Prop := ∀ o x, InWindow a o x → ¬InWindow b o x

/-- All bytes of the window. -/
def window (s : Shared) (i : Nat) : List Byte := ((s.heap (s.mgr i).obj).drop (s.mgr i).off).take (s.mgr i).cap

/-- The visible bytes. -/
def shows (s : Shared) (i : Nat) : List Byte := ((s.heap (s.mgr i).obj).drop (s.mgr i).off).take (s.mgr i).len

/-- Appending `other` to `m` copies bytes onto bytes that it reads: some byte is both among the first bytes of `other`, as many as are
copied, and in the part of `m` they are copied to. -/
def Clash (m other : Mgr) : Prop :=
  m.obj = other.obj ∧ ∃ x, m.off + m.len ≤ x ∧ x < m.off + m.len + min (m.cap - m.len) other.len ∧
    other.off ≤ x ∧ x < other.off + min (m.cap - m.len) other.len

/-- What a program must respect. New managers lie inside an array; nothing is appended onto itself; strings go into buffers of capacity at
least 1 and are terminated, and if they are read from memory it is from outside of the buffer; single bytes are read and written only if
there are any. -/
def Permitted (s : Shared) : ShareOp → Prop
  | .make _ obj off cap len => Fits s.heap { obj := obj, off := off, len := len, cap := cap }
  | .sub _ _ _ _ | .assign _ _ | .pushChar _ _ | .pop _ _ | .erase _ | .findChar _ _ _ => True
  | .append i j | .move i j => ¬Clash (s.mgr i) (s.mgr j)
  | .appendView i j start stop => ¬Clash (s.mgr i) ((s.mgr j).sub start stop)
  | .set i text _ => 1 ≤ (s.mgr i).cap ∧ ∀ c ∈ text, c ≠ 0#8
  | .setFrom i j => 1 ≤ (s.mgr i).cap ∧ Apart (s.mgr i) (s.mgr j) ∧ ∃ k, k < (s.mgr j).cap ∧ (window s j)[k]? = some 0#8
  | .write i _ _ | .read i _ => 0 < (s.mgr i).len
  | .find _ chars _ _ => (∀ c ∈ chars, c ≠ 0#8) ∧ chars.length < 256

/-- Every step is permitted when it is its turn. -/
def PermittedRun : Shared → List ShareOp → Prop
  | _, [] => True
  | s, op :: ops => Permitted s op ∧ ∀ s', s.step op = .ok s' → PermittedRun s' ops

/-- The variable whose function writes to memory. `move_back` has two. -/
def Writes : ShareOp → Nat → Prop
  | .pushChar i _, k | .append i _, k | .appendView i _ _ _, k | .pop i _, k | .erase i, k | .set i _ _, k | .setFrom i _, k
  | .write i _ _, k => k = i
  | .move i j, k => k = i ∨ k = j
  | _, _ => False

/-- The variable that gets a new pointer. -/
def Assigns : ShareOp → Nat → Prop
  | .make d _ _ _ _, k | .sub d _ _ _, k | .assign d _, k => k = d
  | _, _ => False

/-- A program on the buffers themselves, as the program with pointers. -/
def shareOp : BufOp → ShareOp
  | .pushChar i c => .pushChar i c
  | .append i j start stop => .appendView i j start stop
  | .move i j => .move i j
  | .pop i n => .pop i n
  | .erase i => .erase i
  | .set i text rest => .set i text rest
  | .write i k c => .write i k c
  | .read i k => .read i k
  | .find i chars rest offset => .find i chars rest offset
  | .findChar i c offset => .findChar i c offset

/-- The lists after an operation, if the buffers are apart. A buffer may be appended to itself, and moved into itself: that brings its first
bytes, as many as it has room for, to the end. -/
def apartStep (cap : Nat → Nat) (l : Nat → List Byte) (op : BufOp) : Nat → List Byte :=
  match op with
  | .move i j =>
      if i = j then fun m => if m = i then (l i).drop (cap i - (l i).length) ++ (l i).take (cap i - (l i).length) else l m
      else listStep cap l op
  | op => listStep cap l op

/-- What the user must respect if the buffers are apart. -/
def LegalApart (cap : Nat → Nat) (l : Nat → List Byte) : BufOp → Prop
  | .append _ j start stop => start ≤ stop ∧ stop ≤ (l j).length
  | .move _ _ => True
  | op => Legal cap l op

/-- A program on lists. -/
def apartRun (cap : Nat → Nat) (l : Nat → List Byte) (ops : List BufOp) : Nat → List Byte := ops.foldl (apartStep cap) l

/-- Every operation is legal when it is its turn. -/
def LegalApartRun (cap : Nat → Nat) (l : Nat → List Byte) : List BufOp → Prop
  | [] => True
  | op :: ops => LegalApart cap l op ∧ LegalApartRun cap (apartStep cap l op) ops

end RR32.Spec
