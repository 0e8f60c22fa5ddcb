import Verif.Proofs.Buffer

/-! # C24 to C28: buffers -/

set_option autoImplicit false

namespace RR32

open Spec

/-! ## C24, C25, C26: any sequence of operations -/

/-- A program on a family of buffers that do not share memory. -/
def bufStep (bs : Nat → BufferManager) : BufOp → Res (Nat → BufferManager)
  | .pushChar i c => do
      let (b, _) ← (bs i).push_back_char c
      .ok (fun m => if m = i then b else bs m)
  | .append i j start stop => do
      let (b, _) ← (bs i).push_back ((bs j).subBufferManager start stop)
      .ok (fun m => if m = i then b else bs m)
  | .move i j => do
      let (b, o, _) ← (bs i).move_back (bs j)
      .ok (fun m => if m = j then o else if m = i then b else bs m)
  | .pop i n => do
      let b ← (bs i).pop_front n
      .ok (fun m => if m = i then b else bs m)
  | .erase i => do
      let b ← (bs i).erase
      .ok (fun m => if m = i then b else bs m)
  | .set i text rest => do
      let b ← (bs i).set (text ++ 0#8 :: rest)
      .ok (fun m => if m = i then b else bs m)
  | .write i k c => do
      let b ← (bs i).setAt k c
      .ok (fun m => if m = i then b else bs m)
  | .read i k => do
      let _ ← (bs i).get k
      .ok bs
  | .find i chars rest offset => do
      let _ ← (bs i).findFirstOf (chars ++ 0#8 :: rest) offset
      .ok bs
  | .findChar i c offset => do
      let _ ← (bs i).findFirstOfChar c offset
      .ok bs

/-- A program: a sequence of operations. -/
def bufRun (bs : Nat → BufferManager) (ops : List BufOp) : Res (Nat → BufferManager) := ops.foldlM bufStep bs

/-- The same program on lists. -/
def Spec.listRun (cap : Nat → Nat) (l : Nat → List Byte) (ops : List BufOp) : Nat → List Byte := ops.foldl (listStep cap) l

/-- Every operation of the program respects the preconditions when it is its turn. -/
def Spec.LegalRun (cap : Nat → Nat) (l : Nat → List Byte) : List BufOp → Prop
  | [] => True
  | op :: ops => Legal cap l op ∧ LegalRun cap (listStep cap l op) ops

/-- `b'` is a sound result for the list `l`, obtained from `b`. -/
structure Goes (b b' : BufferManager) (l : List Byte) : Prop where
  ok : BufOk b'
  cap : b'.cap = b.cap
  content : content b' = l
  zero : ZeroTail b → ZeroTail b'

private theorem content_nf (c t : List Byte) (cap : Nat) : content { mem := c ++ t, len := c.length, cap := cap } = c := by
  simp [content]

private theorem zeroTail_nf (c t : List Byte) (cap : Nat) :
    ZeroTail { mem := c ++ t, len := c.length, cap := cap } ↔ t.take (cap - c.length) = List.replicate (cap - c.length) 0#8 := by
  unfold ZeroTail
  simp only []
  rw [List.drop_take, List.drop_left]

theorem Goes.refl {b : BufferManager} (h : BufOk b) : Goes b b (Spec.content b) := ⟨h, rfl, rfl, id⟩

private theorem nf {b : BufferManager} (h : BufOk b) : ∃ c t, b = { mem := c ++ t, len := c.length, cap := b.cap } ∧ content b = c ∧
    c.length ≤ b.cap ∧ b.cap ≤ 255 ∧ b.cap ≤ (c ++ t).length := by
  have hn := BufferManager.normal b (Nat.le_trans h.len_le h.mem_le)
  refine ⟨content b, b.mem.drop b.len, hn, rfl, ?_, h.cap_le, ?_⟩
  · rw [content, List.length_take]; have := h.len_le; omega
  · rw [content, List.take_append_drop]; exact h.mem_le

/-- Appending a buffer (or a readable view): the longest prefix that fits, and its length is returned. -/
theorem C25_append (b o : BufferManager) (h : BufOk b) (ho : o.len ≤ o.mem.length) :
    ∃ b', b.push_back o = .ok (b', min (b.cap - (content b).length) (content o).length) ∧
      Goes b b' (content b ++ (content o).take (b.cap - (content b).length)) := by
  obtain ⟨c, t, hb, hc, h1, h2, h3⟩ := nf h
  have hon := BufferManager.normal o ho
  generalize content o = d at hon
  generalize o.mem.drop o.len = u at hon
  rw [hc]
  generalize b.cap = cap at *
  generalize o.cap = ocap at hon
  subst hb hon
  rw [BufferManager.push_back_eq c t d u cap _ h1 h2 h3]
  refine ⟨_, rfl, ⟨?_, h2, ?_⟩, rfl, content_nf _ _ _, ?_⟩
  · simp only [List.length_append, List.length_take]; omega
  · simp only [List.length_append, List.length_take, List.length_drop] at *; omega
  · rw [zeroTail_nf, zeroTail_nf]
    intro hz
    have := congrArg (List.drop (min (cap - c.length) d.length)) hz
    rw [List.drop_take, List.drop_replicate] at this
    rw [show cap - (c ++ List.take (cap - c.length) d).length = cap - c.length - min (cap - c.length) d.length by
      simp only [List.length_append, List.length_take]; omega]
    exact this

/-- Appending a character: it is appended unless the buffer is full, and the number of characters appended is returned. -/
theorem C25_push (b : BufferManager) (h : BufOk b) (x : Byte) :
    ∃ b', b.push_back_char x = .ok (b', if (content b).length < b.cap then 1 else 0) ∧
      Goes b b' (if (content b).length < b.cap then content b ++ [x] else content b) := by
  obtain ⟨c, t, hb, hc, h1, h2, h3⟩ := nf h
  rw [hc]
  generalize b.cap = cap at *
  subst hb
  rw [BufferManager.push_back_char_eq c t x cap h2 h3]
  split
  · next hlt =>
    refine ⟨_, rfl, ⟨?_, h2, ?_⟩, rfl, content_nf _ _ _, ?_⟩
    · simp only [List.length_append, List.length_singleton]; omega
    · simp only [List.length_append, List.length_singleton, List.length_drop] at *; omega
    · rw [zeroTail_nf, zeroTail_nf]
      intro hz
      have := congrArg (List.drop 1) hz
      rw [List.drop_take, List.drop_replicate] at this
      rw [show cap - (c ++ [x]).length = cap - c.length - 1 by simp only [List.length_append, List.length_singleton]; omega]
      exact this
  · refine ⟨_, rfl, h, rfl, hc, id⟩

/-- Dropping characters from the front, any number. -/
theorem C25_pop (b : BufferManager) (h : BufOk b) (n : Nat) :
    ∃ b', b.pop_front n = .ok b' ∧ Goes b b' ((content b).drop n) ∧ ZeroTail b' := by
  obtain ⟨c, t, hb, hc, h1, h2, h3⟩ := nf h
  rw [hc]
  generalize b.cap = cap at *
  subst hb
  rw [BufferManager.pop_front_eq c t n cap h1 h2 h3]
  have hz : ZeroTail { mem := c.drop n ++ (List.replicate (cap - (c.drop n).length) 0#8 ++ (c ++ t).drop cap), len := (c.drop n).length, cap := cap } := by
    rw [zeroTail_nf, List.take_left' (by simp)]
  refine ⟨_, rfl, ⟨⟨?_, h2, ?_⟩, rfl, content_nf _ _ _, fun _ => hz⟩, hz⟩
  · simp only [List.length_drop]; omega
  · simp only [List.length_append, List.length_drop, List.length_replicate] at *; omega

/-- Emptying, whatever was there before. -/
theorem C25_erase (b : BufferManager) (h : b.cap ≤ 255) (hm : b.cap ≤ b.mem.length) :
    ∃ b', b.erase = .ok b' ∧ Goes b b' [] ∧ ZeroTail b' := by
  have e : b = { mem := b.mem.take b.cap ++ b.mem.drop b.cap, len := b.len, cap := b.cap } := by
    rw [List.take_append_drop]
  have hr : b.erase = .ok { mem := [] ++ (List.replicate b.cap 0#8 ++ b.mem.drop b.cap), len := ([] : List Byte).length, cap := b.cap } := by
    conv => lhs; rw [e]
    exact BufferManager.erase_eq _ _ _ _ (by rw [List.length_take]; omega)
  have hz : ZeroTail { mem := [] ++ (List.replicate b.cap 0#8 ++ b.mem.drop b.cap), len := ([] : List Byte).length, cap := b.cap } := by
    rw [zeroTail_nf, List.take_left' (by simp)]; simp
  refine ⟨_, hr, ⟨⟨by simp, h, by simp⟩, rfl, content_nf [] _ _, fun _ => hz⟩, hz⟩

/-- Storing a C string: the longest prefix of at most capacity − 1 bytes. -/
theorem C25_set (b : BufferManager) (h : BufOk b) (hc : 1 ≤ b.cap) (text rest : List Byte) (hn : NoNul text) :
    ∃ b', b.set (text ++ 0#8 :: rest) = .ok b' ∧ Goes b b' (text.take (b.cap - 1)) ∧ ZeroTail b' := by
  have e : b = { mem := b.mem.take b.cap ++ b.mem.drop b.cap, len := b.len, cap := b.cap } := by
    rw [List.take_append_drop]
  have h2 := h.cap_le
  have h3 := h.mem_le
  have hr := BufferManager.set_eq (b.mem.take b.cap) (b.mem.drop b.cap) text rest b.len b.cap
    (by rw [List.length_take]; omega) hc h2 hn
  rw [← e] at hr
  have hz : ZeroTail { mem := text.take (b.cap - 1) ++ (List.replicate (b.cap - (text.take (b.cap - 1)).length) 0#8 ++ b.mem.drop b.cap), len := (text.take (b.cap - 1)).length, cap := b.cap } := by
    rw [zeroTail_nf, List.take_left' (by simp)]
  refine ⟨_, hr, ⟨⟨?_, h2, ?_⟩, rfl, content_nf _ _ _, fun _ => hz⟩, hz⟩
  · simp only [List.length_take]; omega
  · simp only [List.length_append, List.length_take, List.length_replicate, List.length_drop]; omega

/-- Moving: all bytes are conserved, in order, across the two buffers. -/
theorem C25_move (b o : BufferManager) (h : BufOk b) (ho : BufOk o) :
    ∃ b' o' n, b.move_back o = .ok (b', o', n) ∧ content b' ++ content o' = content b ++ content o ∧
      n = min (b.cap - (content b).length) (content o).length ∧
      Goes b b' (content b ++ (content o).take (b.cap - (content b).length)) ∧
      Goes o o' ((content o).drop (b.cap - (content b).length)) := by
  obtain ⟨b', hb, gb⟩ := C25_append b o h (Nat.le_trans ho.len_le ho.mem_le)
  obtain ⟨o', hp, go, -⟩ := C25_pop o ho (min (b.cap - (content b).length) (content o).length)
  have hd : (content o).drop (min (b.cap - (content b).length) (content o).length) =
      (content o).drop (b.cap - (content b).length) := by
    by_cases hle : b.cap - (content b).length ≤ (content o).length
    · rw [Nat.min_eq_left hle]
    · rw [Nat.min_eq_right (by omega), List.drop_eq_nil_of_le (Nat.le_refl _), List.drop_eq_nil_of_le (by omega)]
  rw [hd] at go
  refine ⟨b', o', _, by simp [BufferManager.move_back, hb, hp, bind, Except.bind], ?_, rfl, gb, go⟩
  rw [gb.content, go.content, List.append_assoc, List.take_append_drop]

/-- Writing through `at` in a buffer that is not empty: the index is limited to the last byte. -/
theorem C25_write (b : BufferManager) (h : BufOk b) (hne : content b ≠ []) (k : Nat) (x : Byte) :
    ∃ b', b.setAt k x = .ok b' ∧ Goes b b' ((content b).set (min k ((content b).length - 1)) x) := by
  obtain ⟨c, t, hb, hc, h1, h2, h3⟩ := nf h
  rw [hc] at hne ⊢
  generalize b.cap = cap at *
  subst hb
  rw [BufferManager.setAt_eq c t k cap x h1 h2 hne]
  refine ⟨_, rfl, ⟨?_, h2, ?_⟩, rfl, content_nf _ _ _, ?_⟩
  · simp only [List.length_set]; omega
  · simp only [List.length_append, List.length_set] at *; omega
  · rw [zeroTail_nf, zeroTail_nf, List.length_set]; exact id

/-- Reading `b[k]` in a buffer that is not empty: the index is limited to the last byte. -/
theorem C25_read (b : BufferManager) (h : BufOk b) (hne : content b ≠ []) (k : Nat) :
    ∃ hk : min k ((content b).length - 1) < (content b).length, b.get k = .ok (content b)[min k ((content b).length - 1)] := by
  obtain ⟨c, t, hb, hc, h1, h2, h3⟩ := nf h
  rw [hc] at hne
  simp only [hc]
  have := List.length_pos_iff.mpr hne
  refine ⟨by omega, ?_⟩
  generalize b.cap = cap at *
  subst hb
  exact BufferManager.get_eq c t k cap h1 h2 hne

/-- On an empty buffer the index wraps to 255: a buffer on memory of at most 255 bytes is read and written out of bounds. -/
theorem C24_empty_index (b : BufferManager) (h : b.len = 0) (hm : b.mem.length ≤ 255) (k : Nat) (x : Byte) :
    b.get k = .error .oobRead ∧ b.setAt k x = .error .oobWrite := by
  have e : b.limitIndex k = 255 := by simp [BufferManager.limitIndex, h, u8]
  constructor
  · simp [BufferManager.get, e, peek, hm]
  · simp only [BufferManager.setAt, e, pokeAt, bind, Except.bind]
    rw [if_neg (by simp; omega)]

/-! ## C28: views -/

/-- C28. A view shows the bytes from `start` to `stop` of the parent's memory, both limited to the capacity; its capacity is what
remains behind `start`; it lies inside the parent's memory. -/
theorem C28_view (b : BufferManager) (h : BufOk b) (start stop : Nat) :
    content (b.subBufferManager start stop) = ((b.mem.take b.cap).take stop).drop start ∧
    (b.subBufferManager start stop).cap = b.cap - start ∧
    BufOk (b.subBufferManager start stop) ∧
    ∃ front, b.mem = front ++ (b.subBufferManager start stop).mem ∧ front.length = min start b.cap := by
  obtain ⟨h1, h2, h3⟩ := h
  have hs : (b.subBufferManager start stop).mem = b.mem.drop (min start b.cap) ∧
      (b.subBufferManager start stop).len = min stop b.cap - min start b.cap ∧
      (b.subBufferManager start stop).cap = b.cap - start := by
    refine ⟨?_, ?_, ?_⟩
    · simp only [BufferManager.subBufferManager]
      congr 1
      split <;> omega
    · simp only [BufferManager.subBufferManager, u8]
      repeat' split
      all_goals omega
    · simp only [BufferManager.subBufferManager, u8]
      split <;> omega
  obtain ⟨e1, e2, e3⟩ := hs
  refine ⟨?_, e3, ⟨?_, ?_, ?_⟩, b.mem.take (min start b.cap), ?_, ?_⟩
  · rw [content, e1, e2, List.take_take, ← List.drop_take]
    by_cases hc : start ≤ b.cap
    · rw [Nat.min_eq_left hc]
    · rw [List.drop_eq_nil_of_le, List.drop_eq_nil_of_le] <;> rw [List.length_take] <;> omega
  · rw [e2, e3]; omega
  · rw [e3]; omega
  · rw [e1, e3, List.length_drop]; omega
  · rw [e1, List.take_append_drop]
  · rw [List.length_take]; omega

/-- A view that ends before it starts is empty. -/
theorem C28_empty (b : BufferManager) (h : BufOk b) (start stop : Nat) (hlt : stop < start) :
    content (b.subBufferManager start stop) = [] ∧ (b.subBufferManager start stop).len = 0 := by
  obtain ⟨hc, -, hok, -⟩ := C28_view b h start stop
  have h0 : content (b.subBufferManager start stop) = [] := by
    rw [hc, List.drop_eq_nil_of_le]
    rw [List.length_take]; omega
  refine ⟨h0, ?_⟩
  have := congrArg List.length h0
  rw [content, List.length_take] at this
  have := Nat.le_trans hok.len_le hok.mem_le
  simp only [List.length_nil] at *
  omega

/-- A view inside the content shows that part of the content. -/
theorem C28_content (b : BufferManager) (h : BufOk b) (start stop : Nat) (hle : stop ≤ (content b).length) :
    content (b.subBufferManager start stop) = ((content b).take stop).drop start := by
  rw [(C28_view b h start stop).1, content, List.take_take, List.take_take]
  have := h.len_le
  have := h.mem_le
  rw [content, List.length_take] at hle
  rw [Nat.min_eq_left (by omega), Nat.min_eq_left (by omega)]

/-- The one-argument form shows the content from `start` on. -/
theorem C28_from (b : BufferManager) (h : BufOk b) (start : Nat) :
    content (b.subBufferManagerFrom start) = (content b).drop start := by
  have hl : (content b).length = b.len := by
    rw [content, List.length_take]; have := h.len_le; have := h.mem_le; omega
  rw [BufferManager.subBufferManagerFrom, C28_content b h start b.len (by omega), ← hl, List.take_length]

/-! ## C27: searching -/

/-- The index of the first byte of `l`, from `offset` on, that satisfies `p`. -/
def Spec.firstFrom (p : Byte → Bool) (l : List Byte) (offset : Nat) (r : Option Nat) : Prop :=
  match r with
  | none => ∀ k, offset ≤ k → (hk : k < l.length) → p l[k] = false
  | some r => offset ≤ r ∧ ∃ hr : r < l.length, p l[r] = true ∧ ∀ k, offset ≤ k → (hk : k < r) → p l[k] = false

private theorem find_spec (b : BufferManager) (h : BufOk b) (p : Byte → Bool) (offset : Nat) (hlt : ¬offset ≥ b.len) :
    ∃ r, BufferManager.findLoop b.mem p (b.len - offset) offset = .ok r ∧
      ((r = 255 ∧ firstFrom p (content b) offset none) ∨ (r < 255 ∧ firstFrom p (content b) offset (some r))) := by
  obtain ⟨h1, h2, h3⟩ := h
  obtain ⟨r, hr, hc⟩ := findLoop_spec b.mem p (b.len - offset) offset (by omega) (by omega)
  have hl : (content b).length = b.len := by rw [content, List.length_take]; omega
  refine ⟨r, hr, ?_⟩
  rcases hc with ⟨e, hn⟩ | ⟨e, h4, h5, h6⟩
  · left
    refine ⟨e, ?_⟩
    intro k hk1 hk2
    simp only [content, List.getElem_take]
    exact hn k hk1 (by omega)
  · right
    refine ⟨by omega, h4, by omega, ?_, ?_⟩
    · simp only [content, List.getElem_take]
      exact h5
    · intro k hk1 hk2
      simp only [content, List.getElem_take]
      exact h6 k hk1 hk2

private theorem find_none (b : BufferManager) (p : Byte → Bool) (offset : Nat) (hge : offset ≥ b.len) :
    firstFrom p (content b) offset none := by
  intro k hk1 hk2
  have hl : (content b).length ≤ b.len := by rw [content, List.length_take]; omega
  omega

/-- C27. Searching one character returns the first index from the offset on, or 255, which is never an index, if there is none. -/
theorem C27_char (b : BufferManager) (h : BufOk b) (x : Byte) (offset : Nat) :
    ∃ r, b.findFirstOfChar x offset = .ok r ∧
      ((r = 255 ∧ firstFrom (fun c => c == x) (content b) offset none) ∨
       (r < 255 ∧ firstFrom (fun c => c == x) (content b) offset (some r))) := by
  unfold BufferManager.findFirstOfChar
  split
  · next hge => exact ⟨255, rfl, Or.inl ⟨rfl, find_none b _ offset hge⟩⟩
  · next hlt => exact find_spec b h _ offset hlt

/-- C27. The same for a set of fewer than 256 characters, given as a C string. -/
theorem C27_chars (b : BufferManager) (h : BufOk b) (chars rest : List Byte) (hn : ∀ c ∈ chars, c ≠ 0#8)
    (hl : chars.length < 256) (offset : Nat) :
    ∃ r, b.findFirstOf (chars ++ 0#8 :: rest) offset = .ok r ∧
      ((r = 255 ∧ firstFrom (fun c => decide (c ∈ chars)) (content b) offset none) ∨
       (r < 255 ∧ firstFrom (fun c => decide (c ∈ chars)) (content b) offset (some r))) := by
  unfold BufferManager.findFirstOf
  split
  · next hge => exact ⟨255, rfl, Or.inl ⟨rfl, find_none b _ offset hge⟩⟩
  · next hlt =>
    have e : (fun c => decide (c ∈ chars)) = (fun c => ((chars ++ 0#8 :: rest).take (u8 chars.length)).contains c) := by
      rw [u8, Nat.mod_eq_of_lt hl, List.take_left]
      funext c
      simp
    simp only [strlen_eq chars rest hn, bind, Except.bind]
    rw [e]
    exact find_spec b h _ offset hlt

/-- The character set is cut to its length modulo 256: with 256 characters nothing is ever found. -/
theorem C27_long_set : ∃ b chars, BufOk b ∧ b.findFirstOf (chars ++ [0#8]) 0 = .ok BufferManager.npos ∧
    content b = [65#8] ∧ 65#8 ∈ chars :=
  ⟨{ mem := [65#8], len := 1, cap := 1 }, List.replicate 256 65#8, ⟨by decide, by decide, by decide⟩, by
    have e : strlen (List.replicate 256 65#8 ++ [0#8]) = .ok 256 := by
      have := strlen_eq (List.replicate 256 65#8) [] (by intro c hc; rw [List.eq_of_mem_replicate hc]; decide)
      rwa [List.length_replicate] at this
    simp only [BufferManager.findFirstOf, e, bind, Except.bind]
    rfl, rfl, by rw [List.mem_replicate]; decide⟩

/-! ## C24, C25, C26: sequences of operations -/

private theorem step_one (bs : Nat → BufferManager) (hok : ∀ m, BufOk (bs m)) (i : Nat) (b' : BufferManager) (l : List Byte)
    (g : Goes (bs i) b' l) (m : Nat) :
    Goes (bs m) (if m = i then b' else bs m) (if m = i then l else content (bs m)) := by
  by_cases e : m = i
  · subst e; simpa using g
  · simp only [if_neg e]; exact Goes.refl (hok m)

/-- One operation. -/
theorem buf_step (bs : Nat → BufferManager) (hok : ∀ m, BufOk (bs m)) (op : BufOp)
    (hl : Legal (fun m => (bs m).cap) (fun m => content (bs m)) op) :
    ∃ bs', bufStep bs op = .ok bs' ∧
      ∀ m, Goes (bs m) (bs' m) (listStep (fun m => (bs m).cap) (fun m => content (bs m)) op m) := by
  cases op with
  | pushChar i c =>
    obtain ⟨b', hb, g⟩ := C25_push (bs i) (hok i) c
    exact ⟨_, (by simp only [bufStep, hb, bind, Except.bind]), step_one bs hok i b' _ g⟩
  | append i j start stop =>
    obtain ⟨-, h1, h2⟩ := hl
    have hv := (C28_view (bs j) (hok j) start stop).2.2.1
    obtain ⟨b', hb, g⟩ := C25_append (bs i) ((bs j).subBufferManager start stop) (hok i) (Nat.le_trans hv.len_le hv.mem_le)
    rw [C28_content (bs j) (hok j) start stop h2] at hb g
    exact ⟨_, (by simp only [bufStep, hb, bind, Except.bind]), step_one bs hok i b' _ g⟩
  | move i j =>
    obtain ⟨b', o', n, hb, -, -, g1, g2⟩ := C25_move (bs i) (bs j) (hok i) (hok j)
    refine ⟨_, (by simp only [bufStep, hb, bind, Except.bind]; rfl), ?_⟩
    intro m
    simp only [listStep]
    by_cases e : m = j
    · subst e; simpa using g2
    · simp only [if_neg e]
      exact step_one bs hok i b' _ g1 m
  | pop i n =>
    obtain ⟨b', hb, g, -⟩ := C25_pop (bs i) (hok i) n
    exact ⟨_, (by simp only [bufStep, hb, bind, Except.bind]), step_one bs hok i b' _ g⟩
  | erase i =>
    obtain ⟨b', hb, g, -⟩ := C25_erase (bs i) (hok i).cap_le (hok i).mem_le
    exact ⟨_, (by simp only [bufStep, hb, bind, Except.bind]), step_one bs hok i b' _ g⟩
  | set i text rest =>
    obtain ⟨b', hb, g, -⟩ := C25_set (bs i) (hok i) hl.1 text rest hl.2
    exact ⟨_, (by simp only [bufStep, hb, bind, Except.bind]), step_one bs hok i b' _ g⟩
  | write i k c =>
    obtain ⟨b', hb, g⟩ := C25_write (bs i) (hok i) hl k c
    exact ⟨_, (by simp only [bufStep, hb, bind, Except.bind]), step_one bs hok i b' _ g⟩
  | read i k =>
    obtain ⟨_, hb⟩ := C25_read (bs i) (hok i) hl k
    exact ⟨bs, (by simp only [bufStep, hb, bind, Except.bind]), fun m => Goes.refl (hok m)⟩
  | find i chars rest offset =>
    obtain ⟨_, hb, -⟩ := C27_chars (bs i) (hok i) chars rest hl.1 hl.2 offset
    exact ⟨bs, (by simp only [bufStep, hb, bind, Except.bind]), fun m => Goes.refl (hok m)⟩
  | findChar i c offset =>
    obtain ⟨_, hb, -⟩ := C27_char (bs i) (hok i) c offset
    exact ⟨bs, (by simp only [bufStep, hb, bind, Except.bind]), fun m => Goes.refl (hok m)⟩

private theorem listStep_congr (cap cap' : Nat → Nat) (l l' : Nat → List Byte) (op : BufOp) (h1 : cap = cap') (h2 : l = l') :
    listStep cap l op = listStep cap' l' op := by rw [h1, h2]

/-- C24, C25, C26. Every legal program on buffers runs without leaving the memory of a buffer, keeps every length within the
capacity, leaves every capacity unchanged, acts on the contents as on lists, and keeps the bytes behind the content zero. -/
theorem C25_programs (bs : Nat → BufferManager) (hok : ∀ m, BufOk (bs m)) (ops : List BufOp)
    (hl : LegalRun (fun m => (bs m).cap) (fun m => content (bs m)) ops) :
    ∃ bs', bufRun bs ops = .ok bs' ∧
      ∀ m, Goes (bs m) (bs' m) (listRun (fun m => (bs m).cap) (fun m => content (bs m)) ops m) := by
  induction ops generalizing bs with
  | nil => exact ⟨bs, rfl, fun m => Goes.refl (hok m)⟩
  | cons op ops ih =>
    obtain ⟨bs1, h1, g1⟩ := buf_step bs hok op hl.1
    have ec : (fun m => (bs1 m).cap) = fun m => (bs m).cap := funext fun m => (g1 m).cap
    have el : (fun m => content (bs1 m)) = listStep (fun m => (bs m).cap) (fun m => content (bs m)) op :=
      funext fun m => (g1 m).content
    obtain ⟨bs2, h2, g2⟩ := ih bs1 (fun m => (g1 m).ok) (by rw [ec, el]; exact hl.2)
    rw [ec, el] at g2
    refine ⟨bs2, ?_, ?_⟩
    · simp only [bufRun, List.foldlM_cons, h1, bind, Except.bind]
      exact h2
    · intro m
      exact ⟨(g2 m).ok, by rw [(g2 m).cap, (g1 m).cap], (g2 m).content, fun hz => (g2 m).zero ((g1 m).zero hz)⟩

/-- C24. -/
theorem C24_bounds (bs : Nat → BufferManager) (hok : ∀ m, BufOk (bs m)) (ops : List BufOp)
    (hl : LegalRun (fun m => (bs m).cap) (fun m => content (bs m)) ops) :
    ∃ bs', bufRun bs ops = .ok bs' ∧ ∀ m, (bs' m).len ≤ (bs' m).cap ∧ (bs' m).cap = (bs m).cap := by
  obtain ⟨bs', h, g⟩ := C25_programs bs hok ops hl
  exact ⟨bs', h, fun m => ⟨(g m).ok.len_le, (g m).cap⟩⟩

/-- The preconditions are needed: a buffer of capacity 0 cannot store a string, and an empty one cannot be indexed
(`C24_empty_index`). -/
theorem C24_set_capacity (b : BufferManager) (h : b.cap = 0) (text : List Byte) : b.set text = .error .oobWrite := by
  simp [BufferManager.set, BufferManager.erase, h, pokeAt, bind, Except.bind]

/-- C26. After `erase`, whatever a legal program does, the bytes behind the content are zero; and `data()` is then a C string with
the content as its characters whenever the buffer is not full and holds no zero byte. -/
theorem C26_terminated (bs : Nat → BufferManager) (hok : ∀ m, BufOk (bs m)) (i : Nat) (ops : List BufOp)
    (hl : LegalRun (fun m => (bs m).cap) (fun m => content (bs m)) (.erase i :: ops)) :
    ∃ bs', bufRun bs (.erase i :: ops) = .ok bs' ∧ ZeroTail (bs' i) ∧
      ((bs' i).len < (bs' i).cap → (∀ c ∈ content (bs' i), c ≠ 0#8) → cstr (bs' i).mem = .ok (content (bs' i))) := by
  obtain ⟨b1, he, g1, z1⟩ := C25_erase (bs i) (hok i).cap_le (hok i).mem_le
  have hs : bufStep bs (.erase i) = .ok (fun m => if m = i then b1 else bs m) := by simp only [bufStep, he, bind, Except.bind]
  have gg : ∀ m, Goes (bs m) (if m = i then b1 else bs m) (if m = i then [] else content (bs m)) := step_one bs hok i b1 _ g1
  have ec : (fun m => (if m = i then b1 else bs m).cap) = fun m => (bs m).cap := funext fun m => (gg m).cap
  have el : (fun m => content (if m = i then b1 else bs m)) = listStep (fun m => (bs m).cap) (fun m => content (bs m)) (.erase i) :=
    funext fun m => (gg m).content
  obtain ⟨bs2, h2, g2⟩ := C25_programs (fun m => if m = i then b1 else bs m) (fun m => (gg m).ok) ops
    (by rw [ec, el]; exact hl.2)
  have hz : ZeroTail (bs2 i) := (g2 i).zero (by simpa using z1)
  refine ⟨bs2, ?_, hz, ?_⟩
  · simp only [bufRun, List.foldlM_cons, hs, bind, Except.bind]
    exact h2
  · intro hlt hn
    obtain ⟨h3, h4, h5⟩ := (g2 i).ok
    generalize bs2 i = b at *
    obtain ⟨n, en⟩ : ∃ n, b.cap - b.len = n + 1 := ⟨b.cap - b.len - 1, by omega⟩
    have em : b.mem = content b ++ 0#8 :: (List.replicate n 0#8 ++ (b.mem.drop b.len).drop (n + 1)) := by
      rw [ZeroTail, List.drop_take, en, List.replicate_succ] at hz
      rw [← List.cons_append, ← hz, List.take_append_drop, content, List.take_append_drop]
    conv => lhs; rw [em]
    exact cstr_eq _ _ hn

/-- Without `erase` the memory behind the content is whatever the memory held before. -/
theorem C26_erase_needed : ∃ b, BufOk b ∧ ¬ZeroTail b ∧ b.len < b.cap ∧ cstr b.mem ≠ .ok (content b) :=
  ⟨BufferManager.construct [1#8, 2#8, 0#8] 3, ⟨by decide, by decide, by decide⟩, by unfold ZeroTail; decide, by decide, by
    intro h
    have h' : (Except.ok [1#8, 2#8] : Res (List Byte)) = .ok [] := h
    cases h'⟩

/-! A concrete program: two buffers of 4 and 6 bytes. -/

/-- two buffers on uninitialised memory -/
def exampleBufs : Nat → BufferManager
  | 0 => BufferManager.construct [7#8, 7#8, 7#8, 7#8] 4
  | _ => BufferManager.construct [8#8, 8#8, 8#8, 8#8, 8#8, 8#8] 6

/-- what is done with them -/
def exampleOps : List BufOp :=
  [.erase 0, .erase 1, .set 1 (str "abcdefg") [9#8], .move 0 1, .pop 0 2, .pushChar 0 (ch 'x'), .append 1 0 1 3, .write 1 9 (ch 'z'),
   .read 0 0, .findChar 0 (ch 'x') 1, .find 0 (str "xy") [] 0]

example : (∀ m, BufOk (exampleBufs m)) ∧
    LegalRun (fun m => (exampleBufs m).cap) (fun m => content (exampleBufs m)) exampleOps := by
  refine ⟨?_, ?_⟩
  · intro m
    unfold exampleBufs
    split <;> exact ⟨by decide, by decide, by decide⟩
  · simp only [exampleOps, LegalRun, Legal]
    decide

example : (bufRun exampleBufs exampleOps).map (fun bs => (content (bs 0), content (bs 1))) = .ok (str "cdx", str "edz") := rfl

example : (BufferManager.construct [1#8, 2#8, 3#8] 3).subBufferManager 1 9 = { mem := [2#8, 3#8], len := 2, cap := 2 } := by decide

end RR32
